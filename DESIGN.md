# A Lean 4 model of autocxx

This directory holds a machine-checked model of the decision-making core of
google/autocxx (source in `/repo`, read as text, never run), the list of
properties users rely on (`properties.jsonl`), and proofs about the model.

## 1. Method

* The model is a set of total, computable Lean functions (`lean/Verif/*.lean`)
  written function by function after the Rust. Each definition cites the file
  and lines it models and names every simplification.
* `&mut` becomes a returned value, a loop becomes structural recursion or a fold,
  a panic becomes an explicit error value (`Except`, `Option`, or a dedicated
  constructor), never a default value.
* For each area there is a model file (`Verif/X.lean`) and a property file
  (`Verif/XProps.lean`) which has the specification predicates and the
  theorems of the manifest, together with an `example` exhibiting a non-trivial
  instance of the hypotheses.
* Identifiers are `String`s. String algorithms (prefix tests, splitting, suffix
  stripping) are written over `List Char`.
* Where reading shows that the code violates the English property, the negation is
  proved from a concrete witness (theorem suffix `_false` / `_witness`), and the
  strongest true version we could prove is named `_partial`. Section 5 lists them.

## 2. Trusted base

* Lean 4.33.0's kernel. No `sorry`, `admit`, own axioms, `native_decide`,
  `bv_decide`, `implemented_by`, `unsafe`. Theorems depend on at most `propext`,
  `Classical.choice`, `Quot.sound` (checked with `#print axioms`).
* My reading of the Rust: the theorems are about the model, and the model is tied to
  the code only by the citations.
* Assumed and not modelled: rustc, syn/quote/proc_macro2 tokenisation, bindgen and
  libclang (what they output is an arbitrary input of the model), cxx and cxx_gen,
  the C++ compiler, the OS file system beyond a map from names to contents,
  `DefaultHasher` (a parameter `hash`), `regex` (the one pattern used is
  re-implemented), hash-map iteration order (the code uses IndexMap/IndexSet, whose
  insertion order is modelled by lists).

## 3. Plan per property

| id | what is modelled | how it is proved |
|----|------------------|------------------|
| C01 | `ApiVec` as list + name list; push/append/extend/retain | invariant by induction over operations; push characterised entry by entry |
| C02 | the GC work-list loop over apis with a deps function | loop invariant: output = inductive `Reach` closure; measure for termination |
| C03 | the fixed-point loop of `remove_ignored.rs` | false as stated (witness); partial: nothing depends transitively on an initially ignored item |
| C04 | `convert_apis` & co. as functions with failing callbacks; remove_ignored | list induction, names preserved |
| C05 | the queue iterator of `depth_first.rs` | loop invariant over queue/yielded; panic iff stuck |
| C06 | `check_names` second pass | counting lemma |
| C07 | `validate_ident_ok_for_cxx`, first pass of `check_names` | characterisation by substring predicate |
| C08 | `OverloadTracker` | false as stated (witness); partial for names with no trailing digit |
| C09 | `BridgeNameTracker` | false as stated (witness); partial; C06 as the net |
| C10 | `ByValueChecker` | invariant by induction over ingested types; typedef hole is a witness |
| C11 | `satisfy_requests` work list | termination measure, closure invariant |
| C12 | `mark_types_abstract` | induction over the hierarchy order against an inductive spec |
| C13 | `find_constructors_present` | refinement to a C++ rule spec; deviations as witnesses |
| C14 | `implicit_*_needed`, `add_constructors_present` | case analysis lifted over all classes |
| C15 | `Allowlist` state machine | induction over directive sequences |
| C16 | `is_on_allowlist` & co. | iff with a spec; namespace boundary is a witness |
| C17 | directive parse/print | round-trip per directive list |
| C18 | `UnsafePolicy`, `should_be_unsafe`, `from_param_details` | fold = maximum; decision table |
| C19 | `Namespace`, `QualifiedName` | split/join round-trip by induction |
| C20 | `SubclassName` | string lemmas |
| C21 | `resolve_typedef` | termination via set of encountered names; iff loop |
| C22 | `get_templated_typename` | invariant over history |
| C23 | reference-return rules | decision table over all parameter lists |
| C24 | `add_explicit_lifetime_if_necessary`, and the signatures made with it | what is written where, as an exact case distinction; then for every analysed function, from the conversions its parameters were given |
| C25 | `TypeConversionPolicy` both sides | case analysis for all types; for the Rust side, a typing of the values the generated code computes (`HasType`); functions whose C++ is made up are followed to their text, and shown to be only casts, allocators and deallocators (`delivered_made`) |
| C26 | `generate_cpp_function_inner`, `reorder_parameters`, `common_parts` | a small syntax of C++ expressions and functions (`CExpr`, `CFunction`): the text generated is shown to be the rendering of one which passes each argument once, in order; for the Rust side, an evaluation of the generated syntax tree in which a value which was moved cannot be used again, and which records each call made to the bridge |
| C27 | `needs_cpp_codegen` vs `add_needs`, `generate` | case analysis for all apis; the loop's result characterised item by item and subclass by subclass; everything made is part of the text of a file |
| C28 | `NamespaceEntries`, `append_child_bindgen_namespace`/output modules, the `use` paths | the tree is characterised entry by entry; following module names from the root leads to exactly the items of a namespace; the paths of `use` items are followed through `super` and names |
| C29 | `maybe_unsafes_to_tokens` | list induction with an invariant of the loop; the result is shown to be the only tidy one |
| C30 | subclass ownership machine | invariants by induction over histories of operations, exact counts in each mode; a dangling peer is a witness |
| C31 | handler state machines, frame of the generated function | events on every object counted exactly; panicking constructor is a witness |
| C32 | everything `main` writes (`mainActions`), as a list of writes | the list of names is computed in closed form (`main_names`) |
| C33 | `Depfile` | induction over operations |
| C34 | header namers, all file names of a run | injectivity of printing every kind of name (`render_inj`) |
| C35 | `FileWriter::write_to_file` | false as stated (stale file witness); partial for fresh directory |
| C36 | the two `write_to_file`s | file map model; the operating system decides the outcome of every step, so every crash point is covered |
| C37 | `FileLocationStrategy` | case analysis for all environments; witness |
| C38 | `MultiBindings` | map laws; witness for mutated configuration |
| C39 | engine state machine | induction over calls |
| C40 | `parse_file_contents` over a tree of items | structural induction; witness for nested block |
| C41 | the whole built-in table | complete finite table by `decide`, lifted to all names |
| C42 | `ErrorContext` | case analysis |
| C43 | `replace_hopeless_typedef_targets` | list reasoning |
| C44 | `add_casts` | list reasoning; name collision is a witness |
| C45 | allocators + constructor_deps + gc | composition with C02 |
| C46 | `append_ctype_information` | list reasoning |
| C47 | `ast_discoverer` over `syn`'s whole syntax tree, composed with `parse_file` and with the check of directives | each kind of syntax has parts looked at and parts left out (specification); mutual induction shows the search finds just what is reached through the former; missed positions, `ffi` as a variable and the fixed module name are witnesses |
| C48 | recorder | induction over calls |
| C49 | suffix strip | string lemma |
| C50 | the whole of `parse_items`, with `confirm_all_generate_directives_obeyed` | a relation giving the fate of each item of bindgen's output, proved equivalent to the parser by mutual recursion; then list reasoning |
| C51 | `CppConversionType::inverse` | table; `Move` is a witness |
| C52 | `convert` from bindgen's output to the list handed to the code generators, as one function | what each stage leaves is threaded through all of them (`ConvertStages`): names and bridge names unique, everything reachable from the allowlist, everything needed is there, nothing invented; whole runs evaluated by the kernel as witnesses |
| C53 | `make_clang_args`, `strip_system_headers` | list reasoning |
| C54 | `RustPath`, `SubclassAttrs` parsers over token lists | induction over tokens |
| C55 | `convert_type` contexts, `find_incomplete_types` | induction over the recursion of the converter |
| C56 | `Annotated::types_encountered` | same |
| C57 | the converter's recursion with an explicit depth | well-founded order on typedefs; divergence is a witness |
| C58 | `TypeKind` | same |
| C59 | the blocklist check | same |
| C60 | `convert_typedef_targets` | a relation between items before and after, threaded through the pass |
| C61 | `analyze_pod_apis` | same, with the fields of each struct related to the converter's specification |
| C62 | `analyze_foreign_fn`, the order of its checks | the steps of an analysis are laid out once (`FnSteps`), each check inverted |
| C63 | `argument_conversion_details`, return conversions | case analysis over all parameters; mutable references are a witness |
| C64 | how `analyze_foreign_fn` decides the kind of a function | an inductive specification of what each declaration should be bound as; witnesses for wrapped references and names with digits |
| C65 | naming at the end of `analyze_foreign_fn` | inversion of the last step; a whole run: each delivered function is in the generated module of its namespace under its name (`function_visible`) |
| C66 | `analyze_foreign_fn_and_subclasses`, `add_subclass_constructors` | the whole pass as a trace of analyses (`FnPassStages`); lost parameters are a witness; the loop over subclasses keeps that all it makes is made for one method (`MadeForMethod`), and the pass is cut into its steps |
| C67 | the callbacks bindgen makes, and looking their results up by name | fold over the reports, each map tied to the last report; two overloads whose names clash once the suffix is cut are a witness |
| C68 | the rest of Rust code generation, as a syntax tree, and the conversion up to it | every kind of item inverted (`ItemCode`), the file as the union of what they give (`RsParts`); the assumptions about the items hold of what every run delivers (`codegen_items`); clashing traits and an override without its subclass are witnesses by whole runs; names in signatures followed back through the analysis to the dependencies and from there to the items delivered (`NameFrom`) |
| C69 | the bodies of generated functions as statements, with the blocks they have | what is exposed outside of blocks and what is in a block for nothing are functions of the syntax tree alone; the fold over parameters keeps both (`PartsSafe`), the modes of parameters come from the analysis; a subclass is a witness against the part about pointers |
| C70 | signatures as trees of types; the parser, the passes and both code generators of a whole run | which types are accepted is an inductive relation, shown equal to what the recursive check accepts, and likewise for each reason to refuse; the declared types follow from the closure of what a run delivers; two runs are witnesses against the claim that accepted functions are declared |
| C71 | the panics of the code are values of the model, so that a theorem can say they are not reached | an invariant of names (identifiers which lead with a letter, none of them `Pin`) is kept by the conversion of types, by induction on the depth of conversion; conversions are shown to be repeatable by induction; the analysis of each function, of its versions for subclasses and of made-up members is shown to keep the invariant and not to panic (`function_pass_safe`); the other passes keep conditions on the items which imply the next pass's, so that no pass up to the garbage collector panics for well-named items (`convert_safe`); what the function analysis says of a function is shown to be what both generators need of it (`Done`, `OutOk`), and an invariant of the loop over the items gives that the C++ generator panics only over overrides which take an owner (`generateCppCode_np`), so that the whole conversion panics only in two cases (`convertAll_panics`); the parser is shown to give well-named items for a well-named header (`header_found`), so that the conditions are on what bindgen reports (`convert_header_panics`); the name of a converted type is traced back to the name it was written with, through typedefs, so that the order of classes is a condition on the header as well (`header_held`, `convert_ordered_panics`); whole runs are witnesses against the claim |
| C72 | a machine with a memory, owners (boxes, pins, `UniquePtr`s, their pins) and held references, which runs any list of operations; each reference carries, as a ghost, the object it was taken from | an invariant of who owns what, kept by every operation, gives that objects stay in their places and are destroyed once; a second one, kept by all operations but the assignment through a pin's `deref_mut`, gives that references refer to what they were taken from (`reference_kept_partial`) and when a write is undefined; short programs are witnesses against the rest |
| C73 | the attribute as a function from a struct and tokens to a struct, the paths in the trait implementations, or an error | the function is characterised (`subclass_expands_iff`, `subclass_refused_iff`); its paths are compared with the generated file, by the items which each piece of generated code comes from (`peer_found_iff`, `structs_needed`), and then for whole runs (`subclass_fits_partial`) |
| C74 | the output modules and the `impl` blocks of the model of the generated code | the names of every module and of every `impl` block are given exactly, as lists (`module_names`, `member_names`); the wishes put to the overload tracker are threaded through the whole pass (`names_in_pass`), so that two functions seen in the same place have the same name only in the case where the tracker fails (`delivered_names_partial`); what is made up for subclasses in Rust and what is at the very top is covered too (`top_names`, `rust_names_once_partial`) |

## 4. What is modelled and what is not

Modelled (file in `/repo` → modules in `lean/Verif`). Everything not listed is not modelled.

| code | modules |
|------|---------|
| engine/src/types.rs | NameCore, Names, NamesProps |
| macro/src/lib.rs (subclass, extern_rust_type, extern_rust_function) | SubclassMacro, SubclassMacroProps |
| src/reference_wrapper.rs (without lifetimes and the unsizing instances), src/lib.rs (within_box, within_cpp_pin, within_unique_ptr: which kind of owner they make) | CppRefs, CppRefsProps |
| engine/src/known_types.rs | KnownTypes, KnownTypesLit, KnownTypesProps |
| engine/src/conversion/apivec.rs, convert_error.rs (contexts), conversion/error_reporter.rs | ApiVec, ApiVecProps, Names |
| parser/src/config.rs, directives.rs, path.rs, subclass_attrs.rs, multi_bindings (key only) | Config, ConfigProps, ConfigParse, ConfigParseProps, SubclassAttrsProps |
| engine/src/conversion/analysis/gc.rs, deps.rs | Gc, Deps, GcProps |
| engine/src/conversion/analysis/remove_ignored.rs | RemoveIgnored, RemoveIgnoredProps |
| engine/src/conversion/analysis/depth_first.rs | DepthFirst, DepthFirstProps |
| engine/src/conversion/analysis/name_check.rs, ctypes.rs | NameCheck, NameCheckProps |
| engine/src/conversion/analysis/fun/overload_tracker.rs, bridge_name_tracker.rs | Trackers, TrackersProps |
| engine/src/conversion/analysis/pod/byvalue_checker.rs | ByValue, ByValueProps, ByValueMore |
| engine/src/conversion/analysis/abstract_types.rs | Abstract, AbstractProps |
| engine/src/conversion/analysis/fun/implicit_constructors.rs, fun/mod.rs (add_constructors_present) | Implicit, ImplicitProps, ImplicitSound |
| engine/src/conversion/analysis/type_converter.rs, type_helpers.rs, codegen_cpp/type_to_cpp.rs | TypeConv, TypeToCpp, TypedefProps, TemplateNameProps, TypeConvProps, TypeConvMore |
| engine/src/conversion/analysis/tdef.rs, pod/mod.rs, replace_hopeless_typedef_targets.rs, casts.rs, allocators.rs, constructor_deps.rs | Passes, PassSpec, TypedefPassProps, PodPassProps, PodPassMore, SmallPassProps, AllocProps |
| engine/src/conversion/analysis/fun/function_wrapper.rs, conversion/codegen_cpp/function_wrapper_cpp.rs (types only), fun/mod.rs (UnsafetyNeeded) | Policy, PolicyProps |
| engine/src/parse_callbacks.rs | Callbacks, CallbacksProps |
| engine/src/conversion/parse/parse_bindgen.rs, parse_foreign_mod.rs, extern_fun_signatures.rs, conversion/utilities.rs (bindgen's output as a tree of items; reading a signature's tokens is a parameter) | ParseBindgen, ParseBindgenProps, ParseItemsProps, ParseWitness, DirectiveExamples |
| engine/src/conversion/mod.rs (`convert` up to C++ code generation) | Pipeline, PipelineProps, PipelineFnProps, PipelineExamples |
| engine/src/conversion/codegen_cpp/mod.rs, new_and_delete_prelude.rs, function_wrapper_cpp.rs | CppGen, CppGenProps, CppWrapProps, CppSubProps, CppGenExamples, CppNeedsProps, CppTotalProps, CppNeedsExamples, CppMadeProps, CppMadeExamples, HelperNameProps, HelperNameExamples |
| gen/cmd/src/main.rs (names and writes), gen/cmd/src/depfile.rs, engine/src/builder.rs (names and writes), engine/src/lib.rs (header namers, clang arguments, system header filter), gen/build/src/lib.rs (recorder) | OutFiles, OutFilesProps, OutNamesProps |
| engine/src/lib.rs (`IncludeCppEngine` states), engine/src/parse_file.rs (the search of items is a parameter) | ParseFile, ParseFileProps |
| engine/src/ast_discoverer.rs (tokens of macros as their paths; of generics only bounds; attributes on items only) | Discover, DiscoverProps, DiscoverFileProps |
| parser/src/file_locations.rs, parser/src/multi_bindings.rs, engine/src/output_generators.rs, parser/src/lib.rs (`generate_rs`); Unix paths, hash and token printing as parameters | Locations, LocationsProps |
| engine/src/conversion/codegen_rs/namespace_organizer.rs, codegen_rs/mod.rs (output modules; items are a parameter) | NsTree, NsTreeProps |
| engine/src/conversion/codegen_rs/mod.rs (`MaybeUnsafeStmt`) | RsBody, RsBodyProps |
| engine/src/conversion/codegen_rs/fun_codegen.rs, function_wrapper_rs.rs, lifetime.rs, unqualify.rs (code as a syntax tree) | RsFn, RsCallProps, RsFnProps, RsFnExamples, RsTypeProps, LifetimeProps, LifetimeExamples |
| engine/src/conversion/codegen_rs/mod.rs (all of the rest), impl_item_creator.rs, non_pod_struct.rs (code as a syntax tree; attributes and documentation left out), engine/src/conversion/mod.rs (to the end) | RsGen, RsGenProps, RsDeclProps, RsPipeProps, RsGenExamples, RsSigProps, RsSigExamples, RsUnsafeProps, RsSubProps, RsSubExamples, RsNamesProps, RsNamesExamples, RsSubNamesProps, RsSubNamesExamples, TraitMethodProps, TraitRunProps, TraitMethodExamples, VectorExamples |
| src/value_param.rs, src/rvalue_param.rs (memory as a list of events on objects) | ValueParam, ValueParamProps |
| src/subclass.rs, and the code generated around it by codegen_rs/mod.rs:538-740 and codegen_cpp/mod.rs:733-753 (reference counts and borrow flags as numbers; freeing the box of a running method is left out) | SubclassPeers, SubclassPeersProps |
| engine/src/conversion/analysis/fun/mod.rs (all but the special member analysis, which is above), fun/subclass.rs | FnAnalyze, FnPass, FnInv, FnProps, FnExposedProps, FnParamProps, FnRefProps, FnKindProps, FnDepProps, FnExamples, FnStateProps, FnPassProps, FnPassExamples, FnMoreProps, FnMoreExamples, FnNamesProps |

General simplifications, beside those named in the definitions' comments:

* `syn::Type` is reduced to paths (with generic arguments on the last segment), references, pointers,
  arrays and an opaque rest; attributes and spans are left out.
* `IndexMap` and `IndexSet` are association lists and lists in insertion order; `HashMap` likewise, which
  is sound because no modelled result depends on its order.
* Rust's `panic!`, `unwrap` on `None` and `assert!` are error values which theorems speak about.

`DecideKnown.lean` has a tactic, `decide_known`, for closed goals about the table of built-in types. It
proves a copy of the goal in which the table is a literal, by `decide` in the kernel, and transports the
result along equations proved in Lean. `DecideRun.lean` does the same for three loops defined by well-founded
recursion, so that whole runs of the conversion can be evaluated. It adds nothing to the trusted base: the result is an ordinary proof
term, checked by the kernel.

## 5. Disagreements between the code and the properties

Each line is a theorem: a concrete input for which the English claim fails of the model. I have not run the
code, so each is a claim about the source as read.

| claim | theorem | what happens |
|-------|---------|--------------|
| C01 | apivec_append_source_stale_witness | a vector emptied by `append` keeps its index of names |
| C03 | remove_ignored_unknown_false | an item replaced because of an unknown type does not take its users with it |
| C04 | report_any_error_method_takes_type_witness | the marker for a failed method is filed under the type's name, and the type is later lost |
| C06 | check_names_subclass_peer_false | the peer class of a subclass is not looked at when bridge names are compared |
| C08 | overload_names_distinct_false | overloads `bob`, `bob` and a function `bob1` get equal names |
| C09 | bridge_names_distinct_false, bridge_names_in_pass_false, underscore_clash_witness | `do_autocxx1`, `do`, `do` get equal names, also in a pass; methods `take` and `take_` of a superclass are both lost |
| C10 | pod_typedef_field_false, pod_array_field_false | a struct holding a typedef or an array of std::string passes as POD |
| C11 | pod_request_ignored_false, pod_order_false | a request on a typedef of std::string is silently dropped; results depend on order |
| C12 | abstract_destructor_false | a class whose only pure virtual member is its destructor is not abstract, and keeps its constructors |
| C13, C14 | move_assignment_false, non_const_copy_false, defaulted_member_false, move_of_indestructible_false, pointer_field_default_false, array_member_order_false | implicit special members differ from those C++ gives |
| C16 | generate_ns_boundary_false | `generate_ns!("a")` also covers namespace `ab` |
| C17 | print_parse_module_false, print_parse_receiver_false, print_parse_empty_false | configurations which do not survive printing and parsing |
| C19 | qname_cpp_roundtrip_exact_false | built-in types change their spelling |
| C20 | subclass_peer_clash_witness | a subclass called `ACpp` clashes with the peer of `A` |
| C22 | concrete_name_clash_false, template_name_panic_false, instantiation_declared_false | two instantiations get one name; `_3D<int>` panics; an instantiation in a container is not declared |
| C41 | known_pod_safe_has_constructor_false | `char16_t` has no constructors recorded |
| C46 | append_ctypes_clash_false | a global C++ class named like a C type destroys both |
| C49 | bindgen_suffix_type_witness | type names containing `_bindgen_original` are cut |
| C54 | subclass_attrs_repeat_false | `self_owned` may be repeated |
| C55 | forward_array_false | an array of a class of which only a declaration was seen is accepted |
| C57 | convert_diverges_false | a typedef holding itself in a container makes the converter recurse for ever |
| C58 | kind_typedef_ref_false, kind_typedef_mut_ref_false | parameters declared through typedefs of references |
| C56, C59 | blocklist_template_false, template_reference_argument_false | the arguments of templates are neither checked, converted nor recorded |
| C43 | hopeless_chain_false, hopeless_use_false | a typedef of a nested typedef which the pass itself reports stays; so does a `use` of an ignored item |
| C44 | casts_collide_false | a class with two bases of one name in different namespaces can be cast to neither |
| C45 | allocators_clash_false | a function called `S_autocxx_alloc` destroys the allocator of `S`, and itself |
| C51 | inverse_pointer_false | the inverse of a value passed by pointer makes a `unique_ptr` |
| C23 | reference_typedef_false | a reference declared through a typedef is not counted, so a function taking two references may return one |
| C63 | mutable_parameter_false, slice_wrapped_witness | mutable references stay Rust references; a string slice is handed over as a thin pointer |
| C64 | copy_wrapped_false, numbered_method_false, numbered_static_panics | where references are wrapped a copy constructor is not one; a method `Foo1` of a class `Foo` is taken for a constructor, and panics if it is static and takes nothing |
| C66 | override_parameters_false, override_loses_parameter_witness | a pure virtual method with a parameter of an unsupported type is overridden by a function lacking that parameter |
| C66 | private_super_witness | a private virtual method of the superclass is offered for calling |
| C27 | array_reference_false | a function with a reference to an array as a parameter, and a wrapper, is accepted; writing its C++ fails and ends the run |
| C65 | nested_static_call_false | a static method of a nested class `A::B` is called as `A_B::make()` |
| C66, C51 | override_wrapped_false, override_rvalue_false | where references are wrapped, and for rvalue references, the override has other parameter types than the method |
| C66, C51 | override_owner_false | a virtual method taking a `std::unique_ptr` is accepted and the generator panics |
| C33 | depfile_blank_false | a path with a blank is written unescaped to the depfile, and `make` reads two files |
| C35 | conflict_false, conflict_after_overwriting_witness | two input files with blocks for one module: if the directory holds the first one's header from an earlier run, the second replaces it silently; otherwise the run is refused after the header has been replaced |
| C34 | extension_clash_witness | with an exact count and the extension `h`, implementation files and cxx headers share names |
| C40 | nested_block_panics_false | a block without an allowlist within a module: its allowlist is never decided and generating panics |
| C40 | nested_block_conflict_false | a file whose only block is within a module and where something is discovered: a second block with the same name is made up and generating fails |
| C40 | parse_only_panics_false | a block for parsing only in a file where something is discovered: parsing panics |
| C37 | autocxx_rs_false | AUTOCXX_RS set for the build script: code is written to its `rs` directory and read from the directory itself, for all directories and blocks |
| C37 | relative_custom_false, empty_outDir_false | a relative custom directory or an empty OUT_DIR means different places to the build script and to the macro |
| C38 | archive_misses_false, archive_misses_discovered_false | bindings are archived under the hash of the configuration as completed by the generator, the macro looks for the one as written: blocks without an allowlist and blocks given something discovered are not found |
| C26 | space_captured_false | a parameter called `space0` beside one passed by value: the local variable of that name hides the parameter, and the wrong value is handed over |
| C26 | placement_name_false | a parameter called `placement_return_type` of a function returning by value: the generated closure has the name twice, and the place is handed over instead of the argument |
| C26 | two_places_false | a method named like its class with a number after it, returning by value, is taken for a constructor (C64): it is given two places |
| C24 | wrapped_lifetime_false, wrapped_new_false | where references are wrapped (`unsafe_references_wrapped`), `const Foo &get(const Foo &)` becomes `fn get<'a>(f: CppRef<Foo>) -> CppLtRef<'a, Foo>`: the lifetime is on no parameter, so it can be chosen to be anything; the same for `impl New` made of a wrapped reference |
| C31 | panicking_constructor_false | an argument whose constructor (`impl New`) panics: the handler was already marked as holding a value, so its destructor runs on memory which was never initialised |
| C30 | peer_after_delete_false | a C++-owned subclass whose peer is deleted by C++ during one of its own virtual methods: `peer()` then hands out a reference to the deleted object |
| C67 | facts_reported_false | `f()`, `f(int)` and a deleted `f1()`: bindgen's `f_bindgen_original1` becomes `f1`, so that what is known about one is used for the other |
| C50 | directives_obeyed_false | a nested class asked for by its C++ name `Outer::Inner` is refused, for it is compared with the name `Outer_Inner` which bindgen made up |
| C04 | unexpected_item_vanishes | an item of a kind which is not expected, such as a union, leaves no trace |
| C04 | builtin_name_vanishes | a class in the root namespace with the last part of any built-in type's name, such as `Str`, leaves no trace |
| C49, C65 | overload_clash_witness | `f()`, `f(int)` and `f1()`: the last two both become `f1`, so that neither has a binding |
| C04 | refused_function_vanishes, dropped_function_vanishes | a free function which is refused or dropped is reported under its name in Rust or in the bridge; if that is not the name the user asked for, no trace is left |
| C04 | requested_function_vanishes_false | a whole run: `f` returns a private nested class through a public alias; it is asked for, the run succeeds, and nothing at all is delivered |
| C04 | method_named_as_class_vanishes_false | a whole run: a method with the name of another class leaves no trace, although its class was asked for |
| C50, C52 | unrequested_method_spoils_class_false | a whole run: the one class asked for is given up because a class nobody asked for has a method of that name |
| C06, C52 | ctype_bridge_clash_false | C types are added after the check for unique names in the bridge, and may take a name which is in use there |
| C47 | used_but_missed_false | a C++ item is not asked for if it is used only in a struct's field, `use`, type alias, static, constant, macro, cast, struct expression, closure parameter, `match` arm, `for` pattern, turbofish, qualified self type, `let … else`, array length, bound, or the signature of a method |
| C47 | found_names_false, local_variable_refused_false | a local variable called `ffi` asks for an item with an empty name, and so makes parsing fail; `ffi::A::new` asks for an item `A::new`; `crate::ffi::A` and blocks renamed with `name!` are not found |
| C47 | offered_methods_false | a function without receiver in an `impl` block is offered to C++ as a method; in `self: Pin<&mut Self>` the type stays `Self` |
| C66, C68 | override_without_trait_method_false | a whole run with superclasses `A` with a virtual method `b_c` and `A_b` with a virtual method `c`: both are filed as `A_b_c_trait_item`, so the trait `A_b_methods` has no method `c`, which the override of it calls |
| C68 | override_without_holder_false | a whole run with a subclass called `S__x`: the subclass is given up, the functions which override its methods are not, and take a type which the bridge does not declare |
| C12 | exSub_run | the comment at conversion/mod.rs:156-158 says that no smart pointers are made for abstract classes; they are, and a `CxxVector` too |
| C69, C68 | override_pointer_false | a whole run with a virtual method taking `D &&`: the function C++ calls takes a raw pointer and is not `unsafe`, which `cxx` refuses; and the method calling the superclass passes this pointer where an `impl RValueParam<D>` is wanted |
| C70 | same_method_false | a whole run in which two types of Rust each offer a method `go` to C++: functions are filed by name alone, so neither is declared |
| C70 | isize_function_false | a whole run in which a function taking an `isize` is offered to C++: `cxx` knows this type but the table of known types does not, so the function is not declared |
| C68 | same_rust_type_false | Rust types of two modules with one name, such as `a::T` and `b::T`, are used: they are filed by their last part alone, so neither is declared |
| C71 | pin_class_panics_false | a whole run for a header with a class `Pin` and a function which takes a `Foo<Pin>`: when the name of the instantiation is written in C++, the class is taken for Rust's `Pin`, and the run panics (type_to_cpp.rs:80-90) |
| C71 | template_name_panic_false, numbered_static_panics | an instantiation of a template called `_3D`, and a static method `Foo1()` of a class `Foo`, make the run panic |
| C71 | override_owner_crashes_false | a whole run in which a Rust subclass derives from a class with a virtual method taking a `std::unique_ptr`: the conversion of the parameter has no inverse, and the run panics (function_wrapper.rs:36-47) |
| C72 | deref_assign_false, deref_assign_undefined_false | `*p = *q` for two pins compiles without `unsafe` (src/reference_wrapper.rs:508-512); methods called on `p` then go to `q`'s object, also after it is destroyed, while `p.as_cpp_ref()` is still right |
| C72 | null_pin_false | for a null `UniquePtr` in a `CppUniquePtrPin`, `as_cpp_ref` panics as it says, but `as_cpp_mut_ref` and `deref` give a null reference (src/reference_wrapper.rs:527-559) |
| C72 | outlives_pin_false | `as_cpp_ref` and `as_cpp_mut_ref` give references without a lifetime, so that they can outlive the pin in safe code, although the documentation says that the borrow checker prevents this (src/reference_wrapper.rs:361-363,488-498) |
| C73 | renamed_module_false | `#[subclass]` always says `ffi::XCpp` (macro/src/lib.rs:40-43), so that it cannot be used if the module has been renamed by `name!` |
| C73 | second_peer_field_false, generic_subclass_false | a struct which has a field `cpp_peer` gets another one, and for a generic struct the traits are implemented for its bare name (macro/src/lib.rs:46-57,70); neither is refused |
| C73 | extern_type_on_function_false | `#[extern_rust_type]` may be put on a function (macro/src/lib.rs:95); the build script then offers nothing to C++ and says nothing |
| C73 | nested_subclass_false | a subclass in an inner module is taken down by its bare name (engine/src/parse_file.rs:156,173), and the generated code says `super::Y` of it |
| C65, C74 | numbered_names_false | a class with two constructors and a method `new1` gets two methods called `new1` (overload_tracker.rs, fun/mod.rs:1524-1527): the generated code does not compile |
| C28, C74 | reserved_namespace_false | a namespace called `output` (likewise `bindgen`, `cxxbridge`, `root`) becomes a module of that name beside the item of that name which is always there (codegen_rs/mod.rs:153-253) |
| C45, C14 | underscore_helpers_false (in general: ConvertStages.underscore_storage, underscore_destructor) | a run for `struct foo_ { int x; };`: the names of its allocator, deallocator and implicit destructor would have two underscores in a row, which `cxx` refuses, so the class is delivered with constructors but cannot be put on the C++ heap and is never destroyed |
| C18, C69 | returned_pointer_false | `Bar *first(Bar b)`: a function which gives back a raw pointer but takes none is not `unsafe` |
| C74 | made_name_false | a class `C` with a subclass in Rust gets a trait `C_methods` (codegen_rs/mod.rs:870-920, api.rs:332-337): if the header has a class of that name too, the module defines the name twice and the generated code does not compile |
| C50 | method_directive_false | `generate!("C_f")` is accepted if a class `C` has a method `f`, although nothing is called `C_f` (parse_bindgen.rs, `confirm_all_generate_directives_obeyed`, compares with the names bindgen makes up); nothing is generated |
| C50 | keyword_directive_false | a class whose name is a keyword of Rust, such as `type`, cannot be asked for by that name: the request is compared with bindgen's `type_` |
| C50 | holder_directive_false | a class `SHolder` is passed over if there is a subclass `S` in Rust (parser/src/config.rs:364,441), and asking for it fails |
| C68 | vector_without_destructor_false | vectors of a class are asked for if it can be moved, even if its destructor is private or deleted (impl_item_creator.rs:35-39): C++ cannot make them |
