{"id": "C01", "title": "The collection of discovered C++ items never holds two items of one name", "statement": "However items are fed in, after any sequence of insertions, merges, and filterings the collection has at most one entry per qualified name, and its name index lists exactly the names of its entries. Inserting a second item under a used name leaves exactly one entry for that name: an ignored-item marker (or the original entry if the newcomer is itself an ignored-item marker). Every other entry is untouched.", "quantifier": "every sequence of push/append/extend/retain operations on every starting collection built from empty", "why_tests_cant": "Depends on the whole history of insertions; duplicate/error interleavings are unbounded.", "anchors": ["engine/src/conversion/apivec.rs: ApiVec::push, append, extend, retain, from_iter", "engine/src/conversion/api.rs: Api::discard_duplicates"]}
{"id": "C02", "title": "Generated bindings are exactly what the allowlist reaches", "statement": "The items which survive garbage collection are exactly those reachable, through the dependency relation, from an item the user put on the allowlist: nothing unreachable is emitted, nothing reachable is dropped, nothing is emitted twice, and the traversal terminates on cyclic graphs.", "quantifier": "every list of items, every dependency graph over them (including cycles and dangling dependencies), every allowlist", "why_tests_cant": "Quantifies over all graphs; tests only see a few shapes.", "anchors": ["engine/src/conversion/analysis/gc.rs: filter_apis_by_following_edges_from_allowlist", "engine/src/conversion/analysis/deps.rs: HasDependencies"]}
{"id": "C03", "title": "Nothing is generated that needs an item autocxx gave up on", "statement": "After ignored-dependency filtering, no surviving item depends, directly or through other items, on an item that was ignored, or on an unknown type.", "quantifier": "every list of items, every dependency graph, every initial set of ignored items", "why_tests_cant": "A fixed-point claim over arbitrary graphs and arbitrary list orders.", "anchors": ["engine/src/conversion/analysis/remove_ignored.rs: filter_apis_by_ignored_dependents"]}
{"id": "C04", "title": "Giving up on an item is always visible to the user", "statement": "Ignored-dependency filtering and the error-reporting wrappers never make an item vanish: every input name is still present afterwards, either as the original item or as an ignored-item marker which carries the reason; no name is invented.", "quantifier": "every list of items, every conversion function (including ones that fail on any subset of items)", "why_tests_cant": "Must hold for every combination of failing items.", "anchors": ["engine/src/conversion/error_reporter.rs: convert_apis, convert_item_apis, report_any_error", "engine/src/conversion/analysis/remove_ignored.rs"]}
{"id": "C05", "title": "Types are processed after the types they contain", "statement": "The dependency-ordered iteration yields every item exactly once, each one only after all of its dependencies that are also in the collection; it terminates, and reports a circular dependency exactly when the remaining items all wait on each other.", "quantifier": "every list of items with any dependency relation among them", "why_tests_cant": "Order and termination for all graphs cannot be enumerated.", "anchors": ["engine/src/conversion/analysis/depth_first.rs: fields_and_bases_first"]}
{"id": "C06", "title": "No two bindings collide in the flat cxx::bridge namespace", "statement": "After the name check, no two remaining items have the same bridge name; whenever several items would collide, all of them (not just the later ones) are replaced by markers explaining the collision, and items which collide with nothing are kept.", "quantifier": "every list of items with arbitrary names", "why_tests_cant": "Collision patterns depend on the whole list.", "anchors": ["engine/src/conversion/analysis/name_check.rs: check_names"]}
{"id": "C07", "title": "Only identifiers cxx can accept reach the bridge", "statement": "Every item surviving the name check has every segment of its Rust name, and of its C++ name where that is emitted, free of double underscores (other than autocxx's own markers) and of bindgen-internal names; and an item all of whose names are acceptable is never rejected for its identifier.", "quantifier": "every item with any name, original C++ name and superclass name", "why_tests_cant": "Quantifies over all strings.", "anchors": ["engine/src/conversion/analysis/name_check.rs: check_names, validate_all_segments_ok_for_cxx", "engine/src/types.rs: validate_ident_ok_for_cxx"]}
{"id": "C08", "title": "Overloaded functions and methods get distinct Rust names", "statement": "Within one type (or one namespace for free functions), any sequence of overloads is given pairwise distinct Rust names, the first one keeping its own name.", "quantifier": "every sequence of function registrations", "why_tests_cant": "Depends on the complete registration history, including names which already end in digits.", "anchors": ["engine/src/conversion/analysis/fun/overload_tracker.rs: OverloadTracker::get_name"]}
{"id": "C09", "title": "Bridge names handed out for functions are distinct", "statement": "Any sequence of functions, in any namespaces and types, is given pairwise distinct names in the flat bridge; a function whose plain name has not been seen keeps it, and no function is called `new`.", "quantifier": "every sequence of (namespace, type, name) registrations", "why_tests_cant": "History-dependent; collisions of composed names occur only for particular name combinations.", "anchors": ["engine/src/conversion/analysis/fun/bridge_name_tracker.rs: BridgeNameTracker::get_unique_cxx_bridge_name"]}
{"id": "C10", "title": "A type offered by value is really safe to move byte-by-byte", "statement": "If a type is treated as plain-old-data then it was requested (directly or because a requested type contains it) and each of its fields is, recursively, plain-old-data or a known by-value-safe type; a type holding a field that is not by-value safe is never treated as plain-old-data.", "quantifier": "every set of struct definitions, typedefs, enums, blocklists and pod requests, in every order", "why_tests_cant": "Soundness over every nesting of types and every declaration order.", "anchors": ["engine/src/conversion/analysis/pod/byvalue_checker.rs: ByValueChecker::{new_from_apis, ingest_struct, satisfy_requests, is_pod}"]}
{"id": "C11", "title": "A pod request is honoured or refused, never ignored", "statement": "If resolving the pod requests succeeds then every requested type is plain-old-data and so is everything it contains; otherwise the user gets an error naming a requested type which is unknown or unsafe. Resolution always terminates.", "quantifier": "every set of type definitions and every list of requests", "why_tests_cant": "Work-list closure over arbitrary type graphs.", "anchors": ["engine/src/conversion/analysis/pod/byvalue_checker.rs: satisfy_requests"]}
{"id": "C12", "title": "Abstract C++ classes are recognised and never constructed", "statement": "A class is treated as abstract exactly when it declares or inherits a pure virtual method that neither it nor a more derived base on the way overrides with the same name, parameter types and constness; and no constructor (including copy/move) for an abstract class survives.", "quantifier": "every class hierarchy with any number of levels, multiple bases and overloads", "why_tests_cant": "Inheritance closure over all hierarchies.", "anchors": ["engine/src/conversion/analysis/abstract_types.rs: mark_types_abstract"]}
{"id": "C13", "title": "Implicit constructors and destructors follow the C++ rules", "statement": "For each class whose bases and members are all known, the default constructor, destructor, copy constructor and move constructor are considered present, implicitly or explicitly, exactly as the C++ standard's rules for implicitly declared and deleted special members say.", "quantifier": "every set of class definitions with any combination of user-declared, deleted, private and defaulted special members in bases and members", "why_tests_cant": "The decision is a recursion over arbitrarily nested classes with many interacting conditions.", "anchors": ["engine/src/conversion/analysis/fun/implicit_constructors.rs: find_constructors_present, find_explicit_items"]}
{"id": "C14", "title": "A special member that is not usable is never offered", "statement": "autocxx never synthesizes a default, copy or move constructor or destructor for a class where C++ says it is deleted, private or suppressed, and never when a type is blocklisted or impls are excluded; every one it does synthesize is marked implicit.", "quantifier": "every combination of special-member states", "why_tests_cant": "All combinations of explicit/implicit/absent members in all bases and fields.", "anchors": ["engine/src/conversion/analysis/fun/implicit_constructors.rs: ItemsFound", "engine/src/conversion/analysis/fun/mod.rs: add_constructors_present"]}
{"id": "C15", "title": "generate! and generate_all! cannot be combined, in any order", "statement": "A configuration containing both generate!/generate_pod!/generate_ns! and generate_all! is rejected whatever the order and number of directives; a configuration using only one kind is never rejected for this reason, and the list of entries is kept complete and in order.", "quantifier": "every sequence of allowlist directives", "why_tests_cant": "Holds for all sequences and orders.", "anchors": ["parser/src/config.rs: Allowlist::push, Allowlist::set_all", "parser/src/directives.rs: Generate, GenerateNs, GenerateAll"]}
{"id": "C16", "title": "An item is allowlisted exactly when the user asked for it", "statement": "An item is on the allowlist iff generate_all! is in force, or its name is listed, or it lies in a namespace listed by generate_ns!, or it is a subclass/superclass/holder/Rust type/Rust function/concrete type/utility mentioned by another directive.", "quantifier": "every configuration and every C++ name", "why_tests_cant": "Quantifies over all configurations and all names, including names which share a prefix with a namespace.", "anchors": ["parser/src/config.rs: IncludeCppConfig::is_on_allowlist, must_generate_list, bindgen_allowlist"]}
{"id": "C17", "title": "A printed configuration parses back to an equivalent configuration", "statement": "Printing an include_cpp! configuration as directives (as reproduction cases do) and parsing it again gives a configuration with the same inclusions, policy, allowlist, pod requests, blocklists, concretes, subclasses, extern types and flags.", "quantifier": "every complete configuration", "why_tests_cant": "Round-trip law over all configurations.", "anchors": ["parser/src/config.rs: ToTokens for IncludeCppConfig, Parse for IncludeCppConfig", "parser/src/directives.rs"]}
{"id": "C18", "title": "Safety policy: what is unsafe to call is marked unsafe", "statement": "A safety policy survives printing and parsing. Under every policy, a function that takes or returns a raw pointer which is not autocxx's own placement slot is marked `unsafe`; under the default policy every function is unsafe to call; under the other policies, functions without such pointers are safe.", "quantifier": "every safety policy, every parameter list and return type", "why_tests_cant": "All parameter lists and policies, including synthesized functions.", "anchors": ["parser/src/config.rs: UnsafePolicy", "engine/src/conversion/analysis/fun/mod.rs: should_be_unsafe, convert_fn_arg", "engine/src/conversion/codegen_rs/fun_codegen.rs: UnsafetyNeeded::from_param_details"]}
{"id": "C19", "title": "Qualified names survive conversion to C++ and Rust notation and back", "statement": "Writing a qualified name in C++ notation and reading it back gives the same name (for a built-in type: a spelling of the same built-in type), different names have different notations, and a name's Rust path below the generated module leads back to the same name.", "quantifier": "every qualified name made of identifiers", "why_tests_cant": "Round-trip over all names and nesting depths.", "anchors": ["engine/src/types.rs: Namespace::from_user_input, QualifiedName::{new_from_cpp_name, to_cpp_name, from_type_path, to_type_path}"]}
{"id": "C20", "title": "Subclass holder and peer names are reversible and distinct", "statement": "The holder name of a Rust subclass determines the subclass again, the C++ peer name and the holder name never coincide with each other or with those of another subclass of a different name.", "quantifier": "every subclass name", "why_tests_cant": "All strings.", "anchors": ["engine/src/conversion/api.rs: SubclassName::{holder, cpp, from_holder_name}"]}
{"id": "C21", "title": "Typedef chains are followed to the end, cycles are reported", "statement": "Resolving a type name through typedefs terminates, returns the unique non-typedef end of the chain when there is one, and reports an error exactly when the chain loops.", "quantifier": "every set of typedefs and every starting name", "why_tests_cant": "Chains and cycles of any length.", "anchors": ["engine/src/conversion/analysis/type_converter.rs: resolve_typedef"]}
{"id": "C22", "title": "One C++ template instantiation, one Rust type", "statement": "Every time the same C++ template instantiation is encountered the same concrete Rust type name is used, and two different instantiations never share a name.", "quantifier": "every sequence of template instantiations encountered", "why_tests_cant": "Depends on the whole history and on name collisions.", "anchors": ["engine/src/conversion/analysis/type_converter.rs: get_templated_typename"]}
{"id": "C23", "title": "A returned reference always has an unambiguous origin", "statement": "A function returning a reference is given a safe binding only if there is exactly one reference parameter it can borrow from (its receiver included); in all other cases it is refused with an error or made to return a wrapper rather than a Rust reference.", "quantifier": "every function signature under every policy", "why_tests_cant": "All signatures of any arity.", "anchors": ["engine/src/conversion/analysis/fun/mod.rs: analyze_foreign_fn (reference-return rules)"]}
{"id": "C24", "title": "Explicit lifetimes are well-formed", "statement": "Whenever a lifetime is written in a generated return type, it is declared in the generics and attached to the reference parameter(s) it comes from; a function which needs no explicit lifetime is left alone.", "quantifier": "every parameter list and return type", "why_tests_cant": "All signatures.", "anchors": ["engine/src/conversion/codegen_rs/lifetime.rs: add_explicit_lifetime_if_necessary"]}
{"id": "C25", "title": "Rust bridge and C++ wrapper agree on every parameter and return type", "statement": "For every conversion autocxx can choose, the type that the Rust side puts in the cxx::bridge for a parameter or return value is the type the generated C++ wrapper declares at that position, in both call directions.", "quantifier": "every type and every conversion policy", "why_tests_cant": "All combinations of types and conversion policies; a mismatch shows only at link time or run time.", "anchors": ["engine/src/conversion/analysis/fun/function_wrapper.rs: TypeConversionPolicy", "engine/src/conversion/codegen_cpp/function_wrapper_cpp.rs", "engine/src/conversion/codegen_cpp/mod.rs: generate_cpp_function_inner"]}
{"id": "C26", "title": "Each argument reaches the C++ function once and in order", "statement": "In the generated C++ wrapper every parameter except a placement slot is forwarded exactly once, in declaration order, to the wrapped function; a placement slot is never forwarded as an argument, and the Rust wrapper passes its arguments to the bridge in the bridge's own order.", "quantifier": "every parameter list with any mix of conversions, receiver and placement parameters, in either call direction", "why_tests_cant": "All parameter lists.", "anchors": ["engine/src/conversion/codegen_cpp/mod.rs: generate_cpp_function_inner", "engine/src/conversion/codegen_rs/fun_codegen.rs: common_parts, reorder_parameters"]}
{"id": "C27", "title": "Whenever the Rust side needs C++ help, the C++ side provides it", "statement": "The C++ generator accepts every item that the analysis says needs generated C++, never hits an internal error for one, and generates a C++ file exactly when at least one item needs it.", "quantifier": "every list of analysed items", "why_tests_cant": "Agreement between two independent case analyses over all item kinds.", "anchors": ["engine/src/conversion/api.rs / analysis/fun/mod.rs: needs_cpp_codegen", "engine/src/conversion/codegen_cpp/mod.rs: add_needs, generate"]}
{"id": "C28", "title": "Every binding appears once, in the module of its namespace", "statement": "Grouping items into nested modules puts each item exactly once, in the module path equal to its namespace, keeps the relative order within a module, and the number of `super` steps written in each module leads back to the root.", "quantifier": "every list of items in any namespaces of any depth", "why_tests_cant": "All namespace trees.", "anchors": ["engine/src/conversion/codegen_rs/namespace_organizer.rs: NamespaceEntries", "engine/src/conversion/codegen_rs/utils.rs: find_output_mod_root"]}
{"id": "C29", "title": "Statements needing unsafe are inside unsafe blocks, others keep their order", "statement": "When generating a function body from a list of fragments, every fragment appears once, in order; each fragment that needs unsafe is within an unsafe context, and no unsafe block is opened when none is needed.", "quantifier": "every list of fragments in either context", "why_tests_cant": "All interleavings.", "anchors": ["engine/src/conversion/codegen_rs/mod.rs: maybe_unsafes_to_tokens"]}
{"id": "C30", "title": "Subclass peers are freed exactly when their owners go", "statement": "For each ownership mode (Rust-owned, C++-owned, self-owned) and every order of drops, calls and relinquishments, the C++ peer and the Rust object are each destroyed at most once, are never used after destruction, and in the Rust- and C++-owned modes both are destroyed once the external owner is gone; a call into a destroyed or already borrowed Rust object panics rather than touching it.", "quantifier": "every interleaving of owner drops, virtual calls, and delete_self, nested to any depth", "why_tests_cant": "Schedules of unbounded length.", "anchors": ["src/subclass.rs: CppSubclassRustPeerHolder, CppSubclassCppPeerHolder, CppSubclass, CppSubclassSelfOwned"]}
{"id": "C31", "title": "A value passed to C++ by value is destroyed exactly once", "statement": "For every kind of by-value or rvalue argument, over every life cycle of the parameter handler (populated or not, constructor failing or not), the temporary is constructed at most once before being handed to C++, and destroyed exactly once if constructed and never if not.", "quantifier": "every argument kind and every sequence of handler operations, including panics", "why_tests_cant": "All histories including panics at any point.", "anchors": ["src/value_param.rs: ValueParam, ValueParamHandler", "src/rvalue_param.rs: RValueParam, RValueParamHandler"]}
{"id": "C32", "title": "The requested number of output files is always produced", "statement": "When asked for an exact number of outputs the command-line generator either fails or produces exactly that many files of each kind, with the expected consecutive names.", "quantifier": "every number of generated files and every requested count", "why_tests_cant": "All counts.", "anchors": ["gen/cmd/src/main.rs: FileWriter::write_placeholders, main"]}
{"id": "C33", "title": "The depfile makes every output depend on every input", "statement": "After recording any outputs and dependencies in any order, the depfile has one rule per output and each rule lists all dependencies recorded.", "quantifier": "every sequence of recordings", "why_tests_cant": "All histories.", "anchors": ["gen/cmd/src/depfile.rs: Depfile"]}
{"id": "C34", "title": "Generated header names never clash within a run", "statement": "The default header namers give pairwise different names to any number of cxx headers, and different include_cpp! modules get different autocxx headers; no cxx header has the name of an autocxx header.", "quantifier": "every number of headers and all module names", "why_tests_cant": "Unbounded sequences.", "anchors": ["engine/src/lib.rs: CxxgenHeaderNamer, AutocxxgenHeaderNamer, CppCodegenOptions"]}
{"id": "C35", "title": "Conflicting writes to one output file are refused", "statement": "If the command-line generator is made to write two different contents under one file name in one run, the run fails; writing equal content twice is fine.", "quantifier": "every sequence of writes and every initial directory content", "why_tests_cant": "Depends on write history and on files left by earlier runs.", "anchors": ["gen/cmd/src/main.rs: FileWriter::write_to_file"]}
{"id": "C36", "title": "Rebuilding with unchanged content does not touch files", "statement": "Writing generated output leaves the file with exactly the requested content, and does not modify the file if it already has it, so repeating a build with equal inputs modifies nothing.", "quantifier": "every directory content and every sequence of writes", "why_tests_cant": "All file states.", "anchors": ["engine/src/builder.rs: write_to_file", "gen/cmd/src/main.rs: FileWriter::write_to_file"]}
{"id": "C37", "title": "The macro finds the file the code generator wrote", "statement": "For every combination of environment variables and custom output directory, the path the include_cpp! macro reads is the path the code generator wrote, or there is an explicit failure.", "quantifier": "every setting of the environment variables and every module name", "why_tests_cant": "All combinations of settings.", "anchors": ["parser/src/file_locations.rs: FileLocationStrategy"]}
{"id": "C38", "title": "The macro finds its own bindings in a multi-binding archive", "statement": "After bindings for any set of include_cpp! blocks have been archived, each block retrieves its own bindings, and a block that was not archived gets an error.", "quantifier": "every set of configurations and every archive history", "why_tests_cant": "All archives, and the config as seen by code generator versus macro.", "anchors": ["parser/src/multi_bindings.rs: MultiBindings", "engine/src/output_generators.rs: generate_rs_archive", "engine/src/parse_file.rs: parse_file_contents"]}
{"id": "C39", "title": "An engine generates once, and reports output only after generating", "statement": "For any sequence of calls on an engine, the configuration cannot be changed after generation, generation happens at most once, parse-only engines never generate, and Rust output is available exactly after a successful generation.", "quantifier": "every sequence of API calls", "why_tests_cant": "All call histories.", "anchors": ["engine/src/lib.rs: IncludeCppEngine::{config_mut, generate, get_rs_output}"]}
{"id": "C40", "title": "Every include_cpp! and cxx::bridge in a file is processed", "statement": "All include_cpp! blocks at every module depth are generated, all of them have a decided allowlist, duplicates of a module name are refused, and things discovered elsewhere in the file are attached to the single block or refused.", "quantifier": "every Rust file structure", "why_tests_cant": "All nestings of modules.", "anchors": ["engine/src/parse_file.rs: parse_file_contents, ParsedFile::{get_autocxxes, resolve_all}"]}
{"id": "C41", "title": "Built-in type knowledge is consistent", "statement": "For every built-in C++/Rust type: its C++ name maps back to it, by-value safety implies it has all needed constructors recorded, names are unambiguous, and types usable inside unique_ptr/vector/shared_ptr are consistently classified.", "quantifier": "the whole table of built-in types, and every name outside it", "why_tests_cant": "Needs a statement about each name in the table and about all names not in it.", "anchors": ["engine/src/known_types.rs: TypeDatabase, create_type_database"]}
{"id": "C42", "title": "Error markers have legal, non-conflicting names", "statement": "An ignored-item marker's identifier is never one of the built-in names that would conflict, the method and item kind of context are kept when possible, and sanitizing again changes nothing.", "quantifier": "every identifier and every method/type combination", "why_tests_cant": "All identifiers.", "anchors": ["engine/src/conversion/convert_error.rs: ErrorContext"]}
{"id": "C43", "title": "Typedefs to unusable targets become opaque instead of poisoning users", "statement": "After typedef replacement, no typedef refers to an ignored item or a failed forward declaration: each became opaque, or was reported if nested; other items are unchanged; an opaque typedef is destructible only when the user marked it instantiable.", "quantifier": "every list of items", "why_tests_cant": "All dependency combinations.", "anchors": ["engine/src/conversion/analysis/replace_hopeless_typedef_targets.rs"]}
{"id": "C44", "title": "Upcasts exist for exactly the allowed bases", "statement": "For each struct and each of its public allowlisted bases exactly one const-to-const upcast is generated, with distinct names; none for private bases.", "quantifier": "every class hierarchy and every allowlist", "why_tests_cant": "All hierarchies.", "anchors": ["engine/src/conversion/analysis/casts.rs: add_casts", "engine/src/conversion/analysis/pod/mod.rs: analyze_struct"]}
{"id": "C45", "title": "A type that is kept keeps its allocation and construction helpers", "statement": "For every constructible, non-generic type that survives, its allocation and deallocation functions and its copy and move constructors survive too; they are not kept for abstract or generic types on their account.", "quantifier": "every list of items and every allowlist", "why_tests_cant": "Combination of three passes over arbitrary lists.", "anchors": ["engine/src/conversion/analysis/allocators.rs", "engine/src/conversion/analysis/constructor_deps.rs", "engine/src/conversion/analysis/gc.rs"]}
{"id": "C46", "title": "C integer types used anywhere are defined", "statement": "After adding C type information, each built-in C integer type that any surviving item depends on has exactly one definition, and no others are added.", "quantifier": "every list of items", "why_tests_cant": "All dependency lists.", "anchors": ["engine/src/conversion/analysis/ctypes.rs: append_ctype_information"]}
{"id": "C47", "title": "Automatic allowlisting finds every use of the bindings", "statement": "With automatic discovery, every path starting with the module name used anywhere in the Rust source is added to the allowlist, and nothing else is.", "quantifier": "every Rust syntax tree", "why_tests_cant": "All syntax trees of any depth.", "anchors": ["engine/src/ast_discoverer.rs: Discoveries::search_item"]}
{"id": "C48", "title": "Each dependency is reported once to the build system", "statement": "The build-script recorder prints one rerun-if-changed line per distinct header and none twice, over any sequence of notifications.", "quantifier": "every sequence of notifications", "why_tests_cant": "All histories.", "anchors": ["gen/build/src/lib.rs: CargoRebuildDependencyRecorder", "engine/src/lib.rs: AutocxxParseCallbacks"]}
{"id": "C49", "title": "bindgen's renaming suffix is transparent", "statement": "Names passed to bindgen with autocxx's suffix and stripped on return are unchanged, even when bindgen appended an overload number.", "quantifier": "every name", "why_tests_cant": "All strings.", "anchors": ["engine/src/types.rs: make_ident / strip_bindgen_original_suffix", "engine/src/parse_callbacks.rs"]}
{"id": "C50", "title": "Every generate! directive is obeyed or reported", "statement": "If generation succeeds then each item named by generate!/generate_pod!/pod! was found under that C++ name; otherwise the user gets an error naming one that was not.", "quantifier": "every configuration and every list of parsed items", "why_tests_cant": "All lists.", "anchors": ["engine/src/conversion/parse/parse_bindgen.rs: confirm_all_generate_directives_obeyed"]}
{"id": "C51", "title": "The virtual-call direction inverts conversions correctly", "statement": "For every conversion that can be chosen for a subclassable virtual method, the reverse-direction conversion exists and turns exactly the received C++ type into the type the Rust override expects; generating code never hits an internal error.", "quantifier": "every conversion", "why_tests_cant": "All conversions and method signatures.", "anchors": ["engine/src/conversion/analysis/fun/function_wrapper.rs: CppConversionType::inverse"]}
{"id": "C52", "title": "The whole pipeline delivers a closed, collision-free set of bindings", "statement": "Run over any parsed items, the passes from name checking to garbage collection deliver items that have unique qualified names and unique bridge names, are reachable from the allowlist, and none of which depends on an item known to be ignored from the outset.", "quantifier": "every list of analysed items and every configuration", "why_tests_cant": "Combination of the passes, for all inputs.", "anchors": ["engine/src/conversion/mod.rs: BridgeConverter::convert"]}
{"id": "C53", "title": "Compiler arguments keep their priority", "statement": "User-supplied clang arguments come after autocxx's defaults and include paths, in the user's order, so they can override them; the system headers filter removes only the headers it names.", "quantifier": "all argument lists", "why_tests_cant": "All lists.", "anchors": ["engine/src/lib.rs: make_clang_args, strip_system_headers"]}
{"id": "C54", "title": "Rust paths and subclass attributes parse what they print", "statement": "A path written by autocxx parses back to the same path; subclass attributes accept each attribute at most once, in any order, with an optional trailing comma, and reject everything else.", "quantifier": "all paths and all token sequences", "why_tests_cant": "All token sequences.", "anchors": ["parser/src/path.rs: RustPath", "parser/src/subclass_attrs.rs: SubclassAttrs"]}
{"id": "C55", "title": "Incomplete types are never held by value", "statement": "When only a forward declaration of a C++ class was seen, every parameter, return value, field or container element which would need the complete class is refused; pointers and references to it are accepted.", "quantifier": "all sets of declarations, all types, all contexts", "why_tests_cant": "the refusal must hold however deeply the incomplete class is buried in typedefs, arrays, containers and templates", "anchors": ["engine/src/conversion/analysis/type_converter.rs: convert_type, convert_type_path, confirm_inner_type_is_acceptable_generic_payload, find_incomplete_types"]}
{"id": "C56", "title": "The dependencies recorded for a type are complete", "statement": "Every named type which the bindings for an item mention is built in, or is recorded as a dependency of that item, or is reached through a typedef so recorded; so garbage collection never removes a type that is still mentioned and an unusable type always takes its users with it.", "quantifier": "all types, all typedef graphs", "why_tests_cant": "a missing edge shows only for the one nesting of references, containers and typedefs which loses it", "anchors": ["engine/src/conversion/analysis/type_converter.rs: Annotated::types_encountered, convert_type"]}
{"id": "C57", "title": "Type conversion terminates", "statement": "Converting any type met in the headers ends with a type or an error; no set of declarations makes the generator loop or overflow the stack.", "quantifier": "all types, all typedef graphs", "why_tests_cant": "a loop needs a particular cyclic declaration graph", "anchors": ["engine/src/conversion/analysis/type_converter.rs: convert_type, convert_punctuated, resolve_typedef"]}
{"id": "C58", "title": "The kind reported for a type describes it", "statement": "A converted type is reported as a reference, mutable reference, pointer, rvalue reference or subclass holder exactly if it is one, however it is spelled in C++.", "quantifier": "all types, all typedefs", "why_tests_cant": "later decisions (unsafe, lifetimes, receivers) are made on the kind alone, for every spelling of the type", "anchors": ["engine/src/conversion/analysis/type_converter.rs: TypeKind, convert_type"]}
{"id": "C59", "title": "Blocked types are never used", "statement": "No type the user blocked is mentioned by the bindings or by the generated C++ code, however it is reached.", "quantifier": "all types, all configurations", "why_tests_cant": "a blocked type may be reached through any nesting of typedefs, containers and templates", "anchors": ["engine/src/conversion/analysis/type_converter.rs: convert_type_path_which_is_not_a_reference", "parser/src/config.rs: is_on_blocklist"]}
{"id": "C60", "title": "Typedefs keep their meaning or are reported", "statement": "After typedef analysis each typedef's recorded target is what the type converter makes of the target it was declared with, its dependencies are complete, a typedef to itself is dropped or reported, and every other item is unchanged; the only new items are declarations of template instantiations met on the way.", "quantifier": "all lists of items, all configurations", "why_tests_cant": "typedefs refer to each other in any pattern and instantiations found while converting one affect the next", "anchors": ["engine/src/conversion/analysis/tdef.rs: convert_typedef_targets, get_replacement_typedef"]}
{"id": "C61", "title": "Struct analysis says of each struct what its fields and bases say", "statement": "After struct analysis each struct is refused with a reason or kept, and if kept: it is POD exactly when it was found safe to hold by value, its field dependencies are complete, its bases are the types of its base fields with their visibilities, its castable bases are the public allowlisted ones; a request for a type to be POD is honoured or the whole build fails with an explanation.", "quantifier": "all lists of items, all configurations", "why_tests_cant": "combination of arbitrary fields, bases, requests and templates", "anchors": ["engine/src/conversion/analysis/pod/mod.rs: analyze_pod_apis, analyze_struct, get_struct_field_types, get_bases"]}
{"id": "C62", "title": "The reason given for a missing function is true", "statement": "If a function, method or constructor is left out of the bindings, the reason documented in its place is true of its declaration: it is called private only if it is not public in C++, variadic only if it is, ambiguous in its references only if it returns a reference and does not take exactly one, and so on for each reason.", "quantifier": "all functions, all environments", "why_tests_cant": "each test shows one function and one reason; the reasons shadow each other", "anchors": ["engine/src/conversion/analysis/fun/mod.rs: analyze_foreign_fn"]}
{"id": "C63", "title": "With wrapped references no Rust reference crosses the bridge", "statement": "Under the policy which wraps C++ references, no function or method of the bridge takes or returns a Rust reference to a C++ object: each is a pointer, wrapped as CppRef or CppMutRef.", "quantifier": "all functions, all environments with that policy", "why_tests_cant": "one unwrapped position in any combination of parameter kinds is undefined behaviour that nothing reports", "anchors": ["engine/src/conversion/analysis/fun/mod.rs: argument_conversion_details, return_type_conversion_details", "engine/src/conversion/analysis/fun/function_wrapper.rs: TypeConversionPolicy"]}
{"id": "C64", "title": "Functions are bound as what they are", "statement": "A copy constructor becomes CopyNew, a move constructor MoveNew, a destructor Drop, a constructor an associated function called new or new with a number, a static method an associated function without receiver, a method a method, and a free function a free function; nothing else becomes any of these.", "quantifier": "all functions, all environments", "why_tests_cant": "the decision depends on names, special member marks, parameter types and policies in combination", "anchors": ["engine/src/conversion/analysis/fun/mod.rs: analyze_foreign_fn"]}
{"id": "C65", "title": "A binding calls the C++ function it stands for under the name promised", "statement": "Whatever renaming the bridge needs, Rust code sees a function under the name chosen for it, and calling it calls the C++ function with the name it has in C++.", "quantifier": "all functions, all histories of overloads and bridge names", "why_tests_cant": "names go through overload numbering, bridge numbering, wrapper suffixes and renames in combination", "anchors": ["engine/src/conversion/analysis/fun/mod.rs: analyze_foreign_fn", "engine/src/conversion/analysis/fun/bridge_name_tracker.rs", "engine/src/conversion/analysis/fun/overload_tracker.rs"]}
{"id": "C66", "title": "Every virtual method and constructor of a superclass reaches its Rust subclasses", "statement": "If a Rust subclass is declared of a C++ class, then each virtual method of that class for which bindings are made yields, for every such subclass, an item for Rust code to override it, an item to call the superclass's version (unless it is pure virtual) and one C++ function overriding it, or a note saying why not; each of its constructors yields a constructor of the subclass or a note. An override has the same parameters as the method it overrides.", "quantifier": "all lists of items, all sets of subclasses, all virtual methods and constructors", "why_tests_cant": "a test has a few superclasses with a few methods; the claim is about all of them, including those the analysis has to reject", "anchors": ["engine/src/conversion/analysis/fun/mod.rs: analyze_foreign_fn_and_subclasses, add_subclass_constructors", "engine/src/conversion/analysis/fun/subclass.rs"]}
{"id": "C67", "title": "What is known about a C++ item is what was reported about that very item", "statement": "The visibility, virtualness, deletion, kind of special member and C++ name which are used for an item are the ones the C++ parser reported for that item, and never those of another item; an item about which nothing was reported is taken to be public, not virtual and not special.", "quantifier": "all sequences of reports from bindgen, all items in all namespaces", "why_tests_cant": "the facts are filed by number and found again by walking from the root namespace by name, so an error shows only for particular combinations of names and orders of reports", "anchors": ["engine/src/parse_callbacks.rs: AutocxxParseCallbacks, ParseCallbackResults", "engine/src/conversion/parse/parse_foreign_mod.rs"]}
{"id": "C68", "title": "The generated Rust code refers only to what it declares", "statement": "In the Rust code generated by a successful run, every name imported from the bridge is declared in the bridge, every type of the bridge which stands for another type stands for one that is defined and has the same C++ name, smart pointers and vectors are asked for exactly of those types which can be destroyed or moved, everything offered to C++ exists, each subclass implements exactly the trait generated beside its superclass, each override calls a method its trait has, and every item given up with a context leaves a visible trace.", "quantifier": "all sets of items a run can deliver, all configurations, all successful whole runs", "why_tests_cant": "the declarations and their uses are generated independently for each item, so that a dangling reference shows only for particular combinations of items", "anchors": ["engine/src/conversion/codegen_rs/mod.rs: RsCodeGenerator::rs_codegen, generate_rs_for_api, generate_type, generate_subclass, generate_subclass_fn, generate_error_entry", "engine/src/conversion/codegen_rs/impl_item_creator.rs", "engine/src/conversion/mod.rs: BridgeConverter::convert"]}
{"id": "C69", "title": "Whatever needs `unsafe` is in `unsafe` code, and nothing else is", "statement": "In the Rust code generated for C++ functions every call of an unsafe function of the bridge and every other unsafe operation is inside an unsafe block or an unsafe function; no unsafe block is empty of such operations or lies within another or within an unsafe function; what a caller of the code sees is unsafe exactly if the policy says so or the function takes a raw pointer; and every function of the bridge, in either direction, which takes a raw pointer is marked unsafe.", "quantifier": "all functions and methods of all headers, all safety policies, all kinds of parameters and results", "why_tests_cant": "the blocks are chosen by a fold over fragments with alternatives, so an error shows only for particular combinations of parameter conversions and policies", "anchors": ["engine/src/conversion/codegen_rs/mod.rs: MaybeUnsafeStmt, maybe_unsafes_to_tokens, generate_subclass_fn", "engine/src/conversion/codegen_rs/fun_codegen.rs: common_parts", "engine/src/conversion/codegen_rs/function_wrapper_rs.rs", "engine/src/conversion/analysis/fun/subclass.rs: create_subclass_function"]}
{"id": "C70", "title": "Rust functions offered to C++ are checked, and brought with their types", "statement": "A Rust function marked for use from C++ is accepted exactly if each parameter and its result are of a type by value, a shared reference, a pinned mutable reference, a box or a vector of a plainly named type which is not Self; otherwise the run fails and says why for the first thing not accepted. A function which is accepted is declared to C++, or what the run delivers says why not; and every type named in a declared signature is built in or is declared too.", "quantifier": "all Rust signatures, all configurations, all headers", "why_tests_cant": "types nest and combine without bound, and what becomes of a function depends on all other items of the run", "anchors": ["engine/src/conversion/parse/extern_fun_signatures.rs: assemble_extern_fun_deps, add_type_to_deps, add_path_to_deps", "engine/src/conversion/parse/parse_bindgen.rs: add_apis_from_config", "engine/src/conversion/codegen_rs/mod.rs: generate_rs_for_api", "engine/src/conversion/mod.rs: convert"]}
{"id": "C71", "title": "autocxx does not crash", "statement": "Whatever header is given, a run of autocxx ends with generated code or with an error which names what is wrong: it does not crash. In particular every type in the header is either converted to a type of Rust, or refused with a reason; and converting a type a second time gives what it gave the first time.", "quantifier": "all headers, all configurations, all orders in which types are met", "why_tests_cant": "the places in the code which take something for granted are reached only by unusual combinations of names and types, and there are unboundedly many of these", "anchors": ["engine/src/conversion/analysis/type_converter.rs: convert_type, convert_type_path, get_templated_typename", "engine/src/conversion/codegen_cpp/type_to_cpp.rs: type_to_cpp", "engine/src/conversion/analysis/fun/mod.rs: analyze_foreign_fn, convert_fn_arg, argument_conversion_details, reanalyze_parameter", "engine/src/types.rs: make_ident, QualifiedName::from_type_path"]}
{"id": "C72", "title": "C++ references refer to the object they were taken from", "statement": "A C++ reference which Rust code takes from a pin or a `UniquePtr`, by whichever function, and which it turns into other kinds of reference, refers to the object which the pin owned, for as long as this object exists; whatever else the program does meanwhile, also if it moves the pin, opens it or pins the object again. A pin never moves its object, and an object is destroyed exactly once, when its owner is dropped. References taken from different objects never refer to the same place. A reference does not outlive its pin, and a null `UniquePtr` never gives a reference.", "quantifier": "all programs made of the operations on pins, boxes, `UniquePtr`s and C++ references, of any length, with any choice of addresses by the allocator", "why_tests_cant": "what a reference refers to depends on everything which was done to its owner and to other owners before it is used, and on which addresses are used again", "anchors": ["src/reference_wrapper.rs: CppRef, CppMutRef, CppLtRef, CppMutLtRef, CppPin, CppUniquePtrPin, AsCppRef, AsCppMutRef", "src/lib.rs: within_box, within_cpp_pin, within_unique_ptr"]}
{"id": "C73", "title": "A struct marked as a subclass fits the code generated for it", "statement": "The `#[subclass]` attribute accepts a public struct with named fields or none, keeps all that the user wrote, adds one field for the C++ peer and implements the trait which gives it; anything else is refused with a reason. The type which it takes for the peer is the one in the code generated for the subclass, whatever the bindings' module is called; the generated code refers only to structs which the configuration names as subclasses, by paths under which they are found; and the attribute and the build script read its arguments the same way. `#[extern_rust_type]` and `#[extern_rust_function]` accept just the items which are then offered to C++.", "quantifier": "all structs, all arguments of the attribute, all configurations and headers", "why_tests_cant": "the attribute and the build script run apart from each other and agree only by both making up the same names; whether the names agree depends on the struct, the configuration and what was generated", "anchors": ["macro/src/lib.rs: subclass, extern_rust_type, extern_rust_function", "parser/src/subclass_attrs.rs: SubclassAttrs", "engine/src/conversion/codegen_rs/mod.rs: generate_subclass", "engine/src/parse_file.rs: parse_file_contents"]}
{"id": "C74", "title": "No generated module or type defines a name twice", "statement": "The module generated for a namespace defines the names of the items of that namespace, those of the namespaces within it and a few fixed ones, and nothing else. No module defines a name twice, and no type gets two methods of one name: overloads, constructors and things which could not be bound get names which nothing else has, and no C++ name clashes with one autocxx makes up.", "quantifier": "all headers, configurations and namespaces", "why_tests_cant": "names are given by counters while functions are analysed one after another; whether two coincide depends on all the names of a header together", "anchors": ["engine/src/conversion/codegen_rs/mod.rs: rs_codegen, append_child_output_namespace, add_superclass_stuff_to_type, generate_error_entry", "engine/src/conversion/codegen_rs/fun_codegen.rs: gen_function", "engine/src/conversion/analysis/fun/overload_tracker.rs: OverloadTracker"]}
