{
 "claims": [
  {
   "property": "C01",
   "status": "proved",
   "theorems": [
    "Verif.apivec_unique",
    "Verif.apivec_push_spec",
    "Verif.apivec_push_order",
    "Verif.apivec_extend_spec",
    "Verif.apivec_from_iter_real_iff",
    "Verif.apivec_append_source_stale_witness",
    "Verif.parsed_names"
   ],
   "note": "Every vector reachable by push/append/extend/retain holds each name once; push, extend and from_iter are characterised entry by entry. The emptied source of append keeps a stale index (witness)."
  },
  {
   "property": "C02",
   "status": "proved",
   "theorems": [
    "Verif.gc_exact",
    "Verif.gc_panics_iff",
    "Verif.gc_total",
    "Verif.gc_idempotent",
    "Verif.gc_monotone"
   ],
   "note": "Garbage collection keeps exactly what is reachable from the allowlist."
  },
  {
   "property": "C03",
   "status": "partial",
   "theorems": [
    "Verif.remove_ignored_sound_partial",
    "Verif.remove_ignored_complete",
    "Verif.remove_ignored_exact_partial",
    "Verif.remove_ignored_unknown_false"
   ],
   "note": "False as stated: an item replaced because of an unknown type does not taint its dependents (remove_ignored_unknown_false). The partial theorems give the exact fate when every dependency is known, and soundness always."
  },
  {
   "property": "C04",
   "status": "partial",
   "theorems": [
    "Verif.apivec_extend_names",
    "Verif.convert_item_apis_names",
    "Verif.convert_item_apis_no_invention",
    "Verif.convert_item_apis_one_for_one",
    "Verif.convert_apis_names",
    "Verif.convert_apis_error_recorded",
    "Verif.convert_api_passthrough",
    "Verif.report_any_error_visible",
    "Verif.report_any_error_method_takes_type_witness",
    "Verif.remove_ignored_fates",
    "Verif.remove_ignored_names",
    "Verif.check_names_names",
    "Verif.discard_ignored_functions_spec",
    "Verif.items_reported",
    "Verif.functions_reported",
    "Verif.items_from",
    "Verif.runs_for",
    "Verif.item_never_lost",
    "Verif.parsed_from",
    "Verif.parsed_names",
    "Verif.parsed_real_iff",
    "Verif.unexpected_item_vanishes",
    "Verif.builtin_name_vanishes",
    "Verif.ConvertStages.item_delivered",
    "Verif.ConvertStages.free_function_delivered_partial",
    "Verif.ConvertStages.method_delivered_partial",
    "Verif.ConvertStages.refused_function_vanishes",
    "Verif.ConvertStages.dropped_function_vanishes",
    "Verif.requested_function_vanishes_false",
    "Verif.method_named_as_class_vanishes_false",
    "Verif.marker_visible",
    "Verif.failed_from_marker",
    "Verif.nothing_generated_iff"
   ],
   "note": "The generic error-reporting wrappers never lose a name, and so no pass up to function analysis does; function analysis as a whole keeps every item and every function under its name or a note (a second item of one name may be collected into a note on the first). Over the whole conversion, an item on the allowlist which is not a function is delivered or reported unless an invented item takes its name; a free function if its three names agree; a method unless the name check or an unusable dependency drops it. False otherwise: whole runs show a requested function and a method vanish."
  },
  {
   "property": "C05",
   "status": "proved",
   "theorems": [
    "Verif.fields_and_bases_first_spec",
    "Verif.fields_and_bases_first_ok_iff"
   ],
   "note": "Order, completeness and exactly when the cycle panic fires."
  },
  {
   "property": "C06",
   "status": "partial",
   "theorems": [
    "Verif.check_names_fates",
    "Verif.check_names_unique",
    "Verif.check_names_subclass_peer_false",
    "Verif.ctype_bridge_clash_false",
    "Verif.ConvertStages.bridge_names_nodup"
   ],
   "note": "Exact fate of every item. Witness: the peer type a subclass adds to the bridge is not looked at by the check."
  },
  {
   "property": "C07",
   "status": "proved",
   "theorems": [
    "Verif.validate_ok_iff",
    "Verif.validate_panic_iff",
    "Verif.validate_reserved_iff",
    "Verif.validate_specialised",
    "Verif.check_names_fates",
    "Verif.check_names_idents",
    "Verif.check_names_panic"
   ],
   "note": "The identifier check is characterised, and so is the pass over all items (validateAllSegs_ok_iff, checkItemName_eq, check_names_fates)."
  },
  {
   "property": "C08",
   "status": "partial",
   "theorems": [
    "Verif.overload_run_spec",
    "Verif.overload_names_distinct_false",
    "Verif.overload_names_distinct_partial",
    "Verif.overload_same_name_distinct"
   ],
   "note": "False as stated (bob, bob, bob1). Exact names for every sequence, and distinctness when no name is another name followed by a number."
  },
  {
   "property": "C09",
   "status": "partial",
   "theorems": [
    "Verif.bridge_names_distinct_false",
    "Verif.bridge_names_distinct_partial",
    "Verif.bridge_plain_kept_partial",
    "Verif.bridge_never_new",
    "Verif.bridge_names_in_pass_partial",
    "Verif.bridge_names_in_pass_false",
    "Verif.underscore_clash_witness"
   ],
   "note": "False as stated; holds for names not ending in autocxx and a number."
  },
  {
   "property": "C10",
   "status": "partial",
   "theorems": [
    "Verif.pod_sound_partial",
    "Verif.pod_typedef_field_false",
    "Verif.pod_array_field_false"
   ],
   "note": "Soundness of POD classification in terms of items and configuration, for items that do not reuse Rust names of built-in types. False in general: a field whose type is a typedef of std::string, or an array of std::string, is not noticed (both negations proved)."
  },
  {
   "property": "C11",
   "status": "partial",
   "theorems": [
    "Verif.pod_terminates",
    "Verif.pod_requests_honoured_partial",
    "Verif.pod_refused",
    "Verif.pod_accepted",
    "Verif.pod_request_ignored_false",
    "Verif.pod_order_ok",
    "Verif.pod_order_false",
    "Verif.convert_error_iff"
   ],
   "note": "Resolution terminates; success makes every wanted type POD except typedefs of unsafe built-ins (negation of the full claim proved); refusal implies a wanted type is unusable; acceptance when none is."
  },
  {
   "property": "C12",
   "status": "partial",
   "theorems": [
    "Verif.abstract_classes_partial",
    "Verif.abstract_never_constructed",
    "Verif.abstract_destructor_false"
   ],
   "note": "Missing: pure virtual destructors (the code does not treat them as pure virtual methods, shown by abstract_destructor_false); of bases which were not analysed only their own declarations are known."
  },
  {
   "property": "C13",
   "status": "partial",
   "theorems": [
    "Verif.special_members_partial",
    "Verif.special_members_panic_iff",
    "Verif.special_members_sound_partial",
    "Verif.move_assignment_false",
    "Verif.non_const_copy_false",
    "Verif.defaulted_member_false",
    "Verif.move_of_indestructible_false",
    "Verif.pointer_field_default_false",
    "Verif.array_member_order_false",
    "Verif.members_reported",
    "Verif.member_takes"
   ],
   "note": "Full characterisation of the special members recorded for every class, plus soundness with respect to an inductive definition of the C++ rules under Ordinary (no move assignment operators, no non-const copy constructors, no defaulted-but-deleted members, one destructor). The unrestricted property is false of the code: witnesses with suffix _false."
  },
  {
   "property": "C14",
   "status": "partial",
   "theorems": [
    "Verif.synthesized_iff",
    "Verif.synthesized_sound_partial",
    "Verif.public_constructors_iff",
    "Verif.move_assignment_false",
    "Verif.move_of_indestructible_false",
    "Verif.helper_underscores",
    "Verif.underscore_destructor"
   ],
   "note": "Which members are synthesized is characterised exactly and shown sound for ordinary classes; the unrestricted claim is refuted by witnesses."
  },
  {
   "property": "C15",
   "status": "proved",
   "theorems": [
    "Verif.allowlist_run_spec",
    "Verif.parse_config_ok_iff",
    "Verif.parse_config_conflict",
    "Verif.parse_config_allowlist"
   ],
   "note": "Over whole token streams: exactly the well-formed directive sequences without a mix are accepted."
  },
  {
   "property": "C16",
   "status": "partial",
   "theorems": [
    "Verif.on_allowlist_iff",
    "Verif.on_allowlist_panics_iff",
    "Verif.on_allowlist_total",
    "Verif.generate_ns_boundary_false",
    "Verif.on_allowlist_iff_partial",
    "Verif.on_allowlist_complete",
    "Verif.bindgen_allowlist_spec"
   ],
   "note": "generate_ns prefix has no boundary check (generate_ns_boundary_false); otherwise exact."
  },
  {
   "property": "C17",
   "status": "partial",
   "theorems": [
    "Verif.print_parse_partial",
    "Verif.print_parse_module_false",
    "Verif.print_parse_receiver_false",
    "Verif.print_parse_empty_false",
    "Verif.parse_config_ok_iff"
   ],
   "note": "False for Rust types in modules, discovered functions with receivers and an empty settled allowlist (witnesses); holds for every other configuration up to the order of allowlist kinds and opaque externs."
  },
  {
   "property": "C18",
   "status": "partial",
   "theorems": [
    "Verif.policy_round_trip",
    "Verif.policy_ok_iff",
    "Verif.params_unsafety",
    "Verif.caller_unsafe_iff",
    "Verif.bridge_unsafe_iff",
    "Verif.unsafe_iff_pointer",
    "Verif.bridge_pointers_unsafe",
    "Verif.constructor_place",
    "Verif.caller_sees_unsafe_iff",
    "Verif.generated_unsafe_exact",
    "Verif.constructor_renamed",
    "Verif.returned_pointer_false"
   ],
   "note": "A function must be called in an unsafe block exactly if the policy says so for all functions or it takes a raw pointer which Rust code sees; which token is written in the bridge follows the same rules, and so does the generated code, for every function, method and constructor. Printing and parsing of the policy. False of functions which only return a raw pointer: they are not unsafe (returned_pointer_false)."
  },
  {
   "property": "C19",
   "status": "proved",
   "theorems": [
    "Verif.qname_cpp_roundtrip",
    "Verif.qname_cpp_roundtrip_known",
    "Verif.qname_cpp_roundtrip_exact_false",
    "Verif.qname_cpp_eq_iff",
    "Verif.qname_type_path_roundtrip",
    "Verif.qname_bindgen_path_roundtrip",
    "Verif.qname_type_path_panic_iff",
    "Verif.qname_display_injective"
   ],
   "note": "Exact for user names; built-in names come back as a spelling of the same built-in type."
  },
  {
   "property": "C20",
   "status": "proved",
   "theorems": [
    "Verif.subclass_holder_roundtrip",
    "Verif.subclass_from_holder_panic_iff",
    "Verif.subclass_names_distinct",
    "Verif.subclass_peer_clash_witness"
   ],
   "note": "The witness shows a clash outside the claim: a subclass named like another one's peer."
  },
  {
   "property": "C21",
   "status": "proved",
   "theorems": [
    "Verif.resolve_terminates",
    "Verif.resolve_ok_iff",
    "Verif.resolve_loop_iff",
    "Verif.resolve_other_iff"
   ],
   "note": "Over every typedef map: the resolution ends, and its results are characterised by chains of typedefs."
  },
  {
   "property": "C22",
   "status": "partial",
   "theorems": [
    "Verif.template_names_partial",
    "Verif.template_declared_once",
    "Verif.template_name_no_double_underscore",
    "Verif.instantiation_declared_partial",
    "Verif.concrete_name_clash_false",
    "Verif.template_name_panic_false",
    "Verif.instantiation_declared_false"
   ],
   "note": "Within one phase names are unique and reused. False across phases (a declaration lost inside a container makes a later name clash), for names starting with an underscore and a digit (panic), and for instantiations inside containers (not declared)."
  },
  {
   "property": "C23",
   "status": "partial",
   "theorems": [
    "Verif.reference_return_partial",
    "Verif.reference_typedef_false"
   ],
   "note": "An offered function which returns something borrowed takes exactly one borrowed parameter (one that can be changed, if what it returns can be), where references are plain and no typedef stands for a reference. With such a typedef it is false (reference_typedef_false)."
  },
  {
   "property": "C24",
   "status": "partial",
   "theorems": [
    "Verif.explicit_lifetime",
    "Verif.borrowed_result_partial",
    "Verif.new_result_partial",
    "Verif.bridge_lifetime_partial",
    "Verif.part_witness",
    "Verif.same_witness",
    "Verif.lifetimes_described",
    "Verif.wrapped_lifetime_false",
    "Verif.wrapped_new_false"
   ],
   "note": "What is written where is characterised completely (explicit_lifetime). For every analysed function, where references are plain and no typedef stands for one: what is borrowed and given back comes from exactly one parameter, and both or neither have the lifetime; what is still to be made is bounded by a lifetime exactly if something is borrowed or passed by value. Where references are wrapped it is false: the lifetime is on no parameter (wrapped_lifetime_false, wrapped_new_false)."
  },
  {
   "property": "C25",
   "status": "partial",
   "theorems": [
    "Verif.argument_types_agree",
    "Verif.return_types_agree",
    "Verif.pinOnly_of",
    "Verif.bridge_params_agree",
    "Verif.bridge_return_agrees",
    "Verif.wrapper_conversions",
    "Verif.wrapper_text",
    "Verif.generated_function",
    "Verif.give_text",
    "Verif.generated_types",
    "Verif.wrapper_types",
    "Verif.bridge_types",
    "Verif.mix_types_witness",
    "Verif.ConvertStages.delivered_text",
    "Verif.ConvertStages.delivered_made",
    "Verif.alloc_text",
    "Verif.free_text",
    "Verif.cast_text",
    "Verif.made_texts"
   ],
   "note": "For every function: the types in the bridge are what the conversions of its parameters and result say, with or without a wrapper, and a wrapper applies exactly those conversions. The text of the C++ of every delivered function which has C++, be it a wrapper or made up for a cast or an allocator, takes and returns what the bridge says (delivered_text). The Rust function around it hands over arguments of the types the bridge has, and gives back what it promises (generated_types). Assumed: no class is called Pin, and a destructor takes one parameter and returns nothing."
  },
  {
   "property": "C26",
   "status": "partial",
   "theorems": [
    "Verif.params_in_order",
    "Verif.made_method_object",
    "Verif.wrapper_text",
    "Verif.params_and_place",
    "Verif.conversion_keeps_object",
    "Verif.override_generated",
    "Verif.super_generated",
    "Verif.constructor_generated",
    "Verif.wrapper_calls_once",
    "Verif.generated_calls",
    "Verif.generated_calls_once",
    "Verif.space_captured_false",
    "Verif.placement_name_false",
    "Verif.two_places_false",
    "Verif.mix_witness",
    "Verif.move_ctor_witness",
    "Verif.ConvertStages.delivered_text"
   ],
   "note": "An offered function has one parameter in the bridge for each in C++, in order, and at most one more, for the result. The text of its wrapper passes on one argument for each, in order, and so does the Rust function generated for it, once. So do overrides, calls of the superclass and constructors of subclasses. False of a parameter called like a variable of the wrapper."
  },
  {
   "property": "C27",
   "status": "partial",
   "theorems": [
    "Verif.needs_iff",
    "Verif.generator_agrees",
    "Verif.needs_made",
    "Verif.needs_complete",
    "Verif.files_made",
    "Verif.no_files_iff",
    "Verif.subclass_text",
    "Verif.wrapper_made_iff",
    "Verif.typeToCpp_iff",
    "Verif.needs_witness",
    "Verif.array_reference_false",
    "Verif.stray_method_witness",
    "Verif.allocation_headers",
    "Verif.made_possible_iff",
    "Verif.ConvertStages.delivered_cpp_iff"
   ],
   "note": "The two case analyses agree on every item. What is made is characterised, it is all in the files, and the C++ of every delivered function can be made exactly if its types can be written (delivered_cpp_iff). It is false that nothing accepted fails: array_reference_false."
  },
  {
   "property": "C28",
   "status": "partial",
   "theorems": [
    "Verif.sorted_by_namespace",
    "Verif.output_modules",
    "Verif.use_paths_lead_home",
    "Verif.ConvertStages.module_names",
    "Verif.reserved_namespace_false"
   ],
   "note": "Every item is in exactly the module of its C++ namespace and every use path leads to the bridge; the names in each module are given exactly (module_names). False for namespaces called like the items at the root: output, cxxbridge, bindgen, root (reserved_namespace_false)."
  },
  {
   "property": "C29",
   "status": "proved",
   "theorems": [
    "Verif.safe_context",
    "Verif.tidy_unique",
    "Verif.unsafe_context",
    "Verif.no_needless_block"
   ],
   "note": "For every list of statements and both contexts: order kept, unsafe statements covered, no more blocks than needed (the result is the only tidy one)."
  },
  {
   "property": "C30",
   "status": "partial",
   "theorems": [
    "Verif.rust_owned",
    "Verif.self_owned",
    "Verif.cpp_owned",
    "Verif.cpp_owned_safe_partial",
    "Verif.peer_after_delete_false",
    "Verif.call_outcome"
   ],
   "note": "State machine of the three ownership modes with their shared cell, weak and strong references and borrows. Exact counts of destroyed objects and peers after every history. In the C++-owned mode the peer can be deleted during one of its own virtual methods, after which peer() is dangling (witness). Reference counting and RefCell flags are modelled as counters; user code is a list of operations."
  },
  {
   "property": "C31",
   "status": "partial",
   "theorems": [
    "Verif.value_args_balanced",
    "Verif.value_args_fresh",
    "Verif.value_args_destroyed_once",
    "Verif.value_args_uninit",
    "Verif.value_args_called",
    "Verif.handler_never_twice",
    "Verif.handler_destroys",
    "Verif.value_args_no_uninit_partial",
    "Verif.panicking_constructor_false",
    "Verif.populate_twice_witness"
   ],
   "note": "Handlers of by-value and rvalue parameters with the frame of the generated function around them; any mix of parameters, null pointers and panicking constructors. The property fails where the constructor of an argument panics: the destructor runs on uninitialised memory (witness, with the exact condition in value_args_uninit)."
  },
  {
   "property": "C32",
   "status": "proved",
   "theorems": [
    "Verif.exact_names",
    "Verif.exact_outputs",
    "Verif.counts_noFail",
    "Verif.exact_succeeds_iff"
   ],
   "note": "Every run of the command line generator with an exact count, for every list of blocks and every behaviour of the file system. exact_succeeds_iff assumes the C++ extension is neither h nor include.rs (extension_clash_witness)."
  },
  {
   "property": "C33",
   "status": "partial",
   "theorems": [
    "Verif.run_depfile",
    "Verif.recordEvents_ok",
    "Verif.depfile_read_partial",
    "Verif.depfile_blank_false"
   ],
   "note": "Holds for paths make reads literally; paths with blanks are not escaped (depfile_blank_false)."
  },
  {
   "property": "C34",
   "status": "proved",
   "theorems": [
    "Verif.main_nodup",
    "Verif.builder_nodup",
    "Verif.rsFilename_inj",
    "Verif.rsFilename_named",
    "Verif.extension_clash_witness"
   ],
   "note": "For whole runs of both generators. Blocks for one module in two input files are the exception (C35)."
  },
  {
   "property": "C35",
   "status": "partial",
   "theorems": [
    "Verif.conflict_refused_partial",
    "Verif.fresh_conflict_refused",
    "Verif.run_ok_iff",
    "Verif.consistent_ok",
    "Verif.conflict_false",
    "Verif.conflict_after_overwriting_witness"
   ],
   "note": "run_ok_iff says exactly which runs are refused; stale output of an earlier run hides a conflict (conflict_false)."
  },
  {
   "property": "C36",
   "status": "proved",
   "theorems": [
    "Verif.run_content",
    "Verif.untouched",
    "Verif.rerun_untouched",
    "Verif.run_after_crash",
    "Verif.builder_content",
    "Verif.builder_untouched",
    "Verif.builder_rebuild"
   ],
   "note": "Including every failure of the file system part way through."
  },
  {
   "property": "C37",
   "status": "partial",
   "theorems": [
    "Verif.builder_writes",
    "Verif.macro_reads",
    "Verif.macro_finds_file",
    "Verif.macro_misses_file",
    "Verif.builder_fails_iff",
    "Verif.autocxx_rs_false",
    "Verif.relative_custom_false",
    "Verif.empty_outDir_false",
    "Verif.parse_only_reads",
    "Verif.macro_finds_generated",
    "Verif.attached_fname"
   ],
   "note": "False as stated: with AUTOCXX_RS set for the build script the macro reads another file, in all cases; exact description of every setting proved."
  },
  {
   "property": "C38",
   "status": "partial",
   "theorems": [
    "Verif.archive_get",
    "Verif.archive_missing_iff",
    "Verif.archive_finds",
    "Verif.archive_finds_blocks_partial",
    "Verif.archive_misses_false",
    "Verif.archive_misses_discovered_false",
    "Verif.archived_all"
   ],
   "note": "False as stated: the generator archives under the hash of the completed configuration. Proved where nothing is completed. The hash is a parameter."
  },
  {
   "property": "C39",
   "status": "proved",
   "theorems": [
    "Verif.engine_life",
    "Verif.parse_only_life",
    "Verif.generate_ok_iff",
    "Verif.run_generated"
   ],
   "note": "Bindgen and the conversion are a parameter."
  },
  {
   "property": "C40",
   "status": "partial",
   "theorems": [
    "Verif.parse_file_blocks",
    "Verif.parse_file_ok_iff",
    "Verif.parse_file_discovers",
    "Verif.resolve_all_ok_iff",
    "Verif.resolve_all_places",
    "Verif.file_iterators",
    "Verif.nested_block_panics_false",
    "Verif.nested_block_conflict_false",
    "Verif.parse_only_panics_false",
    "Verif.bridge_iff"
   ],
   "note": "False as stated for blocks within modules and for parse-only blocks; what happens to every block, bridge and discovered thing is proved exactly. The search of one item is a parameter."
  },
  {
   "property": "C41",
   "status": "partial",
   "theorems": [
    "Verif.known_get_iff",
    "Verif.known_cpp_name_injective",
    "Verif.pod_safe_types_spec",
    "Verif.moveit_safe_types_spec",
    "Verif.known_pod_safe_has_constructor_partial",
    "Verif.known_pod_safe_has_constructor_false",
    "Verif.known_classification",
    "Verif.known_prelude_recognised"
   ],
   "note": "Everything is proved except that every by-value-safe built-in has a constructor recorded: false for char16_t (witness), proved for all others."
  },
  {
   "property": "C42",
   "status": "proved",
   "theorems": [
    "Verif.error_context_no_builtin",
    "Verif.error_context_kept",
    "Verif.sanitize_idempotent"
   ],
   "note": ""
  },
  {
   "property": "C43",
   "status": "partial",
   "theorems": [
    "Verif.hopeless_pass",
    "Verif.hopeless_typedefs_partial",
    "Verif.hopeless_instantiable",
    "Verif.hopeless_chain_false",
    "Verif.hopeless_use_false"
   ],
   "note": "exact description of the pass; the claim itself fails for chains of typedefs and for use items"
  },
  {
   "property": "C44",
   "status": "partial",
   "theorems": [
    "Verif.casts_added_partial",
    "Verif.upcasts_exact_partial",
    "Verif.casts_collide_false",
    "Verif.cast_text",
    "Verif.cast_analysed"
   ],
   "note": "exact under distinctness of cast names, which can fail"
  },
  {
   "property": "C45",
   "status": "partial",
   "theorems": [
    "Verif.allocators_added_partial",
    "Verif.constructor_deps",
    "Verif.decorated_struct",
    "Verif.needed_functions_kept",
    "Verif.allocators_clash_false",
    "Verif.members_reported",
    "Verif.alloc_text",
    "Verif.free_text",
    "Verif.ConvertStages.underscore_storage",
    "Verif.underscore_destructor",
    "Verif.underscore_helpers_false",
    "Verif.plain_helpers_witness"
   ],
   "note": "Exact if no item has the name of a generated allocator. False for every class whose name ends in an underscore: nothing to get or give back its memory is ever delivered, and a destructor C++ provides by itself is refused."
  },
  {
   "property": "C46",
   "status": "partial",
   "theorems": [
    "Verif.append_ctypes_partial",
    "Verif.append_ctypes_clash_false"
   ],
   "note": "False when a global C++ type has the name of a used C type (witness); exact otherwise."
  },
  {
   "property": "C47",
   "status": "partial",
   "theorems": [
    "Verif.search_exact",
    "Verif.search_fails_iff",
    "Verif.search_error",
    "Verif.found_is_used",
    "Verif.every_use_found_partial",
    "Verif.auto_allowlist_exact",
    "Verif.used_must_be_found",
    "Verif.rustSearch_additive",
    "Verif.used_but_missed_false",
    "Verif.found_names_false",
    "Verif.local_variable_refused_false",
    "Verif.offered_methods_false"
   ],
   "note": "The search is characterised exactly over the whole syntax tree, and its result is followed into the block of the file. The property itself fails: uses in many positions are missed, and some names found are not names of C++ items. Each is a proved witness; every_use_found_partial says when all uses are found."
  },
  {
   "property": "C48",
   "status": "proved",
   "theorems": [
    "Verif.recorder_once"
   ],
   "note": "All blocks share one recorder."
  },
  {
   "property": "C49",
   "status": "proved",
   "theorems": [
    "Verif.bindgen_suffix_roundtrip",
    "Verif.bindgen_suffix_absent",
    "Verif.bindgen_suffix_type_witness"
   ],
   "note": "Function names. The witness shows that type names containing the suffix are not transparent."
  },
  {
   "property": "C50",
   "status": "partial",
   "theorems": [
    "Verif.directives_obeyed",
    "Verif.directive_refused_iff",
    "Verif.parse_ok_iff",
    "Verif.parse_error_kinds",
    "Verif.directives_obeyed_false",
    "Verif.directive_delivered_partial",
    "Verif.unrequested_method_spoils_class_false",
    "Verif.convert_error_iff",
    "Verif.convertAll_error_iff",
    "Verif.method_directive_false",
    "Verif.keyword_directive_false",
    "Verif.holder_directive_false"
   ],
   "note": "If parsing succeeds then some item found has each requested name, and parsing is refused exactly if one is missing, naming the first. The names compared are those bindgen makes up: so a nested class, a class called like a keyword or like the holder of a subclass is refused (directives_obeyed_false, keyword_directive_false, holder_directive_false), and the made-up name of a method is accepted (method_directive_false)."
  },
  {
   "property": "C51",
   "status": "partial",
   "theorems": [
    "Verif.inverse_defined",
    "Verif.inverse_round_trip_partial",
    "Verif.inverse_pointer_false",
    "Verif.override_owner_false",
    "Verif.override_types_partial"
   ],
   "note": "Inverting fails exactly for moves and placement pointers, and otherwise gives back the starting types on both sides, except for a value passed by pointer (inverse_pointer_false)."
  },
  {
   "property": "C52",
   "status": "partial",
   "theorems": [
    "Verif.ConvertStages.delivered",
    "Verif.convert_delivers",
    "Verif.ConvertStages.delivered_found",
    "Verif.ConvertStages.delivered_function",
    "Verif.ctype_bridge_clash_false",
    "Verif.unrequested_method_spoils_class_false",
    "Verif.exGood_delivers",
    "Verif.ConvertStages.bridge_names_nodup"
   ],
   "note": "The whole conversion, from bindgen's output to the list handed to the code generators, delivers a set with unique names, unique bridge names (before C types are added), all reachable from the allowlist, closed under dependencies apart from the named exceptions, with nothing invented. False where C types clash with bridge names, and a class may be spoilt by a method of a class nobody asked for."
  },
  {
   "property": "C53",
   "status": "proved",
   "theorems": [
    "Verif.clang_args_order",
    "Verif.std_overridable",
    "Verif.system_headers_removed"
   ],
   "note": "The use of these arguments by clang is outside the model."
  },
  {
   "property": "C54",
   "status": "partial",
   "theorems": [
    "Verif.path_round_trip",
    "Verif.path_parse_only",
    "Verif.subclass_attrs_ok_iff",
    "Verif.subclass_attrs_repeat_false"
   ],
   "note": "Exact. False in one respect: self_owned may be repeated."
  },
  {
   "property": "C55",
   "status": "partial",
   "theorems": [
    "Verif.forward_partial",
    "Verif.forward_array_false",
    "Verif.pod_field_complete_partial"
   ],
   "note": "Proved except for arrays; false for arrays of forward-declared classes."
  },
  {
   "property": "C56",
   "status": "partial",
   "theorems": [
    "Verif.convert_deps_complete",
    "Verif.blocklist_template_false",
    "Verif.typedef_target_deps",
    "Verif.pod_field_deps",
    "Verif.param_deps_partial",
    "Verif.return_deps",
    "Verif.ConvertStages.override_needs_trait",
    "Verif.ConvertStages.override_brings"
   ],
   "note": "Every name in a converted type is built in, recorded, or part of the target of a recorded typedef. Missing: the arguments of an instantiated template which is not built in are mentioned by the generated C++ code but are not recorded (blocklist_template_false shows a case)."
  },
  {
   "property": "C57",
   "status": "partial",
   "theorems": [
    "Verif.convert_terminates_partial",
    "Verif.convert_diverges_false",
    "Verif.resolve_terminates",
    "Verif.typedef_pass_ends",
    "Verif.pod_pass_ends_partial",
    "Verif.parse_panics_iff"
   ],
   "note": "Terminates if typedefs are declared in order; diverges on a typedef which holds itself in a container."
  },
  {
   "property": "C58",
   "status": "partial",
   "theorems": [
    "Verif.kind_describes",
    "Verif.kind_regular_partial",
    "Verif.kind_typedef_ref_false",
    "Verif.kind_typedef_mut_ref_false"
   ],
   "note": "Reported kinds are right; a regular kind may be wrong for typedefs of references."
  },
  {
   "property": "C59",
   "status": "partial",
   "theorems": [
    "Verif.written_name_checked",
    "Verif.blocklist_partial",
    "Verif.blocklist_template_false",
    "Verif.template_reference_argument_false",
    "Verif.typedef_target_not_blocked_partial",
    "Verif.pod_field_not_blocked_partial",
    "Verif.blocked_never_parsed"
   ],
   "note": "False of the arguments of templates which are not built in."
  },
  {
   "property": "C60",
   "status": "proved",
   "theorems": [
    "Verif.typedef_pass",
    "Verif.typedef_pass_item",
    "Verif.typedef_pass_kept",
    "Verif.typedef_target_deps",
    "Verif.typedef_pass_ends"
   ],
   "note": "the pass as a relation between items before and after; termination under the order of declarations"
  },
  {
   "property": "C61",
   "status": "partial",
   "theorems": [
    "Verif.pod_pass",
    "Verif.pod_pass_fails",
    "Verif.pod_pass_item",
    "Verif.pod_struct_by_value",
    "Verif.pod_struct_honoured",
    "Verif.pod_field_deps",
    "Verif.pod_pass_ends_partial",
    "Verif.upcasts_exact_partial"
   ],
   "note": "complete relation for the pass; termination only if typedefs are declared in order; casts only if their names do not collide"
  },
  {
   "property": "C62",
   "status": "proved",
   "theorems": [
    "Verif.reason_true",
    "Verif.exposed_offerable"
   ],
   "note": "Every reason implies a condition on the declaration or the conversion of its types, stated in TrueReason; conversely nothing offered meets such a condition."
  },
  {
   "property": "C63",
   "status": "partial",
   "theorems": [
    "Verif.wrapped_params_partial",
    "Verif.wrapped_return",
    "Verif.mutable_parameter_false",
    "Verif.slice_wrapped_witness"
   ],
   "note": "No function returns a reference, and the only parameters which are references are mutable ones, which is a fault of the code (mutable_parameter_false)."
  },
  {
   "property": "C64",
   "status": "partial",
   "theorems": [
    "Verif.bound_as",
    "Verif.member_unique",
    "Verif.free_not_member",
    "Verif.copy_constructor_partial",
    "Verif.copy_wrapped_false",
    "Verif.numbered_method_false",
    "Verif.numbered_static_panics",
    "Verif.wrapper_does",
    "Verif.method_class"
   ],
   "note": "What each function is bound as, in terms of its declaration. Two faults: copy constructors where references are wrapped, and methods named like their class with a number."
  },
  {
   "property": "C65",
   "status": "partial",
   "theorems": [
    "Verif.visible_name",
    "Verif.called_name",
    "Verif.name_kept",
    "Verif.wrapper_does",
    "Verif.wrapper_text",
    "Verif.static_call_names_class_partial",
    "Verif.nested_static_call_false",
    "Verif.overload_clash_witness",
    "Verif.ConvertStages.function_visible",
    "Verif.ConvertStages.delivered_names_partial",
    "Verif.same_name_partial",
    "Verif.names_in_pass",
    "Verif.numbered_names_false",
    "Verif.own_name_plain",
    "Verif.own_name_nested",
    "Verif.own_name_renamed",
    "Verif.constructor_renamed",
    "Verif.rust_name_within"
   ],
   "note": "Per function, including the call in the text of the wrapper. False for static methods of nested classes (nested_static_call_false). Names in one place are distinct unless one wished for is another followed by a number (delivered_names_partial), and then they need not be (numbered_names_false)."
  },
  {
   "property": "C66",
   "status": "partial",
   "theorems": [
    "Verif.overrides_reported",
    "Verif.ctors_reported",
    "Verif.trait_items_once",
    "Verif.override_parameters_false",
    "Verif.override_loses_parameter_witness",
    "Verif.private_super_witness",
    "Verif.override_generated",
    "Verif.override_types_partial",
    "Verif.super_generated",
    "Verif.constructor_generated",
    "Verif.subclass_text",
    "Verif.override_reference",
    "Verif.override_wrapped_false",
    "Verif.override_rvalue_false",
    "Verif.override_owner_false",
    "Verif.override_without_trait_method_false",
    "Verif.peer_constructor_iff",
    "Verif.super_offered",
    "Verif.subclass_ctor_offered",
    "Verif.super_offered_witness",
    "Verif.ConvertStages.override_constness",
    "Verif.virtual_object",
    "Verif.subclass_ctor_iff",
    "Verif.super_call_text",
    "Verif.ConvertStages.override_asked",
    "Verif.ConvertStages.trait_method_partial",
    "Verif.trait_method_witness",
    "Verif.override_agrees",
    "Verif.override_agrees_witness",
    "Verif.pass_agrees_partial",
    "Verif.pass_agrees_witness",
    "Verif.ConvertStages.run_agrees_partial",
    "Verif.run_agrees_witness",
    "Verif.ConvertStages.override_brings"
   ],
   "note": "Every method and constructor yields its items or a note, and the class written for a subclass has every override and constructor in it. That overrides have the parameters of the method is false; it holds of the types where references are not wrapped and there are no rvalue references, and every parameter could be converted."
  },
  {
   "property": "C67",
   "status": "partial",
   "theorems": [
    "Verif.reports_kept",
    "Verif.lookup_total",
    "Verif.lookup_sound",
    "Verif.lookup_exact",
    "Verif.facts_reported",
    "Verif.facts_unknown",
    "Verif.facts_reported_false"
   ],
   "note": "Proved wherever no two items of a namespace have the same name once bindgen's suffix is cut; false for overloads which clash with a numbered name."
  },
  {
   "property": "C68",
   "status": "partial",
   "theorems": [
    "Verif.convertAll_ok_iff",
    "Verif.ConvertStages.codegen_items",
    "Verif.bridge_uses_declared",
    "Verif.bridge_types_exact",
    "Verif.bridge_types_defined",
    "Verif.extern_types_once",
    "Verif.bridge_impls_exact",
    "Verif.rust_decls_defined",
    "Verif.superclass_traits",
    "Verif.supers_implemented",
    "Verif.override_calls_method_partial",
    "Verif.override_holder_partial",
    "Verif.override_without_trait_method_false",
    "Verif.override_without_holder_false",
    "Verif.marker_visible",
    "Verif.failed_from_marker",
    "Verif.nothing_generated_iff",
    "Verif.bridge_includes",
    "Verif.rs_code_panics_iff",
    "Verif.header_missing_iff",
    "Verif.ConvertStages.configured_items_found",
    "Verif.ConvertStages.extern_type_last",
    "Verif.ConvertStages.signature_names_partial",
    "Verif.ConvertStages.declarations_distinct_partial",
    "Verif.declared_names_distinct_partial",
    "Verif.ConvertStages.bridge_names_nodup",
    "Verif.exGood_signatures",
    "Verif.override_pointer_false",
    "Verif.rust_type_once",
    "Verif.ConvertStages.rustType_delivered",
    "Verif.same_rust_type_false",
    "Verif.vector_without_destructor_false"
   ],
   "note": "Everything the generated code imports, aliases, implements or offers is declared, for all items and whole runs; three parts fail and have witnesses (overrides without a method or a holder, vectors of what cannot be destroyed). Names in signatures of the bridge are built in or declared, except what comes out of typedefs and templates, the parameters of constructors and destructors and the place for a result; names declared in it are distinct without subclasses and strings, unless a C type takes one."
  },
  {
   "property": "C69",
   "status": "partial",
   "theorems": [
    "Verif.wrapper_unsafe_enclosed",
    "Verif.wrapper_no_idle_unsafe",
    "Verif.generated_unsafe_exact",
    "Verif.caller_sees_unsafe_iff",
    "Verif.mix_unsafe_witness",
    "Verif.ConvertStages.override_unsafe_partial",
    "Verif.override_pointer_false",
    "Verif.bridge_pointers_unsafe",
    "Verif.ConvertStages.trait_method_partial",
    "Verif.trait_method_witness",
    "Verif.override_agrees",
    "Verif.pass_agrees_partial",
    "Verif.ConvertStages.run_agrees_partial"
   ],
   "note": "In the functions generated for C++ functions all that needs unsafe is enclosed and no block is idle; what callers see is unsafe exactly when it should be, also for the methods of the traits which subclasses implement. Functions of the bridge which take pointers are unsafe; that those C++ calls are is false, it holds if the pointer is not the form of something else."
  },
  {
   "property": "C70",
   "status": "partial",
   "theorems": [
    "Verif.type_accepted_iff",
    "Verif.type_refused_iff",
    "Verif.signature_accepted_iff",
    "Verif.signature_refused_iff",
    "Verif.ConvertStages.rustFn_from",
    "Verif.ConvertStages.rustFn_types_declared",
    "Verif.ConvertStages.rustFn_delivered_partial",
    "Verif.offer_refused_iff",
    "Verif.convert_error_iff",
    "Verif.same_method_false",
    "Verif.isize_function_false",
    "Verif.exOffer_run"
   ],
   "note": "Which signatures are accepted and why others are refused is characterised exactly, as is what a function depends on. Types named in declared signatures are built in or declared, unless the name is that of a template or of no type. The claim that accepted functions are declared is false: see the two witnesses."
  },
  {
   "property": "C71",
   "status": "partial",
   "theorems": [
    "Verif.convert_fine",
    "Verif.convert_again",
    "Verif.pin_class_panics_false",
    "Verif.template_name_panic_false",
    "Verif.numbered_static_panics",
    "Verif.analyze_safe",
    "Verif.fnAndSubclasses_safe",
    "Verif.function_pass_safe",
    "Verif.analysis_safe",
    "Verif.typedef_pass_safe",
    "Verif.pod_pass_safe",
    "Verif.convert_safe",
    "Verif.FnSteps.bindable",
    "Verif.function_bindable",
    "Verif.genFunction_some",
    "Verif.ConvertStages.delivered_ok",
    "Verif.ConvertStages.items_generated",
    "Verif.ConvertStages.rust_code_panics_iff",
    "Verif.genApi_some",
    "Verif.convertAll_panics",
    "Verif.convertAll_safe",
    "Verif.generateCppCode_np",
    "Verif.override_owner_crashes_false",
    "Verif.header_found",
    "Verif.convert_header_panics",
    "Verif.convert_header_safe",
    "Verif.header_held",
    "Verif.convert_ordered_panics",
    "Verif.convert_ordered_safe"
   ],
   "note": "Proved: for a header whose names are well-formed as bindgen reports them (identifiers whose first character is a letter, no class Pin, a configuration naming only such things: WellNamed) and whose types can be put in an order in which each class comes after what it holds and derives from (HeldInOrder), the whole conversion with generation of C++ and Rust code panics only if a method overridden by a Rust subclass takes an owner, or if overrides are all that C++ code is needed for (convert_ordered_panics); never without Rust subclasses (convert_ordered_safe). Missing: the cases in which it does panic are disagreements, see DESIGN.md; panics inside bindgen, cxx and syn are not modelled."
  },
  {
   "property": "C72",
   "status": "partial",
   "theorems": [
    "Verif.objects_owned",
    "Verif.address_fixed",
    "Verif.reference_kept_partial",
    "Verif.references_alias_partial",
    "Verif.taken_partial",
    "Verif.cast_holds",
    "Verif.ways_agree_partial",
    "Verif.only_writes_change",
    "Verif.only_drop_destroys",
    "Verif.refs_panic_iff",
    "Verif.undefined_partial",
    "Verif.deref_assign_false",
    "Verif.deref_assign_undefined_false",
    "Verif.null_pin_false",
    "Verif.outlives_pin_false"
   ],
   "note": "Ownership, pinning and destruction are proved for all programs. That references refer to what they were taken from is proved for programs which do not assign through a pin's deref_mut, and is false for others; that references are never null and do not outlive their pin is false (witnesses). Lifetimes are not modelled."
  },
  {
   "property": "C73",
   "status": "partial",
   "theorems": [
    "Verif.subclass_expands_iff",
    "Verif.subclass_refused_iff",
    "Verif.fields_once_iff",
    "Verif.peer_found_iff",
    "Verif.structs_needed",
    "Verif.subclass_fits_partial",
    "Verif.attribute_read_alike",
    "Verif.extern_attributes_iff",
    "Verif.renamed_module_false",
    "Verif.second_peer_field_false",
    "Verif.generic_subclass_false",
    "Verif.extern_type_on_function_false",
    "Verif.nested_subclass_false"
   ],
   "note": "What the attributes accept and make is characterised. That the peer's type is found is proved for modules called ffi and false for others; further disagreements are witnessed. Whether rustc accepts the expanded struct is stated only for names of fields and of the peer."
  },
  {
   "property": "C74",
   "status": "partial",
   "theorems": [
    "Verif.ConvertStages.module_names",
    "Verif.ConvertStages.names_once_partial",
    "Verif.ConvertStages.member_names",
    "Verif.ConvertStages.members_once_partial",
    "Verif.ConvertStages.delivered_names_partial",
    "Verif.names_in_pass",
    "Verif.numbered_names_false",
    "Verif.reserved_namespace_false",
    "Verif.top_names",
    "Verif.ConvertStages.rust_names_once_partial",
    "Verif.sub_names_witness",
    "Verif.made_name_false"
   ],
   "note": "The names of every module, impl block and of the outermost level are given exactly, also where there are subclasses in Rust. They are distinct if nothing is called like what is always there, no function is to be called like another with a number after it, no class has a name made up for another one, markers keep apart and what is at the very top keeps apart. The first three are necessary (reserved_namespace_false, numbered_names_false, made_name_false). Missing: that the last two always hold."
  }
 ]
}
