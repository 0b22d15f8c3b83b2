{
 "claims": [
  {
   "property": "C01",
   "status": "proved",
   "theorems": [
    "Cbindgen.C01_field_reads_back"
   ],
   "note": "Token level; qualifiers on function pointers are C41."
  },
  {
   "property": "C02",
   "status": "proved",
   "theorems": [
    "Cbindgen.C02_function_reads_back",
    "Cbindgen.C02_no_params_void"
   ],
   "note": "ArrayLengthsOnPtrs excludes the unreachable! of from_func_arg."
  },
  {
   "property": "C03",
   "status": "proved",
   "theorems": [
    "Cbindgen.C03_type_name_reads_back",
    "Cbindgen.C03_injective"
   ],
   "note": ""
  },
  {
   "property": "C04",
   "status": "proved",
   "theorems": [
    "Cbindgen.C04_guard_iff_cfg",
    "Cbindgen.C04_no_cfg_no_guard"
   ],
   "note": "All cfg expressions over mapped options (nonempty any); unmapped options are C42."
  },
  {
   "property": "C05",
   "status": "proved",
   "theorems": [
    "Cbindgen.C05_condition_text_reads_back",
    "Cbindgen.C05_generated_wellFormed"
   ],
   "note": "Character-level round trip through an independent precedence parser, both syntaxes."
  },
  {
   "property": "C06",
   "status": "partial",
   "theorems": [
    "Cbindgen.C06_guard_partial",
    "Cbindgen.C06_complete_partial",
    "Cbindgen.C06_impl_cfg_lost",
    "Cbindgen.C06_bitflags_cfg_lost"
   ],
   "note": "Sound and complete for all module trees and crate graphs except cfg attributes on impl blocks and on bitflags! invocations, which the code drops (refuted by witness)."
  },
  {
   "property": "C07",
   "status": "proved",
   "theorems": [
    "Cbindgen.C07_struct_fields_not_reserved",
    "Cbindgen.C07_args_not_reserved",
    "Cbindgen.C07_escape",
    "Cbindgen.C07_struct_fields_kept",
    "Cbindgen.C07_struct_field_names"
   ],
   "note": "With respect to the table of the code; the real keyword lists are C49."
  },
  {
   "property": "C08",
   "status": "partial",
   "theorems": [
    "Cbindgen.C08_injective_partial",
    "Cbindgen.C08_collision",
    "Cbindgen.C08_pointers",
    "Cbindgen.C08_closing",
    "Cbindgen.C08_underscore_names",
    "Cbindgen.C08_underscore_generic",
    "Cbindgen.C08_nonzero",
    "Cbindgen.C08_removed"
   ],
   "note": "Refuted by several pairs of instantiations with one mangled name, and by a program in which the second instantiation is dropped silently. Proved injective, at any depth and with any number of arguments, for arguments built from names without underscores, primitives of Rust and numbers, with the default mangling options."
  },
  {
   "property": "C09",
   "status": "proved",
   "theorems": [
    "Cbindgen.C09_contents",
    "Cbindgen.C09_lookup",
    "Cbindgen.C09_never_mixed",
    "Cbindgen.C09_rejected_iff",
    "Cbindgen.C09_rebuild"
   ],
   "note": "For every sequence of insertions."
  },
  {
   "property": "C10",
   "status": "proved",
   "theorems": [
    "Cbindgen.C10_before",
    "Cbindgen.C10_roots",
    "Cbindgen.C10_closed"
   ],
   "note": "On the result of the whole Library::generate model, for all libraries, configurations and languages. Types named only in casts are C53."
  },
  {
   "property": "C11",
   "status": "proved",
   "theorems": [
    "Cbindgen.C11_known",
    "Cbindgen.C11_reachable",
    "Cbindgen.C11_generate"
   ],
   "note": "Includes termination of the collection with fuel = number of known names + 1."
  },
  {
   "property": "C12",
   "status": "proved",
   "theorems": [
    "Cbindgen.C12_layers",
    "Cbindgen.C12_permutation"
   ],
   "note": "The layered order is unique, so any correct stable sort gives it."
  },
  {
   "property": "C13",
   "status": "proved",
   "theorems": [
    "Cbindgen.C13_excluded",
    "Cbindgen.C13_generate"
   ],
   "note": "Per table, and for everything handed to the writers."
  },
  {
   "property": "C14",
   "status": "partial",
   "theorems": [
    "Cbindgen.C14_definitions",
    "Cbindgen.C14_references",
    "Cbindgen.C14_consistent",
    "Cbindgen.C14_constants",
    "Cbindgen.C14_parameters_partial",
    "Cbindgen.C14_tag_partial",
    "Cbindgen.C14_parameter_prefixed",
    "Cbindgen.C14_transparent_tag"
   ],
   "note": "For the whole of Library::generate: definitions and references carry the name given by the config, and references equal the exported name of the definition. Refuted: the parameter in the type of an associated constant of a generic struct gets the prefix; the variants of a transparent enum refer to an undefined `Tag`. The parameter and tag theorems exclude these."
  },
  {
   "property": "C15",
   "status": "proved",
   "theorems": [
    "Cbindgen.C15_simultaneous",
    "Cbindgen.C15_untouched",
    "Cbindgen.C15_names",
    "Cbindgen.C15_no_parameter_remains",
    "Cbindgen.C15_struct",
    "Cbindgen.C15_union",
    "Cbindgen.C15_typedef",
    "Cbindgen.C15_enum"
   ],
   "note": "Against an evaluator of types in an environment over an arbitrary domain; for types and for whole struct, union, typedef and enum definitions."
  },
  {
   "property": "C16",
   "status": "partial",
   "theorems": [
    "Cbindgen.C16_instantiated_partial",
    "Cbindgen.C16_header_partial",
    "Cbindgen.C16_once_partial",
    "Cbindgen.C16_static",
    "Cbindgen.C16_name_taken",
    "Cbindgen.C16_twice"
   ],
   "note": "After monomorphisation all generic uses of known definitions in definitions and functions are replaced by mangled names of instances, with the same name for the same arguments, and no definition in the header has such a use. Refuted: statics of generic type, an instance with the name of a generic definition, enums with data instantiated twice."
  },
  {
   "property": "C17",
   "status": "partial",
   "theorems": [
    "Cbindgen.C17_layout_partial",
    "Cbindgen.C17_replaced_partial",
    "Cbindgen.C17_cell_refuted",
    "Cbindgen.C17_uninit_refuted",
    "Cbindgen.C17_user_type_refuted"
   ],
   "note": "Layouts (size class, alignment class, niches) of types are given by the rules of the Rust reference for the standard wrappers. For every type in which no Option hides a niche behind Cell, UnsafeCell, SyncUnsafeCell or MaybeUninit, simplification keeps the layout of every part that is seen through the ABI; outside C++ a type with the layout of a scalar becomes that scalar. Without the condition the claim is false: Option<Cell<&T>>, MaybeUninit<&T> (which becomes a non-null reference) and user types with the name of a wrapper are given."
  },
  {
   "property": "C18",
   "status": "partial",
   "theorems": [
    "Cbindgen.C18_primitive_representation_partial",
    "Cbindgen.C18_primitive_recognised",
    "Cbindgen.C18_misspelt_nonzero",
    "Cbindgen.C18_vaList_is_not_variadic",
    "Cbindgen.C18_toReprRust_recognised"
   ],
   "note": "Proved for every recognised name except VaList, NonZeroUSize and NonZeroISize, on every platform that allows the mode. Refuted for those: VaList is written as `...`, and NonZeroUSize/NonZeroISize are no Rust names (the real NonZeroUsize/NonZeroIsize are not recognised)."
  },
  {
   "property": "C19",
   "status": "proved",
   "theorems": [
    "Cbindgen.C19_repr_accepts_iff",
    "Cbindgen.C19_repr_rejects"
   ],
   "note": "Accepted if and only if the attributes ask for one representation, which is the result; of several styles the last counts. Everything else gives an error, never a panic."
  },
  {
   "property": "C20",
   "status": "proved",
   "theorems": [
    "Cbindgen.C20_struct_alignment",
    "Cbindgen.C20_union_alignment",
    "Cbindgen.C20_struct_without_annotation",
    "Cbindgen.C20_union_without_annotation",
    "Cbindgen.C20_enum_alignment"
   ],
   "note": "Over the load functions and load_syn_struct/load_syn_union: an item loaded with fields has the requested alignment and the config has the annotation for it; without annotation the item becomes an opaque item. A struct without annotation whose generic parameters cannot be loaded panics in the code."
  },
  {
   "property": "C21",
   "status": "partial",
   "theorems": [
    "Cbindgen.C21_annotations_as_written_partial",
    "Cbindgen.C21_annotations_rejected_iff",
    "Cbindgen.C21_says_total",
    "Cbindgen.C21_empty_list_has_one_item"
   ],
   "note": "Proved for all comment lines (every cbindgen line with at most one `=` is covered) except the list without items: refuted, since `[]` is read as a list of one empty text."
  },
  {
   "property": "C22",
   "status": "proved",
   "theorems": [
    "Cbindgen.C22_documentation_exact"
   ],
   "note": "Over lists of attributes with the text of each doc attribute; single lines are kept as they are, texts with newlines are dedented as the specification says, and exactly the lines for cbindgen go."
  },
  {
   "property": "C23",
   "status": "partial",
   "theorems": [
    "Cbindgen.C23_lines_partial",
    "Cbindgen.C23_stars_partial",
    "Cbindgen.C23_block_partial",
    "Cbindgen.C23_cython",
    "Cbindgen.C23_off",
    "Cbindgen.C23_lines_loaded",
    "Cbindgen.C23_closing_refuted",
    "Cbindgen.C23_slash_refuted",
    "Cbindgen.C23_backslash_refuted",
    "Cbindgen.C23_star_backslash_refuted"
   ],
   "note": "A reader of comments with line splicing accepts the text for all documentation in Cython, and for all documentation in C and C++ that avoids the listed sequences. Each of these sequences is shown to break out: */ in a line, a line that starts with / after the prefix ' *', a backslash at the end of the last // line, *\\ at the end of a line in style C."
  },
  {
   "property": "C24",
   "status": "proved",
   "theorems": [
    "Cbindgen.C24_content",
    "Cbindgen.C24_report",
    "Cbindgen.C24_writes",
    "Cbindgen.C24_repeat",
    "Cbindgen.C24_noop"
   ],
   "note": "Over any sequence of calls of write_to_file with any contents, paths and no-op bindings, on a file system of regular files with a log of writes. The creation of directories and I/O errors are not modelled."
  },
  {
   "property": "C25",
   "status": "proved",
   "theorems": [
    "Cbindgen.C25_auto_layout",
    "Cbindgen.C25_lines_within",
    "Cbindgen.C25_too_long"
   ],
   "note": "For all sequences of writer calls, nested tries included. Lengths are in bytes of UTF-8, as in the code; carriage returns and newlines both end a line."
  },
  {
   "property": "C26",
   "status": "partial",
   "theorems": [
    "Cbindgen.C26_indentation",
    "Cbindgen.C26_braces",
    "Cbindgen.C26_brace_indentation",
    "Cbindgen.C26_lists",
    "Cbindgen.C26_header",
    "Cbindgen.C26_items",
    "Cbindgen.C26_header_end",
    "Cbindgen.C26_line_length_partial",
    "Cbindgen.C26_line_length_at_least",
    "Cbindgen.C26_line_length_refuted",
    "Cbindgen.C26_try_length_refuted"
   ],
   "note": "Indentation and restoration are proved for all sequences of calls, for every item of every backend and for the whole header. The recorded length is exact when lines only end in new_line and tried forms stay on one line, and never too small; refuted in general (raw blocks and tried forms with several lines are counted as one line)."
  },
  {
   "property": "C27",
   "status": "partial",
   "theorems": [
    "Cbindgen.C27_balanced_partial",
    "Cbindgen.C27_nesting_partial",
    "Cbindgen.C27_refuted",
    "Cbindgen.C27_option_refuted"
   ],
   "note": "A reader of C text (comments, literals, directives, braces) accepts every C and C++ header, for all bindings and options whose names are plain words, whose option texts leave nothing open and whose documentation stays in its comments. Namespaces are closed in reverse order and the linkage block is closed exactly when and under the conditional it is opened; what stands between is neutral. The generator does not check the conditions: documentation and option texts that break the balance are given."
  },
  {
   "property": "C28",
   "status": "partial",
   "theorems": [
    "Cbindgen.C28_structure_partial",
    "Cbindgen.C28_written",
    "Cbindgen.C28_negation_refuted",
    "Cbindgen.C28_raw_refuted"
   ],
   "note": "The text is lexed with the longest match and parsed with C precedence; the tree is unique and has the operators, members and casts of the Rust expression at the same places, for expressions of any depth over integer, byte, float, bool and char literals, paths, associated paths, parentheses, the 18 non-assigning binary operators, negation, not, fields and casts to primitive, named and pointer types. Two families are excluded and shown to fail: -(-1) is written --1, and raw identifiers stay raw. C and C++ only; pointer attributes must be unset."
  },
  {
   "property": "C29",
   "status": "partial",
   "theorems": [
    "Cbindgen.C29_integer_literal_partial",
    "Cbindgen.C29_big_literal_has_no_type",
    "Cbindgen.C29_i64_min_has_no_type",
    "Cbindgen.C29_i64_min_is_positive",
    "Cbindgen.C29_suffix_type"
   ],
   "note": "Proved for literals below 2^64 (below 2^63 with suffix i64). Refuted for bigger literals, which no C type holds, and for the smallest i64, which is written with an unsigned literal (positive in C) or with `ll` (too big)."
  },
  {
   "property": "C30",
   "status": "partial",
   "theorems": [
    "Cbindgen.C30_sections",
    "Cbindgen.C30_first_needs_no_type_partial",
    "Cbindgen.C30_needs_follow",
    "Cbindgen.C30_written",
    "Cbindgen.C30_enum_refuted",
    "Cbindgen.C30_array_refuted",
    "Cbindgen.C30_invalid_refuted"
   ],
   "note": "Every written constant is in exactly one of the two sections, and those that need a type are in the second. Refuted: an enum path or an array of a named type can be in the first section, and constants whose value is not valid are not written at all."
  },
  {
   "property": "C31",
   "status": "partial",
   "theorems": [
    "Cbindgen.C31_depfile_partial",
    "Cbindgen.C31_depfile_comment",
    "Cbindgen.C31_depfile_other_file",
    "Cbindgen.C31_depfile_dollar"
   ],
   "note": "Proved for paths without characters that make treats specially other than the space; the config file is listed with the sources. Refuted for `#` (the rest is lost) and `$`: only spaces are escaped."
  },
  {
   "property": "C32",
   "status": "proved",
   "theorems": [
    "Cbindgen.C32_symfile"
   ],
   "note": "The file reads back as exactly the exported functions followed by the exported statics. Names that are empty or contain `;` or a newline are excluded."
  },
  {
   "property": "C33",
   "status": "proved",
   "theorems": [
    "Cbindgen.C33_parsed_at_most_once",
    "Cbindgen.C33_only_allowed",
    "Cbindgen.C33_all_reachable",
    "Cbindgen.C33_names_closed",
    "Cbindgen.C33_terminates"
   ],
   "note": "All dependency graphs including cyclic ones; completeness assumes that names identify packages (see C46)."
  },
  {
   "property": "C34",
   "status": "proved",
   "theorems": [
    "Cbindgen.C34_order_irrelevant",
    "Cbindgen.C34_generate"
   ],
   "note": "For every permutation of the map entries; lifted to the result of Library::generate."
  },
  {
   "property": "C35",
   "status": "partial",
   "theorems": [
    "Cbindgen.C35_keywords_partial",
    "Cbindgen.C35_unknown",
    "Cbindgen.C35_no_tags",
    "Cbindgen.C35_constant_without_keyword",
    "Cbindgen.C35_sized_enum",
    "Cbindgen.C35_conditional_kinds"
   ],
   "note": "For the result of Library::generate, if all definitions of a name are of one kind and enums without data are repr(C) exactly if they have no integer type. Refuted outside: values of constants get no keyword, repr(C, u8) enums, conditional definitions of different kinds."
  },
  {
   "property": "C36",
   "status": "partial",
   "theorems": [
    "Cbindgen.C36_order",
    "Cbindgen.C36_variants_partial",
    "Cbindgen.C36_declared_order_partial",
    "Cbindgen.C36_one_variant",
    "Cbindgen.C36_commas_partial",
    "Cbindgen.C36_cache",
    "Cbindgen.C36_variants_refuted",
    "Cbindgen.C36_renamed_refuted",
    "Cbindgen.C36_comma_refuted"
   ],
   "note": "For all languages and layouts the given fields are written once each in the order of the merged list of names, and for variants with a common core that is the order of every variant. Refuted: three variants whose merged order is wrong, renamed fields lose their values, a missing first field leaves a leading comma."
  },
  {
   "property": "C37",
   "status": "partial",
   "theorems": [
    "Cbindgen.C37_terminates_partial",
    "Cbindgen.C37_resolved",
    "Cbindgen.C37_diverges"
   ],
   "note": "Proved for alias graphs without cycles, and whenever the loop ends it ends at the end of the chain. Refuted in general: aliases under exclusive cfg conditions can form a cycle, and the loop never ends."
  },
  {
   "property": "C38",
   "status": "partial",
   "theorems": [
    "Cbindgen.C38_call_partial",
    "Cbindgen.C38_arity_error",
    "Cbindgen.C38_default_names_parameter",
    "Cbindgen.C38_opaque_too_few"
   ],
   "note": "Arguments and defaults are paired as declared and too many arguments are an error. Refuted: a default naming an earlier parameter is not substituted, and opaque items accept too few arguments."
  },
  {
   "property": "C39",
   "status": "proved",
   "theorems": [
    "Cbindgen.C39_function_bound_iff",
    "Cbindgen.C39_bound_is_exported",
    "Cbindgen.C39_exported_is_bound"
   ],
   "note": "Both directions, all crate graphs; whether Function::load accepts a signature is a flag of the item."
  },
  {
   "property": "C40",
   "status": "proved",
   "theorems": [
    "Cbindgen.C40_enumerators",
    "Cbindgen.C40_distinct",
    "Cbindgen.C40_distinct_without_rule",
    "Cbindgen.C40_source_variants_first"
   ],
   "note": "Names and values seen by a C compiler equal those of the Rust build, in every build."
  },
  {
   "property": "C41",
   "status": "partial",
   "theorems": [
    "Cbindgen.C41_field_reads_back_exactly_partial",
    "Cbindgen.C41_const_fnptr_loses_const",
    "Cbindgen.C41_nonnull_fnptr_marked_nullable"
   ],
   "note": "The claim is false of the code: const and non-null are lost on function pointers (two counterexample theorems); the partial theorem covers the types without these situations."
  },
  {
   "property": "C42",
   "status": "partial",
   "theorems": [
    "Cbindgen.C42_conjunction_never_hides_partial",
    "Cbindgen.C42_any_hides",
    "Cbindgen.C42_empty_any_unguarded"
   ],
   "note": "True of conjunctions; refuted for any and not."
  },
  {
   "property": "C43",
   "status": "partial",
   "theorems": [
    "Cbindgen.C43_assoc_consts_taken_partial",
    "Cbindgen.C43_private_hides_public"
   ],
   "note": "Refuted: a private constant ends the loop; proved when all are public."
  },
  {
   "property": "C44",
   "status": "partial",
   "theorems": [
    "Cbindgen.C44_ignored_item_contributes_nothing_partial",
    "Cbindgen.C44_ignored_foreign_fn_bound"
   ],
   "note": "Refuted for functions of extern blocks; proved for all other items at all positions."
  },
  {
   "property": "C45",
   "status": "partial",
   "theorems": [
    "Cbindgen.C45_static_bound_iff_partial",
    "Cbindgen.C45_unsafe_export_name_static_not_bound"
   ],
   "note": "Refuted for #[unsafe(export_name)]."
  },
  {
   "property": "C46",
   "status": "partial",
   "theorems": [
    "Cbindgen.C46_second_version_dropped",
    "Cbindgen.C33_names_closed"
   ],
   "note": "Refuted by witness; what remains true is C33_names_closed."
  },
  {
   "property": "C47",
   "status": "partial",
   "theorems": [
    "Cbindgen.C47_visible_iff_active_partial",
    "Cbindgen.C47_second_path_ignored"
   ],
   "note": "Refuted by witness; proved when all paths to a crate carry the same predicates."
  },
  {
   "property": "C48",
   "status": "partial",
   "theorems": [
    "Cbindgen.C48_array_only_on_pointers",
    "Cbindgen.C48_array_length_partial",
    "Cbindgen.C48_rust_name_ignored",
    "Cbindgen.C48_empty_tuple_panics"
   ],
   "note": "Holds for the header name and one entry; refuted for the Rust name and for malformed entries (panic)."
  },
  {
   "property": "C49",
   "status": "partial",
   "theorems": [
    "Cbindgen.C49_escaped_is_keyword_iff_partial",
    "Cbindgen.C49_missing_keywords",
    "Cbindgen.C49_union_fields_not_escaped",
    "Cbindgen.C49_renamed_variant_keyword"
   ],
   "note": "Exact set of words that escape the table; refuted for those, for unions and for renamed variants."
  },
  {
   "property": "C50",
   "status": "partial",
   "theorems": [
    "Cbindgen.C50_struct_fields_distinct_partial",
    "Cbindgen.C50_escape_collides"
   ],
   "note": "Refuted for int/int_; proved when no field is a keyword plus underscore or underscore plus digit."
  },
  {
   "property": "C51",
   "status": "partial",
   "theorems": [
    "Cbindgen.C40_source_variants_first",
    "Cbindgen.C51_sentinel_collides"
   ],
   "note": "Refuted by witness."
  },
  {
   "property": "C52",
   "status": "partial",
   "theorems": [
    "Cbindgen.C52_header_partial",
    "Cbindgen.C52_items",
    "Cbindgen.C52_order_refuted",
    "Cbindgen.C52_transparent_refuted"
   ],
   "note": "The two hash maps whose iteration reaches the header are the annotations that aliases give away and the fields of struct literals. For any two orders of both, the runs give the same functions and statics, related constants and the same types up to order, without conditions; and the same text if at most one field of each struct literal names types and literals of transparent structs have one field. Both conditions are needed: two libraries with two headers each are given. Missing: literals in associated constants and enum discriminants."
  },
  {
   "property": "C53",
   "status": "partial",
   "theorems": [
    "Cbindgen.C53_cast_type_missing",
    "Cbindgen.C53_named_types_partial"
   ],
   "note": "Refuted: Literal::add_dependencies skips the type of a cast. Holds for all other references of constants."
  },
  {
   "property": "C54",
   "status": "proved",
   "theorems": [
    "Cbindgen.C54_functions",
    "Cbindgen.C54_constants",
    "Cbindgen.C54_globals"
   ],
   "note": "Through transfer of annotations, simplification, monomorphs, exclusion, resolution and renaming."
  },
  {
   "property": "C55",
   "status": "partial",
   "theorems": [
    "Cbindgen.C55_ends_partial",
    "Cbindgen.C55_enum_diverges",
    "Cbindgen.C55_growing_diverges"
   ],
   "note": "Refuted: a recursive generic enum (bodies of variants are instantiated before the enum is known) and generic structs whose argument grows never end. Proved for libraries without data in generic enums in which arguments are passed on as they are."
  },
  {
   "property": "C56",
   "status": "partial",
   "theorems": [
    "Cbindgen.C56_noop_run_partial",
    "Cbindgen.C56_noop_overwrites_symfile"
   ],
   "note": "Proved for runs without --symfile (the dep file is not part of the model of main). Refuted: generate_symfile does not look at the no-op flag and overwrites the symbol file with an empty list."
  },
  {
   "property": "C57",
   "status": "partial",
   "theorems": [
    "Cbindgen.C57_verify_verdict",
    "Cbindgen.C57_verify_overwrites"
   ],
   "note": "The verdict is exact. Refuted: --verify overwrites the file, so a second run always succeeds."
  },
  {
   "property": "C58",
   "status": "proved",
   "theorems": [
    "Cbindgen.C58_field_text",
    "Cbindgen.C58_type_text",
    "Cbindgen.C58_function_text",
    "Cbindgen.C58_layout_irrelevant"
   ],
   "note": "The characters that the writer produces for a declaration (indentation, wrapped argument lists, line endings, spaces) are cut into tokens by a reader that follows the rules of C and knows nothing of the writer, and read by the declarator rules of C01. The declared name and the C type are the expected ones for every type, layout and writer state. Names are identifiers, array lengths are single words, attributes single words, constant template arguments numbers."
  },
  {
   "property": "C59",
   "status": "partial",
   "theorems": [
    "Cbindgen.C59_struct_reads_back",
    "Cbindgen.C59_union_reads_back",
    "Cbindgen.C59_opaque_reads_back",
    "Cbindgen.C59_typedef_reads_back",
    "Cbindgen.C59_function_reads_back",
    "Cbindgen.C59_constant_reads_back",
    "Cbindgen.C59_static_reads_back_partial",
    "Cbindgen.ReadCases.C59_static_pointer_refuted",
    "Cbindgen.C59_note",
    "Cbindgen.C59_blocks"
   ],
   "note": "The text of an item, split into tokens and read by a reader of C headers that knows nothing of the writer, declares that item: its attributes, tag, name, members in order with their types, and nothing if its condition does not hold. For structs, unions, opaque types, aliases, functions and constants this holds for all items whose names are identifiers and whose attributes and blocks of code can be read. Statics: an immutable static of a pointer type is written as a variable that can be changed (refuted with `static B: Option<Box<bool>>`); all other statics are proved. For C, and for the part of C++ in the note of C74."
  },
  {
   "property": "C60",
   "status": "proved",
   "theorems": [
    "Cbindgen.C60_enum_reads_back",
    "Cbindgen.C60_size",
    "Cbindgen.C60_no_size"
   ],
   "note": "Like C59 for enums: enumerators with values and attributes in order, those whose condition holds; the integer type in C++ and C23 and the alias of the integer type before C23; the structs of variants with data, and the struct or union of tag and data. For all enums whose names are identifiers, and whose values have no comma outside of what the reader can cut. For C, and for the part of C++ in the note of C74 (there the enum has its type, can be an `enum class`, and is a member of its data)."
  },
  {
   "property": "C61",
   "status": "proved",
   "theorems": [
    "Cbindgen.C61_header_reads_back",
    "Cbindgen.C61_conditions",
    "Cbindgen.C61_guarded",
    "Cbindgen.C61_transparent"
   ],
   "note": "The text of a whole header for C, read where any set of macros is defined (but not as C++), gives exactly the included files, the macros of the constants and the declarations of the items that are to be exported and whose condition holds, in order, plus what the blocks of code of the configuration give. Conditions hold exactly when the cfg holds in Rust. A second inclusion gives nothing but the blocks outside of the guard. Hypotheses: names are identifiers, comments and blocks given by users can be read by themselves, no immutable statics of pointer types (C59)."
  },
  {
   "property": "C62",
   "status": "partial",
   "theorems": [
    "Cbindgen.C62_in_order_partial",
    "Cbindgen.C62_declared",
    "Cbindgen.C62_refuted"
   ],
   "note": "In the header as C reads it, a type name, and a struct, union or enum of which a member is an object, is declared before the declaration that needs it, if the header declares it at all; and every known, exported definition whose condition holds and that an item, function or static needs is declared (opaque types aside, which are never complete). The order is refuted for types that refer to each other: with `struct A { b: *mut B }`, `struct B { a: A }` and a function that takes `*mut A`, B is written before A, with an incomplete member. The order is proved for items whose needs do not lead back to them (a pointer of a tagged struct to itself is no need), in headers where a written name stands for one definition, no blocks of code with declarations are given, and items are not generic."
  },
  {
   "property": "C63",
   "status": "partial",
   "theorems": [
    "Cbindgen.C63_declared_partial",
    "Cbindgen.C63_only_partial",
    "Cbindgen.C63_tag_off",
    "Cbindgen.C63_tag_known",
    "Cbindgen.C63_tag_unknown"
   ],
   "note": "From the trees of the source files to the text of a C header, through parser, loader, library stage and writer: a function with C linkage that the sources declare, in modules at any depth and in crates at any distance, is declared in the header with the C type that its Rust type stands for, where all `cfg`s around it hold; and the header declares no other function. The C type is a relation on the syntax of Rust types (Spec/SourceTypes.lean); occurrence in the sources is a relation on trees (Spec/Source.lean); the header is read by the reader of C61. Partial: the relation covers types without generic arguments of user types; sources avoid the deviations that C06 and C33 refute (`cfg` on an `impl`, constants that are not `pub` before others, hidden functions in extern blocks); crates are reached under one condition and have different names; functions without `ptrs-as-arrays`; the names and options of the bindings are such that the header reads back (C61)."
  },
  {
   "property": "C64",
   "status": "partial",
   "theorems": [
    "Cbindgen.C64_struct_partial",
    "Cbindgen.C64_union_partial",
    "Cbindgen.C64_alias_partial",
    "Cbindgen.C64_transparent_partial",
    "Cbindgen.C64_origin_partial"
   ],
   "note": "From the trees of the source files to the text of a C header: a struct (also one from `bitflags!`), a union or an alias that functions, statics or other definitions need is defined in the header, with the C types and names of its fields, where all `cfg`s around it hold; a field is a member where its own `cfg`s hold; fields without size are left out; a transparent struct is an alias of the type of its first field. Every type of the bindings comes from a definition of the sources under the conditions there, from the types of the standard library, or is an instance of a generic type. What is needed is a relation on the syntax (Spec/SourceDefs.lean: from functions and statics through fields and aliases). Partial: definitions without type parameters, layouts that C can express, no `field-names` annotation, aliases have no annotations, other definitions of the same name have conditions and the same kind; enums are not covered; sources as in C63 and names as in C61."
  },
  {
   "property": "C65",
   "status": "partial",
   "theorems": [
    "Cbindgen.C65_declared_partial",
    "Cbindgen.C65_only_partial",
    "Cbindgen.C65_pointer_refuted",
    "Cbindgen.C65_generic_refuted"
   ],
   "note": "From the trees of the source files to the text of a C header: a static with a linker symbol is declared as an `extern` object of that name, with the C type of its Rust type, `const` if it is neither mutable nor a pointer, where all `cfg`s around it hold; every object that the header declares and that is no function is such a static. Refuted in two situations: an immutable static of type `*mut T` is declared as a pointer to something constant (C65_pointer_refuted), and the type of a static takes no part in instantiation and mangling, so that an instance of a generic struct is written as `G<int32_t>`, which is not C (C65_generic_refuted). Partial: without those (the first is excluded by the condition `const` of C61, the second by the relation between Rust and C types); other statics of the same name have conditions; sources as in C63 and names as in C61."
  },
  {
   "property": "C66",
   "status": "partial",
   "theorems": [
    "Cbindgen.C66_enum_partial",
    "Cbindgen.C66_sized_partial",
    "Cbindgen.C66_data_partial",
    "Cbindgen.C66_body_partial",
    "Cbindgen.C66_min_refuted",
    "Cbindgen.C66_raw_refuted"
   ],
   "note": "From the trees of the source files to the text of a C header: an enum that a function, a static or another definition of the sources needs is an enum in the header whose enumerators have the discriminants of Rust, on every platform with an `int` of 32 bits or more; variants whose `cfg`s do not hold are absent and do not count; names follow the options and annotations, and trailing values and the sentinel come last. With `repr(u8)` etc. the name stands for the integer type of that size, or the enum has that type where C has such enums. An enum with data is a union (`repr(u8)`) or a struct (`repr(C)`) with the tag first, and the data of each variant has the C types of its fields. Refuted in two situations: the discriminant -9223372036854775808 becomes a positive number (C66_min_refuted), and the data of a variant with a raw identifier is in a struct named `r#type_Body` (C66_raw_refuted). Partial: discriminants are literals, negated literals above -2^63, limits such as `i32::MIN`, or casts and the binary operators on numbers below 2^31, without a result that Rust would cut off; names of constants are the subject of C67; enums without type parameters; the definition is the only one of its name, or others are under conditions; sources as in C63 and names as in C61."
  },
  {
   "property": "C67",
   "status": "partial",
   "theorems": [
    "Cbindgen.C67_value_partial",
    "Cbindgen.C67_enum_partial",
    "Cbindgen.C67_sized_partial",
    "Cbindgen.C67_shift_refuted",
    "Cbindgen.C67_cut_refuted",
    "Cbindgen.C67_private_refuted",
    "Cbindgen.C67_not_refuted"
   ],
   "note": "From the trees of the source files to the text of a C header: a public constant of the sources whose `cfg`s hold is a macro in the header, under the name of the constant with the prefix or renaming of the configuration, and the tokens of the macro have the value of the constant in Rust, on every platform with an `int` of 32 bits or more. A value may use other public constants to any depth, since macros expand in place. The enumerators of C66 may use constants in the same way. Refuted in four situations: `1 << 31` of a `u32` overflows the `int` of C (C67_shift_refuted); `200 << 1` of a `u8` is 144 in Rust and 400 in C (C67_cut_refuted); a public constant that uses a private one gives a macro that uses an undefined name (C67_private_refuted); `!1` of a `u32` is 4294967294 in Rust and -2 in C (C67_not_refuted), while the complement of a literal in a type with sign is covered. Partial: integers and `bool`, with the expressions of C66 and names of constants; the constant is the only one of its name, and no associated constant or flag has the same entry in the table of constants; a name in an expression is taken to mean the public constant of that name, as the scopes of Rust are not modelled; associated constants, strings, characters, floats and struct literals are left out; sources as in C63 and names as in C61."
  },
  {
   "property": "C68",
   "status": "partial",
   "theorems": [
    "Cbindgen.C68_packages_partial",
    "Cbindgen.C68_condition_partial",
    "Cbindgen.C68_reached_partial",
    "Cbindgen.C68_given_partial",
    "Cbindgen.C68_root_partial",
    "Cbindgen.C68_order",
    "Cbindgen.C68_two_targets_refuted",
    "Cbindgen.C68_dev_refuted",
    "Cbindgen.C68_target_name_refuted",
    "Cbindgen.C68_sources_refuted",
    "Cbindgen.C68_root_refuted"
   ],
   "note": "The dependencies of a crate are the packages that its listing in Cargo.lock names, by name, name and version, or name, version and source, in whatever order the hash sets are iterated over (C68_packages_partial). The condition of a dependency holds exactly if the library uses the package on that target (C68_condition_partial). So the crates that are parsed, the conditions on the way and the items that are found are those of the lock file and the metadata (C68_reached_partial, C68_given_partial), and the crate itself is found by its name or directory (C68_root_partial). The list of dependencies is the same for every order of iteration, without conditions (C68_order). Refuted in five situations: a package declared for two targets has only the first condition; packages used only by tests or build scripts are parsed too; a target that is a plain identifier is no condition; of two packages with one name and version from two sources, one hides the other; with two crates of the name and a relative directory, hash order decides. Partial: no two packages with one name and version; the metadata describes every package of the lock file; each dependency is declared once, for the library, and not for a target given by a plain identifier; one library per package. The trees of lock file and metadata are given; reading the files and running cargo are not modelled."
  },
  {
   "property": "C69",
   "status": "partial",
   "theorems": [
    "Cbindgen.C69_options",
    "Cbindgen.C69_valid",
    "Cbindgen.C69_as_configured_partial",
    "Cbindgen.C69_error",
    "Cbindgen.C69_functions_partial",
    "Cbindgen.C69_target_refuted",
    "Cbindgen.C69_refused",
    "Cbindgen.C69_verify",
    "Cbindgen.C69_nested",
    "Cbindgen.C69_config",
    "Cbindgen.C69_sources"
   ],
   "note": "The program accepts exactly the command lines of its help (C69_valid); each option it accepts overrides the one of the configuration, and nothing else changes (C69_options). A run with options is the run without them under the configuration changed in the same way (C69_as_configured_partial), except for --only-target-dependencies: cargo runs before the configuration is read, so that option of the configuration is ignored (C69_target_refuted). A run that ends with an error leaves all files as they are and prints nothing (C69_error). After a run for C that succeeds, the output file declares the functions of the sources of the file or crate that was given, with their C types (C69_functions_partial: options through C63 and C61 to the bytes of the file). Partial: the conditions of C63, and no nested run. Reading the configuration, cargo's output and the sources is given, not modelled; --quiet, -v, --depfile and the messages are left out. C69_refused and C69_verify say exactly which runs end with the exit code 2: those with options that are not described, those that verify without a file, and those that verify a file that is not what is generated. C69_config: the configuration is that of the given file, or else that of the directory of the file or of the crate. C69_nested: a run inside of a run prints nothing and touches no file but the symbol file. C69_sources: the sources are the single file, or the crate that cargo names, and the types of the standard library are known in every run."
  },
  {
   "property": "C70",
   "status": "partial",
   "theorems": [
    "Cbindgen.C70_loaded",
    "Cbindgen.C70_names",
    "Cbindgen.C70_generic_partial"
   ],
   "note": "The assumptions of the library stage of C14, C16, C35 and C62 hold of everything that is loaded from sources (C70_loaded), so that for every run the definitions that are written carry the configured names and all references to them the same names (C70_names), and no type or function in C or Cython keeps generic arguments at a definition of the sources. Partial: statics keep them (C65_generic_refuted, C16_static). Only assumption: a hash map of literal fields is iterated in some order of its entries."
  },
  {
   "property": "C71",
   "status": "partial",
   "theorems": [
    "Cbindgen.C71_function_partial",
    "Cbindgen.C71_instance_partial",
    "Cbindgen.C71_struct_partial",
    "Cbindgen.C71_name",
    "Cbindgen.C71_self_refuted",
    "Cbindgen.C71_option_refuted"
   ],
   "note": "A function of the sources that uses generic definitions of the sources, at any depth of pointers, arrays, wrappers and function pointers, is declared with the C type of the same function with the instances' names for the uses (C71_function_partial). The instance of a generic struct is defined under that name with the C types of the fields of the struct, where the parameters stand for the arguments (C71_instance_partial); structs that only instances need are defined too (C71_struct_partial). With the default mangling the names are the definition's name, an underscore and the arguments' names (C71_name). Partial: instances of unions, enums and aliases are not traced from the sources to the header; two definitions or uses with the same instance name are excluded by hypothesis; that the use is followed is a hypothesis about the expanded tables. Refuted: `Self` inside a generic definition is the generic name, which the header does not declare (C71_self_refuted); `Option<T>` is not seen through after `T` is replaced by a reference (C71_option_refuted)."
  },
  {
   "property": "C72",
   "status": "partial",
   "theorems": [
    "Cbindgen.C72_struct_partial",
    "Cbindgen.C72_body_partial",
    "Cbindgen.C72_enum_eq_partial",
    "Cbindgen.C72_enum_ne_partial",
    "Cbindgen.C72_is_partial",
    "Cbindgen.C72_destructor_partial",
    "Cbindgen.C72_copy_partial",
    "Cbindgen.C72_struct_only",
    "Cbindgen.C72_enum_only",
    "Cbindgen.C72_parameter_refuted",
    "Cbindgen.C72_tag_refuted",
    "Cbindgen.C72_annotation_refuted"
   ],
   "note": "The text of a C++ header has the comparison operators that are asked for structs (C72_struct_partial) and for the data of variants (C72_body_partial): read as C++, `==` holds if it holds for all fields, `!=` if it holds for some, and the orders are those of the one field. For enums with data, `==` is false for different variants and otherwise compares the data (C72_enum_eq_partial), `!=` is its negation (C72_enum_ne_partial), `IsV` tells the variant (C72_is_partial), the destructor destroys the data of the variant and nothing else (C72_destructor_partial), the copy constructor copies it (C72_copy_partial). Nothing is derived for fields that cannot be compared (C72_struct_only, C72_enum_only). Partial: the names are single words, variants have no conditions, the constructors of variants, the casts, copy assignment, bit flags and ostream operators are not read; no field has the name of the parameter; the data of a variant is not a mere tag. Refuted: a field with the parameter's name (C72_parameter_refuted), data that consists of the tag (C72_tag_refuted), `derive-eq` on an enum, whose data gets no operator (C72_annotation_refuted)."
  },
  {
   "property": "C73",
   "status": "proved",
   "theorems": [
    "Cbindgen.C73_spelling",
    "Cbindgen.C73_comments",
    "Cbindgen.C73_switch",
    "Cbindgen.C73_text",
    "Cbindgen.C73_list",
    "Cbindgen.C73_rule",
    "Cbindgen.C73_struct",
    "Cbindgen.C73_union",
    "Cbindgen.C73_arguments",
    "Cbindgen.C73_variants"
   ],
   "note": "The texts that mean a rename rule are exactly those of the documented scheme (C73_spelling). The comments of an item give its annotations line by line (C73_comments, with C21), and switches, texts, lists and rules in force are those of the last annotation of that name, or else the option (C73_switch, C73_text, C73_list, C73_rule; the last one also says when the program panics). The names of fields of structs and unions, of arguments and of variants follow (C73_struct, C73_union, C73_arguments, C73_variants). The case conversions of heck are parameters."
  },
  {
   "property": "C74",
   "status": "partial",
   "theorems": [
    "Cbindgen.C74_header_reads_back_partial",
    "Cbindgen.C74_guarded_partial",
    "Cbindgen.C74_function_linkage_partial",
    "Cbindgen.C74_static_linkage_partial",
    "Cbindgen.C74_item_space_partial",
    "Cbindgen.C74_only_partial",
    "Cbindgen.CxxReadCases.C74_case",
    "Cbindgen.CxxReadCases.C74_linkage_case",
    "Cbindgen.CxxReadCases.C74_only_case",
    "Cbindgen.CxxReadCases.C74_template_case"
   ],
   "note": "The reader of C59-C61 for C++: namespaces, `using namespace`, blocks `extern \"C\"`, `enum class`, aliases with `using`, constants that are variables, templates. The text of a whole header gives exactly the items of the bindings whose conditions hold, in order and in the namespaces (C74_header_reads_back_partial, C74_item_space_partial); a second inclusion gives nothing (C74_guarded_partial); functions and variables have the linkage of C (C74_function_linkage_partial, C74_static_linkage_partial), and there are no others (C74_only_partial). Missing: enums with parameters, defaults of the parameters of templates that the sources give, member functions that are derived (their meaning is in C72), constants in the body of a struct, values that are structs, immutable statics and constants of pointer types (C59), and names that the reader does not take as identifiers."
  },
  {
   "property": "C75",
   "status": "partial",
   "theorems": [
    "Cbindgen.C75_declared_partial",
    "Cbindgen.C75_only_partial",
    "Cbindgen.C75_static_partial",
    "Cbindgen.C75_static_only_partial",
    "Cbindgen.C75_case",
    "Cbindgen.C75_only_case"
   ],
   "note": "From the Rust sources to the declarations of a C++ header: a function or variable that the sources export is declared in the configured namespaces with the linkage of C and the C++ type of its Rust type by its syntax (Spec/SourceCxx.lean; generic types are instances of templates), where the `cfg`s around it hold (C75_declared_partial, C75_static_partial), and the header declares no others, if the users' blocks of code declare only types (C75_only_partial, C75_static_only_partial). Missing: what C74 leaves out, the annotation `ptrs-as-arrays`, `Option` around other types than pointers that are not null and integers that are not zero, `Self` for a generic type, inputs and guards as in C63; where two statics have one name, as in C65."
  },
  {
   "property": "C76",
   "status": "partial",
   "theorems": [
    "Cbindgen.C76_struct_partial",
    "Cbindgen.C76_union_partial",
    "Cbindgen.C76_alias_partial",
    "Cbindgen.C76_transparent_partial",
    "Cbindgen.C76_origin_partial",
    "Cbindgen.C76_case",
    "Cbindgen.C76_origin_case"
   ],
   "note": "From the Rust sources to the type definitions of a C++ header: a struct or union that is needed is defined in the configured namespaces with the C++ types of its fields by their syntax, an alias or transparent struct is an alias, where the `cfg`s around it hold; a generic definition is a template with the same parameters, whose names are kept in its members (C76_struct_partial, C76_union_partial, C76_alias_partial, C76_transparent_partial). Every definition of the bindings is from the sources or of the standard library, and C++ has no instances (C76_origin_partial). Enums are in C77. Missing: defaults of parameters, member functions that are derived, constants in bodies, what C74 and C75 leave out, annotations on aliases (they move to other definitions), names that users give to fields, definitions of one name that are not all under `cfg`s."
  },
  {
   "property": "C77",
   "status": "partial",
   "theorems": [
    "Cbindgen.C77_enum_partial",
    "Cbindgen.C77_data_partial",
    "Cbindgen.C77_raw_refuted",
    "Cbindgen.C77_case"
   ],
   "note": "From the Rust sources to the enums of a C++ header: an enum without data that is needed is an enum (scoped if the options or the annotation say so) in the configured namespaces, with the type that its representation gives, and each variant whose `cfg`s hold has the value that it has in Rust, on all platforms where an `int` has at least 32 bits (C77_enum_partial). An enum with data is a struct of the tag and the union of the data, or with a representation of Rust the union of structs that start with the tag; the enum of the tags and the structs of the data are defined in it with the members of the sources (C77_data_partial). False for a variant with a raw identifier: the struct of its data is named `r#type_Body` (C77_raw_refuted). Missing: enums with parameters, member functions that are derived and helper functions, values beyond those of C66, what C74 and C75 leave out, names that users give to fields."
  },
  {
   "property": "C78",
   "status": "partial",
   "theorems": [
    "Cbindgen.C78_kept_partial",
    "Cbindgen.C78_deprecated_refuted",
    "Cbindgen.C78_kept_case"
   ],
   "note": "The transfer of annotations from type aliases to the items they name changes nothing but annotations; items with a `cbindgen:` entry or `must_use` keep all of theirs, and the others are kept or have those of one alias of them, for all orders of the map (C78_kept_partial). False for `deprecated`: `AnnotationSet::is_empty` does not look at it, so `#[deprecated] union U` beside `#[must_use] type T = U` is not deprecated any more, from sources (C78_deprecated_refuted). The aliases themselves lose what they give; that is not part of the claim."
  },
  {
   "property": "C79",
   "status": "partial",
   "theorems": [
    "Cbindgen.C79_value_partial",
    "Cbindgen.C79_enum_partial",
    "Cbindgen.C79_data_partial",
    "Cbindgen.C79_private_refuted",
    "Cbindgen.C79_case"
   ],
   "note": "From the Rust sources to the constants of a C++ header: a constant of an integer type whose expression is of literals, limits, names of other such constants and operators is a constant object of the C++ integer type in the configured namespaces, or a macro if the options ask for it; the value that a C++ compiler computes from it, converted to the type of the object, is the value in Rust, where the `cfg`s around the constant hold (C79_value_partial). The enumerators of enums whose discriminants refer to such constants have their values in Rust (C79_enum_partial, C79_data_partial). False for a constant that refers to a private one: the object is initialised with a name that the header does not declare (C79_private_refuted). Missing: `bool` constants that are not literals, strings, characters, floating point, structs, constants of types, and values in expressions beyond those of C66 and C67."
  },
  {
   "property": "C80",
   "status": "partial",
   "theorems": [
    "Cbindgen.C80_cxx_partial",
    "Cbindgen.C80_c_partial",
    "Cbindgen.C80_case",
    "Cbindgen.C80_case_c",
    "Cbindgen.C80_case_only"
   ],
   "note": "From a run of the program to what a compiler finds in the file: if a run succeeds, the file of --output (or, without that option, what is printed) is read back as declarations that have the functions and statics of the sources (and no others), the structs, unions, aliases and transparent structs that they need, and the constants and enums with their values in Rust, and no types, macros, constants and enumerators but those of the sources (composing C82, C84 and C85), in C (C80_c_partial) and in C++ (C80_cxx_partial); sources and settings are those that C69 says are loaded. `CWritten` and `CxxWritten` in Props/Runs.lean list what is claimed. Missing: what is missing in C63-C67 and C75-C79, which this composes; aliases with annotations."
  },
  {
   "property": "C81",
   "status": "partial",
   "theorems": [
    "Cbindgen.C81_file_partial",
    "Cbindgen.C81_default",
    "Cbindgen.C81_unique",
    "Cbindgen.C81_run_partial",
    "Cbindgen.C81_invalid",
    "Cbindgen.ConfigCases.C81_case",
    "Cbindgen.ConfigCases.C81_case_unknown",
    "Cbindgen.ConfigCases.C81_case_run"
   ],
   "note": "For every TOML file without repeated keys: it is accepted exactly if all that is in it is part of one of the options, each with a value for that option, and then each option has the value of the file or else its default, and nothing else is in the configuration (C81_file_partial, C81_unique). Without a file all options have their defaults (C81_default). A run takes options from the command line, else from the file, else the default (C81_run_partial); if the file is not a configuration the run does not succeed and writes nothing (C81_invalid). Spec/ConfigFile.lean lists all options with their places, meanings and defaults. Missing: the syntax of TOML; arrays given for a section, which serde reads field by field, and dates given for a table of strings."
  },
  {
   "property": "C82",
   "status": "partial",
   "theorems": [
    "Cbindgen.C82_cxx_partial",
    "Cbindgen.C82_c_partial",
    "Cbindgen.C82_case",
    "Cbindgen.C82_case_c"
   ],
   "note": "For every header that is read back (HeaderGood, CxxHeaderGood) and made from sources by all stages: each name of a type that is declared anywhere in it is, in C++, the name of an item of the sources that is not excluded, not marked no-export, of a kind that is generated, and whose cfgs hold; in C also the name of an instance of such an item, of the tags of such an enum with data or of the struct of one of its variants; or of an opaque type of the standard library. In C++ all types are in the namespaces of the settings. Together with C80 this holds of the file that a run leaves (CWritten.onlyDefinitions, CxxWritten.onlyDefinitions). Missing: aliases with annotations (Stages.bare), which the stages before would change; the case `part` of CSource for structs of variants of generic enums does not say under which conditions they stand."
  },
  {
   "property": "C83",
   "status": "partial",
   "theorems": [
    "Cbindgen.C83_option",
    "Cbindgen.C83_calls",
    "Cbindgen.C83_define",
    "Cbindgen.C83_target_os",
    "Cbindgen.C83_sources",
    "Cbindgen.C83_program",
    "Cbindgen.C83_nested",
    "Cbindgen.C83_cxx_partial",
    "Cbindgen.C83_c_partial",
    "Cbindgen.C83_case_options",
    "Cbindgen.C83_case",
    "Cbindgen.C83_case_c",
    "Cbindgen.C83_case_program"
   ],
   "note": "For every configuration that a file describes and each of the 37 calls that set an option, the configuration after the call is that of the file with the change the call stands for (C83_option), so calls on a new builder have the effect of exactly one configuration file (C83_calls). with_define and with_target_os_define give the cfg its macro. A builder reads the files and the crate of its calls (C83_sources). A successful run of the program writes the bytes of the builder with its effective configuration and its file or crate (C83_program); inside of an expansion nothing is written (C83_nested). The bytes of a builder have the declarations of the sources, in the sense of C80 (C83_cxx_partial, C83_c_partial). Missing: Cython; the conditions of C80 on the settings and sources; which of several errors is reported."
  },
  {
   "property": "C84",
   "status": "partial",
   "theorems": [
    "Cbindgen.C84_c_partial",
    "Cbindgen.C84_cxx_macros_partial",
    "Cbindgen.C84_cxx_objects_partial",
    "Cbindgen.C84_case",
    "Cbindgen.C84_case_assoc",
    "Cbindgen.C84_case_cxx"
   ],
   "note": "For every header in C or C++ and every macro that it defines, for every valuation of the cfgs: the macro is the include guard, comes from one of the texts of the settings, or has the name of a public constant that the settings let through and whose cfgs hold, or of an associated constant or flag of bitflags! with the name of its type in front. The same for every constant object that a C++ header declares, which is in the namespaces of the settings. Missing: the values (C67, C79); cfgs that only the struct of bitflags! has; which renaming rule the name in front of an associated constant has; constants in the bodies of C++ structs; sources as in C63 and C75, names as in C61 and C74."
  },
  {
   "property": "C85",
   "status": "partial",
   "theorems": [
    "Cbindgen.C85_c_partial",
    "Cbindgen.C85_cxx_partial",
    "Cbindgen.C85_tags_partial",
    "Cbindgen.C85_case",
    "Cbindgen.C85_case_cxx",
    "Cbindgen.C85_case_sentinel"
   ],
   "note": "For every enum in a C or C++ header (in C++ also the enum of tags inside of a type): all of its enumerators come from one enum of the sources, or an instance of it, that the settings and its annotations let through and whose cfgs hold. Each is a variant whose own cfgs hold, a name of the annotation for trailing values, or the sentinel, with the exact name that the rules give. Missing: enums without any name; enums in the texts of the settings are excluded by hypothesis; headers with member functions in C++; aliases with annotations; sources as in C63 and names as in C61 and C74."
  }
 ]
}
