{"id": "C01", "title": "Emitted C declarations read back as the Rust type", "statement": "For every Rust type cbindgen accepts (pointers, references, arrays, function pointers, paths, primitives, nested to any depth) the declaration written for a field, static or typedef of that type, when read by the C declarator rules (inside-out, suffixes before prefixes, parentheses grouping), declares exactly the given identifier with exactly the C type that corresponds to the Rust type, const qualifiers included (qualifiers directly on a pointer to a function are property C41).", "quantifier": "all types of any nesting depth (no function pointer inside taking a bare `void` by value as its only parameter), all identifiers, all three output languages", "why_tests_cant": "Declarator syntax is recursive and inverted; a finite set of nestings cannot show that parentheses are placed correctly at every depth.", "anchors": ["src/bindgen/cdecl.rs: CDecl::build_type, CDecl::write, write_field"]}
{"id": "C02", "title": "Function prototypes read back as the Rust signature", "statement": "For every exported function, the prototype written in the header, read by the C declarator rules, declares a function with the exported name, the same number of parameters in the same order with the same names and C types, and the same return type; a function without parameters is written with `(void)` in C.", "quantifier": "all functions: any number of arguments, any argument and return types", "why_tests_cant": "Signatures are unbounded in arity and type nesting.", "anchors": ["src/bindgen/cdecl.rs: CDecl::build_func, CDecl::from_func_arg, CDecl::write, write_func"]}
{"id": "C03", "title": "Type names (abstract declarators) read back as the Rust type", "statement": "When a type is written without an identifier (casts in constants, C++ `using` aliases, template arguments), the text read as a C abstract declarator denotes exactly the C type corresponding to the Rust type; in particular two types with different C meanings are never written identically.", "quantifier": "all types of any nesting depth", "why_tests_cant": "Injectivity over an infinite set of types.", "anchors": ["src/bindgen/cdecl.rs: write_type, CDecl::write"]}
{"id": "C04", "title": "The #if guard of an item is true exactly when its Rust cfg is true", "statement": "For every `#[cfg(...)]` predicate whose leaves all have a `[defines]` entry, the preprocessor condition generated for it evaluates, in every compilation configuration where each define is set exactly when the corresponding Rust cfg option is set, to the same truth value as the Rust predicate.", "quantifier": "all cfg predicates (any/all/not nested to any depth), all defines tables, all truth assignments", "why_tests_cant": "Predicates and assignments are unbounded.", "anchors": ["src/bindgen/ir/cfg.rs: Cfg, ToCondition, DefineKey::load"]}
{"id": "C05", "title": "The condition text has the intended precedence", "statement": "The text of the generated `#if` (C/C++) or `IF` (Cython) line, parsed with the operator precedence of that language, is exactly the boolean expression that was generated.", "quantifier": "all conditions of any depth and width, both syntaxes", "why_tests_cant": "Precedence errors show up only for particular nestings.", "anchors": ["src/bindgen/ir/cfg.rs: Condition::write, ConditionWrite::write_before"]}
{"id": "C06", "title": "An item's guard is the conjunction of every enclosing cfg", "statement": "Every item that is read from the crate graph carries a condition equivalent to the conjunction of the cfg of its own attributes, of its extern block, and of every module and dependency edge on the path by which it was reached, and nothing else: cfgs of modules visited earlier never leak into later siblings.", "quantifier": "all module trees and dependency graphs of any shape, all sequences of siblings", "why_tests_cant": "Leaks depend on traversal history.", "anchors": ["src/bindgen/parser.rs: Parser::parse_crate, Parser::process_mod, Parse::load_syn_foreign_mod", "src/bindgen/ir/cfg.rs: Cfg::join, Cfg::append, Cfg::load"]}
{"id": "C07", "title": "Generated identifiers are never C/C++ keywords", "statement": "Every struct field name and function argument name in the header is not a reserved word of the C++ keyword table; names that are not reserved are left as they are, and escaping twice is the same as escaping once.", "quantifier": "all identifiers, all rename rules", "why_tests_cant": "Identifiers are unbounded; the lookup is a binary search whose correctness depends on the whole table being sorted.", "anchors": ["src/bindgen/reserved.rs: escape, RESERVED_KEYWORDS", "src/bindgen/ir/structure.rs: Struct::rename_for_config", "src/bindgen/ir/function.rs: Function::rename_for_config", "src/bindgen/ir/union.rs: Union::rename_for_config"]}
{"id": "C08", "title": "Different generic instantiations get different C names", "statement": "Two different instantiations of generic types used in the exported API are never given the same mangled C name.", "quantifier": "all generic paths with arguments nested to any depth", "why_tests_cant": "Injectivity over an infinite set.", "anchors": ["src/bindgen/mangle.rs: mangle_name, Mangler"]}
{"id": "C09", "title": "Item tables keep the first definition and never mix cfg'd and plain ones", "statement": "For every sequence of definitions with possibly repeated names, a name is bound either to exactly one definition without cfg (the first inserted) or to the list of all accepted cfg'd definitions in insertion order; a definition is reported as rejected exactly when it is not stored; names keep first-insertion order.", "quantifier": "all sequences of insertions", "why_tests_cant": "The behaviour depends on the whole insertion history.", "anchors": ["src/bindgen/ir/item.rs: ItemMap::try_insert, ItemMap::to_vec, ItemMap::extend_with"]}
{"id": "C10", "title": "Types are defined before they are used", "statement": "In the emitted item list, every item appears after all definitions of every known type it refers to, unless that type refers back to it (mutual recursion) or the item is an enum without data (these are moved to the front). Every known type that an emitted item, function, static or constant refers to is emitted.", "quantifier": "all libraries of items, all dependency graphs including cyclic ones, all sets of roots", "why_tests_cant": "Topological ordering is a property of all graphs.", "anchors": ["src/bindgen/dependencies.rs: Dependencies::add, Dependencies::sort", "src/bindgen/library.rs: Library::generate"]}
{"id": "C11", "title": "Exactly the reachable items are emitted, each once", "statement": "Collecting the items always ends; the emitted item list is a permutation of the definitions of exactly the known names reachable from exported functions, statics, constants and the include list, each name taken once.", "quantifier": "all libraries and all sets of roots", "why_tests_cant": "Reachability closure over arbitrary graphs.", "anchors": ["src/bindgen/dependencies.rs: Dependencies::add", "src/bindgen/ir/ty.rs: Type::add_dependencies_ignoring_generics", "src/bindgen/library.rs: Library::generate"]}
{"id": "C12", "title": "Final item order: plain enums, then opaque types by name, then the rest in dependency order", "statement": "Sorting the item list is a stable permutation that puts untagged enums first in discovery order, then opaque types sorted by name, then all remaining items in discovery order; the result does not depend on the sorting algorithm.", "quantifier": "all item lists", "why_tests_cant": "Depends on the comparison being a total preorder for every triple of items.", "anchors": ["src/bindgen/dependencies.rs: Dependencies::sort"]}
{"id": "C13", "title": "Excluded items never appear, others are unaffected", "statement": "No function, global, constant or type whose name is in the exclude list appears in the result of exclusion, and every other item is kept, in the same order.", "quantifier": "all libraries and exclude lists", "why_tests_cant": "Quantifies over all names and tables.", "anchors": ["src/bindgen/library.rs: Library::remove_excluded", "src/bindgen/ir/item.rs: ItemMap::filter"]}
{"id": "C14", "title": "References and definitions are renamed consistently", "statement": "After renaming, every reference to a type uses exactly the exported name that its definition carries, generic parameters are left alone, and renaming follows the config: the rename table first, then the prefix unless renaming overrides prefixing.", "quantifier": "all rename tables, prefixes, types and generic parameter lists", "why_tests_cant": "Consistency between two traversals for every nesting and config.", "anchors": ["src/bindgen/config.rs: ExportConfig::rename", "src/bindgen/ir/generic_path.rs: GenericPath::rename_for_config", "src/bindgen/ir/ty.rs: Type::rename_for_config"]}
{"id": "C15", "title": "Generic instantiation is simultaneous substitution", "statement": "Instantiating a generic definition replaces every occurrence of each type parameter, at any depth, by the corresponding argument, all at once (arguments are not substituted again), and leaves everything else untouched; when all parameters have type arguments no parameter remains.", "quantifier": "all types, all parameter/argument lists", "why_tests_cant": "Unbounded nesting and argument lists.", "anchors": ["src/bindgen/ir/ty.rs: Type::specialize, ConstExpr::specialize", "src/bindgen/ir/generic_path.rs: GenericArgument::specialize, GenericParams::call"]}
{"id": "C16", "title": "C headers contain no unresolved generic use", "statement": "For C output, after monomorphisation every generic type use that was discovered is replaced by the name of one concrete definition, the same instantiation always by the same name, and each instantiation is generated at most once.", "quantifier": "all libraries for which monomorphisation terminates", "why_tests_cant": "Depends on the whole discovery history.", "anchors": ["src/bindgen/monomorph.rs: Monomorphs", "src/bindgen/ir/ty.rs: Type::add_monomorphs, Type::mangle_paths", "src/bindgen/library.rs: Library::instantiate_monomorphs"]}
{"id": "C17", "title": "Standard wrapper types are simplified without changing the ABI", "statement": "Replacing Option, NonNull, NonZero, Box, Cell, UnsafeCell, ManuallyDrop, MaybeUninit and Pin by the simplified C type keeps the size class and the set of valid bit patterns that Rust guarantees for the original type.", "quantifier": "all types, nested to any depth, all output languages", "why_tests_cant": "Wrapper nesting is unbounded.", "anchors": ["src/bindgen/ir/ty.rs: Type::simplified_type, Type::simplify_standard_types, Type::make_nullable, Type::make_zeroable"]}
{"id": "C18", "title": "Primitive types keep width and signedness", "statement": "Every Rust primitive or C alias name that cbindgen recognises is mapped to a C type with the same width class and signedness, in both usize_is_size_t modes; names that are not primitives are not recognised as such.", "quantifier": "all names and all primitive kinds, both modes", "why_tests_cant": "The claim is about all strings, including those not in the table.", "anchors": ["src/bindgen/ir/ty.rs: PrimitiveType::maybe, PrimitiveType::to_repr_c, PrimitiveType::to_repr_rust"]}
{"id": "C19", "title": "repr attributes are parsed into the layout rustc would use, or rejected", "statement": "A list of repr attributes is accepted only if it names at most one integer type and at most one of packed/align, alignments are powers of two, and every entry is understood; an accepted list yields exactly the requested style, integer type and alignment.", "quantifier": "all lists of repr entries", "why_tests_cant": "Unbounded attribute lists and orders.", "anchors": ["src/bindgen/ir/repr.rs: Repr::load"]}
{"id": "C20", "title": "Types with packed/align attributes are only emitted with a layout annotation", "statement": "A struct or union with a packed or align representation is emitted with its fields only if the config provides the matching annotation; otherwise it is emitted as an opaque type.", "quantifier": "all alignments and all layout configs", "why_tests_cant": "All combinations of alignment value and configuration.", "anchors": ["src/bindgen/config.rs: LayoutConfig::ensure_safe_to_represent", "src/bindgen/ir/structure.rs: Struct::load", "src/bindgen/parser.rs: Parse::load_syn_struct"]}
{"id": "C21", "title": "Annotation comments are parsed as written", "statement": "A `cbindgen:` comment line with a name and an optional bool, list or atom value yields exactly that name and value; the last annotation for a name wins; a line with more than one `=` is rejected.", "quantifier": "all comment lines", "why_tests_cant": "All strings.", "anchors": ["src/bindgen/ir/annotation.rs: AnnotationSet::load, parse_list"]}
{"id": "C22", "title": "Documentation is passed through exactly, annotations are not", "statement": "The documentation attached to an item is exactly its doc lines in order without the `cbindgen:` lines; multi-line doc attributes are dedented by the common indentation of their non-blank lines so that relative indentation is preserved and no non-blank text is lost.", "quantifier": "all lists of doc attributes", "why_tests_cant": "All strings.", "anchors": ["src/bindgen/ir/documentation.rs: Documentation::load", "src/bindgen/utilities.rs: split_doc_attr, SynAttributeHelpers::get_comment_lines"]}
{"id": "C23", "title": "Documentation cannot break out of its comment", "statement": "Whatever the doc text is, the text emitted for it lies entirely inside a comment of the output language, so it can never change the meaning of the header.", "quantifier": "all doc lines, styles and languages", "why_tests_cant": "All strings.", "anchors": ["src/bindgen/language_backend/clike.rs: write_documentation", "src/bindgen/language_backend/cython.rs: write_documentation"]}
{"id": "C24", "title": "Writing bindings to a file is idempotent and touches the file only when needed", "statement": "write_to_file leaves the target with exactly the generated bytes, reports a change exactly when the previous content differed (or the file did not exist), performs no write when nothing changed, and repeated calls report no change; noop bindings (recursive invocation) never write.", "quantifier": "all previous file contents, all generated contents, all sequences of calls", "why_tests_cant": "History-dependent and over all contents.", "anchors": ["src/bindgen/bindings.rs: Bindings::write_to_file", "src/bindgen/builder.rs: Builder::generate", "src/main.rs: main"]}
{"id": "C25", "title": "Auto layout honours the line length and never emits partial output", "statement": "When the auto layout keeps a function on the horizontal form, every line that was produced is within the configured line length; when it does not fit, nothing of the attempt reaches the output.", "quantifier": "all writer states, all sequences of write operations", "why_tests_cant": "The line length accounting is history dependent.", "anchors": ["src/bindgen/writer.rs: SourceWriter::try_write, InnerWriter::write", "src/bindgen/language_backend/mod.rs: write_function"]}
{"id": "C26", "title": "Indentation is restored and applied to each line", "statement": "Each started line begins with exactly the current indentation; open/close brace and list helpers restore the indentation they found; the recorded line length equals the length of the current output line.", "quantifier": "all sequences of writer operations", "why_tests_cant": "State machine over arbitrary histories.", "anchors": ["src/bindgen/writer.rs: SourceWriter"]}
{"id": "C27", "title": "Preprocessor conditionals, extern blocks and namespaces are balanced", "statement": "In every generated header each #if/#ifdef/#ifndef has a matching #endif, namespaces are closed in the reverse order they were opened, and the extern \"C\" block is opened and closed under the same conditions.", "quantifier": "all bindings and all configs", "why_tests_cant": "All combinations of items with nested conditions and options.", "anchors": ["src/bindgen/language_backend/mod.rs: write_bindings", "src/bindgen/language_backend/clike.rs: open_close_namespaces, write_headers, write_footers, write_globals, write_functions", "src/bindgen/ir/cfg.rs: ConditionWrite"]}
{"id": "C28", "title": "Constant expressions keep their structure", "statement": "The C expression written for a constant or discriminant, parsed with C operator precedence, has the same operator tree as the Rust expression it was loaded from.", "quantifier": "all constant expressions of any depth", "why_tests_cant": "Precedence over unbounded trees.", "anchors": ["src/bindgen/ir/constant.rs: Literal::load", "src/bindgen/language_backend/clike.rs: write_literal"]}
{"id": "C29", "title": "Integer constants keep their value", "statement": "An integer literal in a constant is written as a C literal with the same value and with a suffix that makes its C type wide enough for it.", "quantifier": "all integer literals and suffixes", "why_tests_cant": "All integers.", "anchors": ["src/bindgen/ir/constant.rs: Literal::load"]}
{"id": "C30", "title": "Primitive constants precede types, other constants follow them", "statement": "Every constant is written exactly once: before the type definitions if it mentions only primitive types, after them otherwise; constants that need a type definition never precede it.", "quantifier": "all constants", "why_tests_cant": "All literal trees.", "anchors": ["src/bindgen/ir/constant.rs: Constant::uses_only_primitive_types, Literal::uses_only_primitive_types", "src/bindgen/language_backend/mod.rs: write_primitive_constants, write_non_primitive_constants"]}
{"id": "C31", "title": "The dep file lists exactly the parsed files", "statement": "The dep file names the output followed by every source file, each readable back as one path under make's escaping rules.", "quantifier": "all lists of source paths", "why_tests_cant": "All path strings.", "anchors": ["src/bindgen/bindings.rs: Bindings::generate_depfile"]}
{"id": "C32", "title": "The symbol file lists exactly the exported functions and statics", "statement": "The symbol file contains one entry for each exported global and function in order and nothing else.", "quantifier": "all bindings", "why_tests_cant": "All item lists.", "anchors": ["src/bindgen/bindings.rs: Bindings::dynamic_symbols_names, Bindings::generate_symfile"]}
{"id": "C33", "title": "Each crate of the dependency graph is parsed at most once and only if allowed", "statement": "Starting from the binding crate, each crate is parsed at most once even in cyclic graphs, every parsed dependency passes the include/exclude/expand filters, and every allowed crate reachable through allowed crates is parsed.", "quantifier": "all dependency graphs and filter configs", "why_tests_cant": "All graphs.", "anchors": ["src/bindgen/parser.rs: Parser::parse_crate, Parser::should_parse_dependency"]}
{"id": "C34", "title": "Annotation transfer does not depend on hash order", "statement": "Moving annotations from a typedef to the item it aliases gives the same library for every iteration order of the internal map.", "quantifier": "all libraries, all iteration orders", "why_tests_cant": "All permutations.", "anchors": ["src/bindgen/library.rs: Library::transfer_annotations"]}
{"id": "C35", "title": "struct/union/enum keywords match the definition", "statement": "With the tag style in C, each type reference is prefixed by `struct`, `union` or `enum` exactly as the item with that name is defined, and references to typedef names and generic parameters get no keyword.", "quantifier": "all libraries and types", "why_tests_cant": "All sequences of declarations.", "anchors": ["src/bindgen/declarationtyperesolver.rs", "src/bindgen/library.rs: Library::resolve_declaration_types"]}
{"id": "C36", "title": "Struct literal fields follow the declaration order", "statement": "In a struct constant the field initialisers are written in the order in which the struct declares its fields, each given field exactly once, also when the struct has several cfg variants.", "quantifier": "all structs, cfg variants and literals", "why_tests_cant": "All field lists.", "anchors": ["src/bindgen/bindings.rs: Bindings::struct_field_names", "src/bindgen/language_backend/clike.rs: write_literal"]}
{"id": "C37", "title": "Type alias resolution terminates", "statement": "Looking up the struct behind a chain of type aliases terminates and returns the item at the end of the chain.", "quantifier": "all alias graphs", "why_tests_cant": "All graphs, including cycles.", "anchors": ["src/bindgen/bindings.rs: Bindings::resolved_struct_path"]}
{"id": "C38", "title": "Generic defaults and arity", "statement": "A generic type used with fewer arguments than parameters takes the declared defaults for the missing trailing ones; any other arity mismatch is an error, never a silently wrong instantiation.", "quantifier": "all parameter and argument lists", "why_tests_cant": "Unbounded lists.", "anchors": ["src/bindgen/ir/generic_path.rs: GenericParams::call"]}
{"id": "C39", "title": "Only exported extern functions and statics are bound", "statement": "A function appears in the bindings exactly when it belongs to the binding crate or an extra_bindings crate, has a C-compatible ABI and has no_mangle or export_name, or is declared in an extern \"C\" block of such a crate.", "quantifier": "all functions, attribute sets and crates", "why_tests_cant": "All attribute combinations.", "anchors": ["src/bindgen/parser.rs: Parse::load_fn_declaration, Parse::load_syn_foreign_mod", "src/bindgen/utilities.rs: SynItemHelpers::exported_name, SynAbiHelpers"]}
{"id": "C40", "title": "Enum variants keep their order, values and distinct names", "statement": "A fieldless enum is written with all its variants in order, each with its explicit discriminant, named by the configured rename rule and prefix; distinct variants whose renamed names differ stay distinct.", "quantifier": "all enums and configs", "why_tests_cant": "All variant lists.", "anchors": ["src/bindgen/ir/enumeration.rs: Enum::load, Enum::rename_for_config", "src/bindgen/language_backend/clike.rs: write_enum_variant"]}
{"id": "C41", "title": "Qualifiers on function pointers are preserved", "statement": "The declaration written for a type keeps `const` on a function pointer that is behind a `*const` or `&`, and gives a function pointer the non-null attribute when the Rust type is a plain `extern fn` and the nullable attribute when it is an `Option<extern fn>`.", "quantifier": "all types of any nesting depth, all attribute configurations", "why_tests_cant": "The qualifier depends on the whole nesting around the function pointer and on the attribute configuration; examples cover a few shapes only.", "anchors": ["src/bindgen/cdecl.rs: CDecl::build_type (Type::FuncPtr)", "src/bindgen/ir/ty.rs: Type::FuncPtr"]}
{"id": "C42", "title": "Options without a define never change visibility in the wrong direction", "statement": "If some cfg options of an item have no [defines] entry, the emitted guard may be weaker than the cfg but the item is never hidden in a build where its cfg is true.", "quantifier": "all cfg expressions, all partial defines tables, all assignments of options", "why_tests_cant": "Depends on where in an arbitrarily nested expression the unmapped option is.", "anchors": ["src/bindgen/ir/cfg.rs: ToCondition for Cfg"]}
{"id": "C43", "title": "Every public associated constant is bound", "statement": "Every pub associated constant of an impl block whose type has a path is bound, regardless of the other items in the block.", "quantifier": "all impl blocks", "why_tests_cant": "Depends on the order of private and public constants.", "anchors": ["src/bindgen/parser.rs: Parse::load_syn_assoc_consts, load_syn_assoc_const"]}
{"id": "C44", "title": "Ignored items contribute nothing", "statement": "An item marked `/// cbindgen:ignore`, #[test] or #[cfg(test)] contributes nothing to the bindings, wherever it stands; deleting it from the source gives the same result.", "quantifier": "all items of all kinds, at all positions", "why_tests_cant": "All item kinds and positions.", "anchors": ["src/bindgen/utilities.rs: should_skip_parsing", "src/bindgen/parser.rs: load_syn_crate_mod, load_syn_foreign_mod"]}
{"id": "C45", "title": "Every exported static is bound", "statement": "A static of a wanted crate is bound exactly when it is exported through no_mangle or export_name, in plain or unsafe(...) form.", "quantifier": "all statics and attribute lists", "why_tests_cant": "All attribute combinations.", "anchors": ["src/bindgen/utilities.rs: SynItemHelpers::exported_name for ItemStatic", "src/bindgen/parser.rs: load_syn_static"]}
{"id": "C46", "title": "All versions of a dependency are parsed", "statement": "If several versions of a crate are in the dependency graph, the items of each of them are read.", "quantifier": "all dependency graphs", "why_tests_cant": "All graphs.", "anchors": ["src/bindgen/parser.rs: Parser::should_parse_dependency, parsed_crates"]}
{"id": "C47", "title": "A crate's items are visible whenever one of the paths to it is active", "statement": "The items of a dependency are guarded by the disjunction over the dependency paths that lead to it, so that they are visible whenever Cargo would link the crate.", "quantifier": "all dependency graphs, all assignments", "why_tests_cant": "All graphs and assignments.", "anchors": ["src/bindgen/parser.rs: Parser::parse_crate"]}
{"id": "C48", "title": "ptrs-as-arrays turns exactly the named pointer arguments into arrays", "statement": "A ptrs-as-arrays annotation with entries [name; length] makes the pointer arguments with that Rust name array parameters of that length and leaves all others alone; the generator never panics on it.", "quantifier": "all functions, annotations, rename rules", "why_tests_cant": "All annotation strings and argument names.", "anchors": ["src/bindgen/ir/function.rs: Function::rename_for_config", "src/bindgen/cdecl.rs: CDecl::from_func_arg"]}
{"id": "C49", "title": "No generated name is a keyword of C11 or C++20", "statement": "No field, argument or enumerator in the header is a keyword of the language, C11 or C++20.", "quantifier": "all identifiers, items and rename rules", "why_tests_cant": "All identifiers and rename rules.", "anchors": ["src/bindgen/reserved.rs: RESERVED_KEYWORDS", "src/bindgen/ir/union.rs: Union::rename_for_config", "src/bindgen/ir/enumeration.rs: Enum::rename_for_config"]}
{"id": "C50", "title": "Distinct fields stay distinct", "statement": "Two different fields of a struct get different names in the header.", "quantifier": "all structs", "why_tests_cant": "All identifiers.", "anchors": ["src/bindgen/reserved.rs: escape", "src/bindgen/ir/structure.rs: Struct::rename_for_config"]}
{"id": "C51", "title": "Added enumerators never collide with variants", "statement": "The sentinel and the configured trailing values never get the name of a variant of the enum.", "quantifier": "all enums", "why_tests_cant": "All variant names.", "anchors": ["src/bindgen/ir/enumeration.rs: Enum::load"]}
{"id": "C52", "title": "Two runs on the same input write the same header", "statement": "The text of the header depends on the input and the configuration only; the iteration order of the hash maps used inside (with a random seed in every run) has no effect on it.", "quantifier": "all item tables, configurations, and all orders in which hash maps may be iterated", "why_tests_cant": "A test sees one or a few of the orders; a header that differs once in many runs looks like a flaky test.", "anchors": ["src/bindgen/ir/constant.rs: Literal::visit, Literal::add_dependencies, Constant::write", "src/bindgen/library.rs: Library::generate, Library::transfer_annotations", "src/bindgen/dependencies.rs"]}
{"id": "C53", "title": "Types used in casts of constants are defined", "statement": "Every known type to which the value of an emitted constant is cast is emitted.", "quantifier": "all libraries", "why_tests_cant": "All literals.", "anchors": ["src/bindgen/ir/constant.rs: Literal::add_dependencies", "src/bindgen/library.rs: Library::generate"]}
{"id": "C54", "title": "Every function, constant and static is emitted exactly once, in input order or by name", "statement": "The functions, constants and statics handed to the writers are exactly those of the input whose names are not excluded (and whose kind is generated), with their conditions, documentation and arity, in input order or stably sorted by name as configured.", "quantifier": "all libraries and configurations, all language modes", "why_tests_cant": "All libraries through all stages of the pipeline.", "anchors": ["src/bindgen/library.rs: Library::generate"]}
{"id": "C55", "title": "Monomorphisation ends", "statement": "For C and Cython output, the instantiation of the generic types that are used ends for every library that rustc accepts.", "quantifier": "all libraries", "why_tests_cant": "Non-termination cannot be observed by a test that ends, and termination depends on the unbounded closure of generic uses.", "anchors": ["src/bindgen/ir/ty.rs: Type::add_monomorphs", "src/bindgen/monomorph.rs: Monomorphs", "src/bindgen/ir/enumeration.rs: Enum::instantiate_monomorph"]}
{"id": "C56", "title": "No-op bindings write nothing", "statement": "A run that is started recursively during macro expansion gets no-op bindings; such a run changes no file and prints nothing.", "quantifier": "all command lines, all previous file contents", "why_tests_cant": "A recursive run needs a build script and cargo expansion, and every combination of output options would have to be tried.", "anchors": ["src/main.rs: main", "src/bindgen/bindings.rs: Bindings::generate_symfile, Bindings::write_to_file", "src/bindgen/builder.rs: Builder::generate"]}
{"id": "C57", "title": "Verification compares without side effects", "statement": "With --verify the program fails exactly when the file on disk is missing or differs from the generated bindings, and the verdict of a second run with the same inputs is the same.", "quantifier": "all previous file contents, all generated contents", "why_tests_cant": "Tests check single outcomes; the claim is about all contents and about repeated runs.", "anchors": ["src/main.rs: main", "src/bindgen/bindings.rs: Bindings::write_to_file"]}
{"id": "C58", "title": "The text of a declaration means the Rust type", "statement": "If all names are identifiers, array lengths and configured attributes are single words and constant template arguments are numbers, then the characters written for a field, static, alias, type or function, cut into tokens by the rules of C and read by the rules for declarators, declare the given name with the C type of the Rust type. The layout of arguments, line length, indentation and line endings have no effect on the tokens.", "quantifier": "all types and function signatures, all layouts, line lengths, tab widths and line endings, all positions in the output", "why_tests_cant": "Expectation files compare some texts; a missing space between two words or a broken line that changes the meaning appears for particular nestings of types and line lengths only.", "anchors": ["src/bindgen/cdecl.rs: CDecl::write, write_func, write_field, write_type", "src/bindgen/writer.rs: SourceWriter", "src/bindgen/language_backend/mod.rs: write_function"]}
{"id": "C59", "title": "The text of an item declares that item", "statement": "In C, the characters written for a struct, union, opaque type, alias, function, static or constant, read by the rules of C with the macros of any configuration, declare exactly that item: the tag and name of the style, the attributes, the members or parameters in order with the C types of the Rust types, const if immutable, and nothing if the condition of the item does not hold.", "quantifier": "all items, all configurations for C, all sets of defined macros, all layouts and line lengths, all positions in the output", "why_tests_cant": "Expectation files are compared as text; whether the text means the item is checked by compiling a few headers, mostly with one set of macros.", "anchors": ["src/bindgen/language_backend/clike.rs: write_struct, write_union, write_opaque_item, write_type_def, write_static, write_literal", "src/bindgen/language_backend/mod.rs: write_function", "src/bindgen/ir/constant.rs: Constant::write"]}
{"id": "C60", "title": "The text of an enum declares its tags and data", "statement": "In C, the characters written for an enum, read by the rules of C with the macros of any configuration, declare an enumeration with the variants in order and their values, whose name has the integer type of the repr, and, if variants have data, one struct for each such variant and a struct of the tag and a union of the data (or a union whose members start with the tag).", "quantifier": "all enums, all configurations for C, all sets of defined macros", "why_tests_cant": "The combinations of repr, C++ compatibility, style, conditions on variants and version of C are many more than the expectation files, and each file is compiled with few of the macros.", "anchors": ["src/bindgen/language_backend/clike.rs: write_enum, write_enum_variant", "src/bindgen/ir/enumeration.rs: write_tag_enum, write_variant_defs, write_variant_fields"]}
{"id": "C61", "title": "A whole C header declares exactly the bindings", "statement": "In C, the characters of a whole header, read by the rules of C with any set of defined macros, declare exactly the exported items of the bindings whose cfg holds, each once and in the order of the bindings, define the macros of the constants, include the files of the configuration, and leave no brace, comment or conditional open; with an include guard a second inclusion declares nothing.", "quantifier": "all bindings, all configurations for C, all sets of defined macros", "why_tests_cant": "Every pair of neighbouring items and every option can interact (a comment, a brace or an #if left open swallows what follows); tests contain some sequences.", "anchors": ["src/bindgen/bindings.rs: Bindings::write", "src/bindgen/language_backend/mod.rs: write_bindings, write_items, write_globals, write_functions", "src/bindgen/language_backend/clike.rs: write_headers, write_footers, open_close_namespaces"]}
{"id": "C62", "title": "Declarations of a C header come in an order that C accepts", "statement": "In the text of a C header, read from top to bottom by the rules of C, every name of a type is declared before it is used, and every struct, union or enum is complete before an object of it is a member; what is needed and known is declared.", "quantifier": "all libraries, all configurations for C, all sets of defined macros", "why_tests_cant": "The order depends on the whole graph of references between items, on which of them are taken from functions first, and on conditions; tests contain some graphs.", "anchors": ["src/bindgen/dependencies.rs: Dependencies::add, sort", "src/bindgen/library.rs: Library::generate", "src/bindgen/ir/ty.rs: Type::add_dependencies", "src/bindgen/language_backend/mod.rs: write_bindings"]}
{"id": "C63", "title": "A C header declares the functions of the sources with their types", "statement": "For every function with C linkage in the source files that are read, the C header declares a function of that name whose C type is the one its Rust type stands for, visible exactly if the cfg predicates around the function hold; and it declares no functions that the sources do not have.", "quantifier": "all trees of source files and crates, all configurations for C, all cfg configurations", "why_tests_cant": "The claim spans parser, loader, library stage and writer; the space of nested modules, conditions, types and options has no finite cover.", "anchors": ["src/bindgen/builder.rs: Builder::generate", "src/bindgen/parser.rs: Parse::load_syn_crate_mod", "src/bindgen/ir/function.rs: Function::load", "src/bindgen/ir/ty.rs: Type::load, Type::simplify_standard_types", "src/bindgen/library.rs: Library::generate", "src/bindgen/bindings.rs: Bindings::write"]}
{"id": "C64", "title": "A C header defines the structs, unions and aliases that the sources define and functions need", "statement": "For every struct, union and type alias of the source files that a function of the sources needs, directly or through other definitions, the C header defines a type of that name with the C types of its fields in order, visible exactly if the cfg predicates around the definition hold; a field is there exactly if its own predicates hold. The bindings have no types of other origin than the sources, the standard library and instances of generic types.", "quantifier": "all trees of source files and crates, all configurations for C, all cfg configurations", "why_tests_cant": "The claim spans parser, loader, library stage and writer, and need is a closure over chains of definitions of any length.", "anchors": ["src/bindgen/builder.rs: Builder::generate", "src/bindgen/parser.rs: Parse::load_syn_struct, load_syn_union, load_syn_ty", "src/bindgen/ir/structure.rs: Struct::load, Struct::rename_for_config", "src/bindgen/ir/union.rs: Union::load", "src/bindgen/ir/typedef.rs: Typedef::load", "src/bindgen/ir/field.rs: Field::load", "src/bindgen/dependencies.rs: Dependencies::add", "src/bindgen/library.rs: Library::generate", "src/bindgen/bindings.rs: Bindings::write"]}
{"id": "C65", "title": "A C header declares the variables of the sources with their types", "statement": "For every static of the source files that has a linker symbol and is not excluded, the C header declares an extern object of that name with the C type of its Rust type, visible exactly if the cfg predicates around it hold, and it declares no other objects apart from functions.", "quantifier": "all trees of source files and crates, all configurations for C, all cfg configurations", "why_tests_cant": "The claim spans parser, loader, library stage and writer, for types of any depth.", "anchors": ["src/bindgen/builder.rs: Builder::generate", "src/bindgen/parser.rs: Parse::load_syn_static", "src/bindgen/ir/global.rs: Static::load, Static::simplify_standard_types, Static::resolve_declaration_types", "src/bindgen/library.rs: Library::generate", "src/bindgen/language_backend/clike.rs: write_static", "src/bindgen/bindings.rs: Bindings::write"]}
{"id": "C66", "title": "A C header defines the enums of the sources with their values and data", "statement": "For every enum of the source files that is needed and not excluded, the C header defines an enum whose enumerators are the variants whose cfg predicates hold, in order, with the values of their Rust discriminants; with an integer representation the tag has a type of that size; the data of the variants is laid out as a union of structs, or a tagged struct with a union, with the C types of the Rust fields.", "quantifier": "all trees of source files and crates, all configurations for C, all cfg configurations, all platforms with int of at least 32 bits", "why_tests_cant": "The claim spans parser, loader, library stage and writer, for any number of variants and all values.", "anchors": ["src/bindgen/builder.rs: Builder::generate", "src/bindgen/parser.rs: Parse::load_syn_enum", "src/bindgen/ir/enumeration.rs: EnumVariant::load, Enum::load, Enum::rename_for_config, Enum::write", "src/bindgen/ir/constant.rs: Literal::load", "src/bindgen/library.rs: Library::generate", "src/bindgen/language_backend/clike.rs: write_enum, write_enum_variant", "src/bindgen/bindings.rs: Bindings::write"]}
{"id": "C67", "title": "A C header defines the constants of the sources as macros with their values", "statement": "Every public integer or bool constant of the source files that is not excluded and whose cfg predicates hold is a macro in the C header whose replacement has, as a C expression, the value of the constant in Rust; the values of enumerators may refer to such macros.", "quantifier": "all trees of source files and crates, all configurations for C, all cfg configurations, all platforms with int of at least 32 bits, all depths of constants that use constants", "why_tests_cant": "The claim spans parser, loader, library stage and writer, for all expressions and all values.", "anchors": ["src/bindgen/builder.rs: Builder::generate", "src/bindgen/parser.rs: Parse::load_syn_const", "src/bindgen/ir/constant.rs: Literal::load, Literal::rename_for_config, Constant::load, Constant::rename_for_config, Constant::write", "src/bindgen/library.rs: Library::generate", "src/bindgen/language_backend/clike.rs: write_literal", "src/bindgen/bindings.rs: Bindings::write"]}
{"id": "C68", "title": "The dependencies that are parsed are those of cargo", "statement": "With parse_deps, the crates whose items are parsed are those that the lock file reaches from the crate, subject to the include and exclude lists; each is read from the file of its library, and its items are under the target conditions of the dependencies on the way.", "quantifier": "all lock files, all metadata, all orders of iteration of hash sets, all cfg configurations, all parse options", "why_tests_cant": "Hash order varies between runs, and targets, versions and sources combine in arbitrary graphs.", "anchors": ["src/bindgen/cargo/cargo.rs: Cargo::load, Cargo::dependencies, Cargo::find_crate_src, Cargo::find_pkg_to_generate_bindings_ref, parse_dep_string", "src/bindgen/cargo/cargo_metadata.rs", "src/bindgen/cargo/cargo_lock.rs", "src/bindgen/ir/cfg.rs: Cfg::load_metadata"]}
{"id": "C69", "title": "A run of the program", "statement": "The options on the command line override those of the configuration and nothing else; a run that fails with an error changes no file; after a run that succeeds, the output file declares the functions of the given file or crate with the types of the sources.", "quantifier": "all command lines, all configurations, all source trees and crates, all states of the files before the run", "why_tests_cant": "Options, configurations and sources combine without bound, and the effect is on the files as a whole.", "anchors": ["src/main.rs: apply_config_overrides, load_bindings, main", "src/bindgen/builder.rs: Builder::generate", "src/bindgen/bindings.rs: Bindings::write_to_file"]}
{"id": "C70", "title": "Names are consistent in what is written for any sources", "statement": "Whatever the sources and the configuration are, a definition that is written carries the name the configuration gives, each reference to it from types, functions, statics and constants is written with that same name, and no type or function written in C or Cython has generic arguments at a definition of the sources.", "quantifier": "all source trees, crates and dependencies, all configurations", "why_tests_cant": "Sources nest types and generic arguments without bound, and names are changed in several stages that have to agree.", "anchors": ["src/bindgen/builder.rs: Builder::generate", "src/bindgen/parser.rs: Parse", "src/bindgen/library.rs: Library::generate", "src/bindgen/ir: load functions"]}
{"id": "C71", "title": "Uses of generic definitions become names of their instances", "statement": "In a C header, a use of a generic definition with arguments is written as the name of the instance, which the definition's name and the arguments determine; the declarations are those of the program in which the instance is written out as a definition of its own, with the arguments in the place of the parameters.", "quantifier": "all source trees, all nestings of types and generic arguments, all configurations for C", "why_tests_cant": "Generic arguments nest without bound, and the table of instances depends on the whole program.", "anchors": ["src/bindgen/library.rs: Library::instantiate_monomorphs", "src/bindgen/monomorph.rs: Monomorphs", "src/bindgen/mangle.rs: mangle_path", "src/bindgen/ir/ty.rs: Type::mangle_paths, Type::specialize", "src/bindgen/ir/function.rs: Function::load", "src/bindgen/ir/structure.rs: Struct::specialize"]}
{"id": "C72", "title": "Derived C++ member functions do what their names say", "statement": "In a C++ header, the comparison operators that are asked for a struct compare the two objects field by field: `==` holds if all fields are equal, `!=` if some differ, and the orders (only for one ordered field) are those of the field; they are derived only if all fields can be compared. For an enum with data, `==` first compares the tags and then the data of the variant, `!=` is the negation, `IsV()` holds exactly for the variant, the destructor destroys exactly the data of the current variant and the copy constructor copies exactly that.", "quantifier": "all structs and enums with any number of fields and variants, all values of the two objects, all configurations for C++", "why_tests_cant": "The functions are written for any number of fields and variants, and must be right for all values of the objects; tests compare the text with stored text and do not run it.", "anchors": ["src/bindgen/language_backend/clike.rs: CLikeLanguageBackend::write_derived_cpp_ops", "src/bindgen/ir/enumeration.rs: Enum::write_derived_functions_data, Enum::can_derive_eq", "src/bindgen/ir/structure.rs: Struct::can_derive_eq", "src/bindgen/ir/ty.rs: Type::can_cmp_eq, Type::can_cmp_order"]}
{"id": "C73", "title": "Annotations win over the configuration", "statement": "For each item, an option that an annotation of the item gives is in force instead of the one of the configuration: switches, texts, lists of names and rename rules. The names of fields, arguments and variants that are written are those of `field-names`, or else what the rename rule in force makes of the name in the source; a text that means no rule makes the program panic.", "quantifier": "all comments, all names, all configurations and all case conversions", "why_tests_cant": "Annotations, options and names combine without bound; tests have a few of each.", "anchors": ["src/bindgen/rename.rs: RenameRule::from_str, RenameRule::apply", "src/bindgen/ir/annotation.rs: AnnotationSet::bool, AnnotationSet::atom, AnnotationSet::list, AnnotationSet::parse_atom", "src/bindgen/ir/structure.rs: Struct::rename_for_config", "src/bindgen/ir/union.rs: Union::rename_for_config", "src/bindgen/ir/enumeration.rs: Enum::rename_for_config", "src/bindgen/ir/function.rs: Function::rename_for_config"]}
{"id": "C74", "title": "A whole C++ header declares exactly the bindings, functions with C linkage", "statement": "In C++, the characters of a whole header, read by the rules of C++ with the macros of any configuration, declare exactly the items of the bindings whose conditions hold: types with their members, scoped and unscoped enumerations with their underlying types, constants as variables or macros, all in the configured namespaces; the functions and statics of Rust, and only these, have C linkage. A second inclusion declares nothing.", "quantifier": "all bindings, all configurations for C++, all sets of defined macros", "why_tests_cant": "Expectation files are compiled for a few configurations; that every text means its bindings, and that no function loses its C linkage, is about all of them.", "anchors": ["src/bindgen/bindings.rs: Bindings::write_with, Bindings::open_namespaces, Bindings::close_namespaces", "src/bindgen/language_backend/clike.rs: write_bindings, write_functions, write_globals, write_enum, write_struct", "src/bindgen/ir/constant.rs: Constant::write"]}
{"id": "C75", "title": "A C++ header declares the functions and variables of the sources with C linkage", "statement": "In C++, every function with C linkage and every exported static of the Rust sources that are read, at any depth and in any crate, is declared in the header, in the configured namespaces, with C linkage and with the C++ type that its Rust type has by its syntax (generic types as instances of templates, Box and Pin not looked through), exactly where the cfgs around it hold; the header declares no other functions and variables.", "quantifier": "all sources, all configurations for C++, all sets of defined macros", "why_tests_cant": "Expectation files show some signatures in some configurations; the agreement of the header with any source is about all of them.", "anchors": ["src/bindgen/parser.rs: Parse::load_syn_crate_mod", "src/bindgen/ir/function.rs: Function::load, Function::simplify_standard_types, Function::rename_for_config", "src/bindgen/ir/ty.rs: Type::load, Type::simplified_type, Type::rename_for_config", "src/bindgen/library.rs: Library::generate", "src/bindgen/language_backend/clike.rs: write_functions, write_globals"]}
{"id": "C76", "title": "A C++ header defines the structs, unions and aliases of the sources, generic ones as templates", "statement": "In C++, every struct, union and type alias of the Rust sources that an exported function, variable or another such definition needs is defined in the header, in the configured namespaces, with a member for each field whose cfgs hold and with the C++ type that the Rust type has by its syntax, exactly where the cfgs around it hold. A generic definition is a template with the same type and constant parameters in the same order, and the parameters are not renamed in its members. Every type in the bindings is from the sources or is an opaque type of the standard library.", "quantifier": "all sources, all configurations for C++, all sets of defined macros", "why_tests_cant": "Expectation files show some generic structs; that each parameter and field arrives in the template for any source is about all of them.", "anchors": ["src/bindgen/ir/generic_path.rs: GenericParams::load, GenericParams::write_internal", "src/bindgen/ir/structure.rs: Struct::load, Struct::simplify_standard_types, Struct::rename_for_config", "src/bindgen/ir/union.rs: Union::load, Union::rename_for_config", "src/bindgen/ir/typedef.rs: Typedef::load, Typedef::rename_for_config", "src/bindgen/library.rs: Library::generate", "src/bindgen/language_backend/clike.rs: write_struct, write_union, write_type_def"]}
{"id": "C77", "title": "A C++ header has the enums of the sources with the same values and data", "statement": "In C++, every enum of the Rust sources that an exported function, variable or definition needs is in the header, in the configured namespaces and exactly where the cfgs around it hold. Its enumerators are the variants whose cfgs hold, with the values that Rust gives them, and it has the integer type of its representation. If variants have data, the enum is a struct of a tag and a union (for repr(C)) or a union of structs that all start with the tag (for repr(u8) and the like), with the C++ types that the Rust types of the fields have by their syntax.", "quantifier": "all sources, all configurations for C++, all sets of defined macros, all platforms where an int has at least 32 bits", "why_tests_cant": "Expectation files show some enums; that tag, bodies and values agree for any enum is about all of them.", "anchors": ["src/bindgen/ir/enumeration.rs: Enum::load, EnumVariant::load, Enum::rename_for_config, Enum::write_tag_enum, Enum::write_variant_defs, Enum::write_union_fields", "src/bindgen/library.rs: Library::generate", "src/bindgen/language_backend/clike.rs: write_enum, write_enum_variant"]}
{"id": "C78", "title": "An item keeps its own annotations when an alias has some", "statement": "When the annotations of type aliases are moved to the items that they name, an enum, struct, union or opaque item that has annotations of its own keeps them; nothing but annotations of items changes, and what an item gets are the annotations of one alias of it.", "quantifier": "all libraries, all iteration orders of the map", "why_tests_cant": "Tests move annotations to items without any; which parts of an item's annotations count as annotations is only seen with all combinations.", "anchors": ["src/bindgen/library.rs: Library::transfer_annotations", "src/bindgen/ir/typedef.rs: Typedef::transfer_annotations", "src/bindgen/ir/annotation.rs: AnnotationSet::is_empty"]}
{"id": "C79", "title": "The constants of a C++ header have the values of the sources", "statement": "In C++, every public constant of the Rust sources is a macro or a constant object in the configured namespaces, exactly where the cfgs around it hold, and a C++ compiler gives it the value that it has in Rust. Discriminants of enums may refer to such constants and have the same values in C++.", "quantifier": "all sources, all configurations for C++, all sets of defined macros, all platforms where an int has at least 32 bits", "why_tests_cant": "Expectation files compare texts; that the text of any expression, converted to the type of the object, has the value of the expression in Rust is about all expressions and platforms.", "anchors": ["src/bindgen/ir/constant.rs: Literal::load, Constant::load, Constant::write", "src/bindgen/library.rs: Library::generate", "src/bindgen/writer.rs, src/bindgen/language_backend/mod.rs: write_bindings"]}
{"id": "C80", "title": "The file that a run writes declares the sources", "statement": "After a run of the program that succeeds, the file of --output, or without that option what is printed, declares the functions and statics of the Rust sources with their types and no others, defines the structs, unions and aliases that they use with the types of their fields, defines no types, constants and enumerators that are not of the sources, and gives the constants and enumerators of the sources their values in Rust.", "quantifier": "all worlds (files, crates, configurations, command lines), all sets of defined macros, C and C++, all platforms where an int has at least 32 bits", "why_tests_cant": "Tests run the program on some crates and compare texts with stored files; this is about the declarations that a compiler reads from the file, for all crates and configurations.", "anchors": ["src/main.rs: main, load_bindings", "src/bindgen/builder.rs: Builder::generate", "src/bindgen/bindings.rs: Bindings::write_to_file", "src/bindgen/library.rs: Library::generate", "src/bindgen/language_backend/mod.rs: write_bindings"]}
{"id": "C81", "title": "A configuration file means what it says", "statement": "A cbindgen.toml file is accepted exactly if everything in it is a documented option with a value of its kind; then every option has the value that the file gives it, and every option that is not in the file has its default. Options on the command line win over the file. A run with a file that is not accepted does not succeed and writes nothing.", "quantifier": "all TOML values without repeated keys, all worlds, all command lines", "why_tests_cant": "There are more than a hundred options, in any combination, and infinitely many files with mistakes; tests use a few configurations and none that must be rejected.", "anchors": ["src/bindgen/config.rs: Config, Config::from_file, Config::from_root_or_default, Config::default", "src/bindgen/config.rs: retrocomp_parse_expand_config_deserialize", "src/bindgen/mod.rs: deserialize_enum_str", "src/bindgen/rename.rs: RenameRule::from_str", "src/main.rs: apply_config_overrides"]}
{"id": "C82", "title": "A header defines no types but those of the sources", "statement": "Every type that a header declares has the name of an item of the Rust sources that the configuration and its annotations let through and whose cfg conditions hold, or belongs to such an item (instances of generics, tags and variants of enums in C), or is one of the types of the standard library that are left opaque. In C++ it is inside the configured namespaces.", "quantifier": "all sources, all configurations, all sets of defined macros, C and C++", "why_tests_cant": "A stray definition shows only for particular combinations of exclusions, conditions and generics; stored outputs cannot show that no other input yields one.", "anchors": ["src/bindgen/library.rs: Library::generate, remove_excluded, rename_items, instantiate_monomorphs", "src/bindgen/parser.rs: Parse::add_std_types", "src/bindgen/ir/enumeration.rs: Enum::rename_for_config", "src/bindgen/bindings.rs: Bindings::write", "src/bindgen/language_backend/mod.rs: write_bindings"]}
{"id": "C83", "title": "The builder of the library does what its calls say", "statement": "Each call of Builder that sets an option has the effect of the matching change in cbindgen.toml, and no other. A builder reads exactly the files and the crate of its calls, and the header it generates has the declarations of those sources. The program writes what a builder with its configuration and its file or crate generates.", "quantifier": "all sequences of calls, all configurations, all sources, C and C++", "why_tests_cant": "Tests of the library call a few of the methods once; a method that sets the option of another, resets an option or depends on the order of calls shows only for particular sequences.", "anchors": ["src/bindgen/builder.rs:16-417", "src/lib.rs:26-44", "src/main.rs:82-135", "src/bindgen/bindings.rs:271-295"]}
{"id": "C84", "title": "A header defines no macros and constants but those of the sources", "statement": "A macro that is defined after a header was included is its include guard, is defined by a text of the settings, or has the name of a public or associated constant of the sources that the settings do not exclude and whose conditions hold. So does every constant object that a C++ header declares.", "quantifier": "all sources, all configurations for C and C++, all valuations of the cfgs", "why_tests_cant": "A macro too many replaces a name everywhere after the header; tests of headers compare what is expected for a few sources and cannot show that private, excluded or disabled constants never come through.", "anchors": ["src/bindgen/parser.rs:713-860", "src/bindgen/ir/constant.rs:493-760", "src/bindgen/library.rs:50-140", "src/bindgen/bindings.rs:205-300"]}
{"id": "C85", "title": "An enum of a header has no enumerators but those that its Rust enum asks for", "statement": "Every enumerator of an enum that a header defines is a variant of one enum of the sources, an entry of its annotation for trailing values, or its sentinel. The enum and the variant are not excluded by settings, annotations or conditions, and the name is the one that the prefix and the rules for variants give.", "quantifier": "all sources, all configurations for C and C++, all valuations of the cfgs", "why_tests_cant": "An enumerator of another enum or of a disabled variant shifts all values after it; tests compare some headers and cannot show that no combination of cfgs, prefixes, rules and instances lets one through.", "anchors": ["src/bindgen/ir/enumeration.rs:98-235", "src/bindgen/ir/enumeration.rs:355-429", "src/bindgen/ir/enumeration.rs:511-605", "src/bindgen/ir/enumeration.rs:612-640"]}
