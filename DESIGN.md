# Design

Formal model of cbindgen (source in /repo, read as text) in Lean 4, under `/verif/lean`.

## Layout

* `Verif/Model/*.lean` – executable definitions mirroring the Rust code, each citing file and lines.
* `Verif/Spec/*.lean` – small, independent specifications (readers, evaluators, relations).
* `Verif/Lemmas/*.lean` – helper lemmas.
* `Verif/Props/*.lean` – the property theorems (named after the property ids) and non-vacuity examples.

## Plan per property

* **C01** Emitted C declarations read back as the Rust type. Model CDecl build/write at token level for the whole type language; spec = independent recursive-descent reader for C declarators plus the C meaning of a Rust type. Round trip by induction on the declarator list. Expected to fail for `*const` to a function pointer (const dropped): prove negation, partial theorem elsewhere.
* **C02** Function prototypes read back as the Rust signature. Same model with Func at the outermost declarator; reader reads parameter lists.
* **C03** Type names (abstract declarators) read back as the Rust type. Reader without identifier; injectivity is a corollary of the round trip.
* **C04** The #if guard of an item is true exactly when its Rust cfg is true. Model Cfg, ToCondition with an abstract defines table; spec = boolean evaluation of cfg and of conditions under an assignment. Structural induction. Unmapped leaves and `any()` are known deviations: negations.
* **C05** The condition text has the intended precedence. Model Condition::write as tokens; spec = precedence-climbing parser for `||`/`&&`/`!`/`defined()` and `or`/`and`/`not`. Round trip.
* **C06** An item's guard is the conjunction of every enclosing cfg. Model cfg_stack traversal as recursive fold over a module tree with explicit stack; spec = path conjunction.
* **C07** Generated identifiers are never C/C++ keywords. Model table and binary search over the concrete table, sortedness checked by kernel evaluation of the complete table; spec = list membership.
* **C08** Different generic instantiations get different C names. Mangler at character level (Model/LibConfig). Refuted: runs of underscores add up (pointers, closing brackets), underscores in names, `NonZero` integers, `remove_underscores`; one program in which the second instantiation is lost. Partial: injectivity for arguments built from words (Spec/Mangle), by reading back trees of words (Lemmas/Mangle).
* **C09** Item tables keep the first definition and never mix cfg'd and plain ones. Model ItemMap as association list; spec = first-occurrence based filter over the history. Induction on the insertion list.
* **C10** Types are defined before they are used. Model Dependencies::add as fuel-free DFS with visited set (well-founded on unvisited known paths); spec = reachability relation. Invariant proof.
* **C11** Exactly the reachable items are emitted, each once. Same model; closure and no-duplication invariants.
* **C12** Final item order: plain enums, then opaque types by name, then the rest in dependency order. Model comparison; spec = explicit filter/sort concatenation; stability through a generic stable-sort characterisation.
* **C13** Excluded items never appear, others are unaffected. Model retain/filter; spec on flattened lists.
* **C14** References and definitions are renamed consistently. Model ExportConfig::rename and the traversal; spec = naming function of the config. Invariants `before`/`after` (Lemmas/Refs) carried through every stage of Library::generate. Refuted for parameters in associated constants and for transparent enums.
* **C15** Generic instantiation is simultaneous substitution. Model specialize; spec = simultaneous substitution relation; induction on types.
* **C16** C headers contain no unresolved generic use. Monomorphisation with fuel; relations `Grows` and `Once` between states of the table of monomorphs (Lemmas/MonoTable, MonoOnce), `Instantiated` between libraries (Props/Monomorphs). Refuted for statics, for instances with the name of a generic definition, and for the number of instances of enums with data.
* **C17** Standard wrapper types are simplified without changing the ABI. Model simplification; spec = ABI function (size class, niche) from the Rust reference. Known deviation: Option of Cell/UnsafeCell/MaybeUninit of a pointer (niche hidden): negation + partial. Outcome: the layout is kept at every depth when no niche is hidden; three counterexamples.
* **C18** Primitive types keep width and signedness. Model name tables and C type names; spec = independent width/sign tables.
* **C19** repr attributes are parsed into the layout rustc would use, or rejected. Model Repr::load over parsed repr entries; spec = declarative validity predicate.
* **C20** Types with packed/align attributes are only emitted with a layout annotation. Model the decision; spec over alignment and config.
* **C21** Annotation comments are parsed as written. Model line parser over characters; spec = printer of annotations; round trip.
* **C22** Documentation is passed through exactly, annotations are not. Model filters and dedent over characters.
* **C23** Documentation cannot break out of its comment. Model comment writer per style; spec = small comment scanner. `*/` in doc text escapes: negation + partial. Outcome: proved with explicit conditions per style (none for Cython), each condition shown necessary by a counterexample; loaded lines have no line breaks.
* **C24** Writing bindings to a file is idempotent and touches the file only when needed. Model file system cell as Option bytes, transition function; induction over call sequences.
* **C25** Auto layout honours the line length and never emits partial output. Model SourceWriter state machine; invariant over operation sequences.
* **C26** Indentation is restored and applied to each line. Same state machine.
* **C27** Preprocessor conditionals, extern blocks and namespaces are balanced. Model directive structure emitted; spec = balanced-bracket checker. Outcome: proved on the whole text of a header with a character-level reader, for inputs whose names are plain words and whose user-given texts leave nothing open; counterexamples for user text that does not.
* **C28** Constant expressions keep their structure. Model Literal::load / write_literal at token level; spec = C expression reader. Known deviations: unary minus on cast/neg, `!` on bool. Outcome: a lexer and a precedence parser for C give back the tree for all expressions but negated negations and raw identifiers, which are counterexamples.
* **C29** Integer constants keep their value. Model integer literal formatting; spec = value denoted by C literal. Known deviation: i64::MIN.
* **C30** Primitive constants precede types, other constants follow them. Model uses_only_primitive_types traversal and the two passes; partition theorem. Outcome: partition proved; two counterexamples where a constant precedes the type it needs (enum path, array type) and one where it is not written.
* **C31** The dep file lists exactly the parsed files. Model escaping; spec = make-style word splitter. Partial: only space is escaped (negation for `#`, `$`...).
* **C32** The symbol file lists exactly the exported functions and statics. Model generation, spec = reader of the symbol file.
* **C33** Each crate of the dependency graph is parsed at most once and only if allowed. Model parse_crate DFS; invariants as in C11.
* **C34** Annotation transfer does not depend on hash order. Model transfer as fold over an arbitrary permutation; commutation lemma.
* **C35** struct/union/enum keywords match the definition. Model resolver insertion; spec = `definedAs`, how the C writer defines an item. Resolver lookup against it under uniform kinds; three refutations.
* **C36** Struct literal fields follow the declaration order. Model struct_field_names merge and the literal writer; spec = subsequence order. Outcome: order proved for the merged list and for variants with a common core, the cache is transparent; counterexamples for other variants, renamed fields and a missing first field.
* **C37** Type alias resolution terminates. Model chain following with fuel; negation for cycles; termination under acyclicity.
* **C38** Generic defaults and arity. Model call; spec = pointwise.
* **C39** Only exported extern functions and statics are bound. Model decision table over abstract attributes; spec outright.
* **C40** Enum variants keep their order, values and distinct names. Model rename of variants, injectivity transfer.

* **C41** Qualifiers on function pointers. Found while modelling C01: the code drops them. Negation by witness, partial theorem on the types where it does not matter.

* **C42** Options without a define. Same model as C04; monotonicity on conjunctions; witnesses for `any`/`not`.
* **C43–C45** Associated constants, ignored items, exported statics. Same model as C06/C39; found while modelling; witnesses plus partial theorems.
* **C46, C47** Several versions of, and several paths to, a crate. Same model as C33; witnesses plus partial theorems.

* **C48–C51** Array arguments, real keywords, distinct fields and enumerators. Model in Names.lean; found while modelling C07/C40; exact characterisations, witnesses and partial theorems.

* **C52** Two runs write the same header. Relation between the tables of two runs (fields of struct literals in any order, at any depth) carried through all stages; the annotation map is C34. Outcome: refuted by the order of definitions and by literals of transparent structs; equal text otherwise, and equal items up to order always.
* **C53** Types used in casts of constants are defined. Found while modelling dependencies; refuted by a two-item library; partial theorem for the other references.
* **C54** Functions, constants, statics are neither lost nor doubled. Composition of all stages of Library.lean; keys of items are invariants of each stage.
* **C55** Monomorphisation ends. Refuted for recursive generic enums and for arguments that grow; partial: measure = uses of a finite closed set without a replacement (Lemmas/MonoOnce, MonoFinite).

* **C56** No-op bindings write nothing. Model of the end of main over the file system cell; refuted by the symbol file, partial without it.
* **C57** Verification compares without side effects. Same model; the verdict is proved, the repeated run refutes the rest.
* **C58** The text of a declaration means the Rust type. A lexer for C (Spec/Lexer.lean) that is independent of the writer; triples over the writer's operations give the tokens of every text; the tokens are those of C01-C03. Outcome: proved. Simplifications of the lexer: operators are cut into single characters, continued lines are refused.
* **C59** The text of an item declares that item. A reader of C headers (Spec/Header.lean: tokens, preprocessor, declarations) that is independent of the writer; what each item should declare (Spec/HeaderItems.lean); for every writing function a triple that gives the tokens and the declarations read from them. Outcome: proved except for immutable statics of pointer types (refuted). Simplifications of the reader: macros are not expanded, a comparison with a version number is one variable, declarations without a declarator (a bare `;`) are accepted, values and widths stay token lists.
* **C60** The text of an enum declares its tags and data. Same reader and triples as C59. Outcome: proved for C, and for the part of C++ of C74.
* **C61** A whole C header declares exactly the bindings. Composition of the triples of C59 and C60 over the whole list of writer operations; conditions via C04. Outcome: proved for C.
* **C62** Declarations of a C header come in an order that C accepts. What a declaration needs and gives is read off the declarations that the reader of C61 finds (Spec/Scope.lean); C61 gives the declarations, C10 and C11 the order and closedness of the items, C14 and C35 the names and keywords of references. Outcome: refuted for types that refer to each other; proved otherwise, see the note in MANIFEST.json.
* **C63** A C header declares the functions of the sources with their types. Erasing what the parser takes gives the model of C06 (Lemmas/Front.lean), so its theorems carry over; loading and simplifying a type gives the C type of the relation (Lemmas/SourceTypes.lean); the library stage keeps functions apart from keywords and names (Lemmas/SourceRuns.lean); C61 reads the text. Outcome: proved for the fragment in the note in MANIFEST.json.
* **C64** A C header defines the structs, unions and aliases that functions of the sources need. The tables of the library hold the definitions of the sources (Lemmas/SourceTables.lean); the library stage keeps them up to keywords and names (Lemmas/SourceItems.lean); what a definition mentions is what its item uses (Lemmas/SourceUses.lean), so what is needed is reached (C10, C11); loading gives the members of the relation (Lemmas/SourceDefs.lean); C61 reads the text. Outcome: proved for the fragment in the note in MANIFEST.json.
* **C65** A C header declares the variables of the sources. The table of globals holds the statics of the sources, and the library stage only simplifies their types and looks up keywords (Lemmas/SourceStatics.lean); the type as in C63; C61 reads the text. Outcome: proved for the fragment in the note in MANIFEST.json, with two deviations of the code.
* **C66** A C header defines the enums of the sources with their values and data. Spec/SourceDefs.lean gives the discriminants of Rust, the values of enumerators by C11 6.7.2.2 and 6.5, and the members for the data. Loading keeps the discriminants and fields (Lemmas/SourceEnums.lean), the library stage renames and tags, C61 reads the text. Outcome: proved for the fragment in the note in MANIFEST.json, with two deviations of the code.
* **C67** A C header defines the constants of the sources as macros with their values. Spec/SourceDefs.lean gives the values of Rust expressions and of C tokens with macros. Lemmas/SourceConsts.lean shows that the table of constants holds those of the sources; the value of a constant is by induction on the uses of constants. Outcome: proved for the fragment in the note in MANIFEST.json, with four deviations of the code.
* **C68** The dependencies that are parsed are those of cargo. Model/Cargo.lean; Spec/Cargo.lean says what the strings of a lock file name, when a library uses a package, and what is reached. Equivalence with the traversal relation of C63, so that its theorems apply to cargo's graph. Outcome: proved under the conditions in the note in MANIFEST.json, with five deviations of the code.
* **C69** A run of the program. Model/Main.lean: options, configuration, loading, and the end of `main`, around the stages of the other properties; Spec/Main.lean says which option wins. Composition with C61, C63 and the files of C20. Outcome: proved under the conditions of C63; one option of the configuration is ignored by the program.
* **C70** Names are consistent in what is written for any sources. Lemmas/Loaded.lean: an invariant of all `load` functions and of the tables; composition with C14 and C16. Outcome: proved, statics aside.
* **C71** Uses of generic definitions become names of their instances. Spec/SourceGenerics.lean relates Rust types with generic uses to ones with names, and types with parameters to ones with arguments; Lemmas/SourceGenerics.lean, SourceInst.lean: loading both gives types that agree after the names and arguments are put in; Lemmas/SourceInstances.lean: the instances in the tables. Outcome: functions and structs proved; refuted for `Self` and for `Option` of a parameter.
* **C72** Derived C++ member functions do what their names say. Spec/CxxMembers.lean reads member functions of C++ (comparisons, `if`, `switch`, destructor calls, placement copies) from tokens and runs them; Lemmas/CxxMembers.lean, CxxEnums.lean: the writer's text reads as the intended function; Props/CxxOnly.lean: what cannot be compared is not derived. Outcome: operators, tests, destructor and copy constructor proved; refuted for a field named like the parameter, data with only a tag, and annotated enums.
* **C73** Annotations win over the configuration. Spec/Rules.lean: how rules are spelled, and which value of an option is in force; Props/Rules.lean proves it for the accessors of annotations and for the names of fields, arguments and variants. Outcome: proved.
* **C74** A whole C++ header declares exactly the bindings. The reader and the triples of C59-C61 are generalised to a dialect of C++ (Spec/Header.lean, Spec/HeaderAll.lean: `cxxHeaderOut`); Props/ReadCxx.lean reads namespaces and linkage off the declarations. Outcome: proved for C++ without enums with parameters, defaults of parameters in the sources, derived member functions, constants in bodies and struct literals.
* **C75** A C++ header declares the functions and variables of the sources. A separate relation for the types (Spec/SourceCxx.lean), with templates; the library stage for C++ only simplifies and renames (Lemmas/SourceCxx.lean); C74 reads the text. Outcome: proved for the fragment in the note in MANIFEST.json.
* **C76** A C++ header defines the structs, unions and aliases of the sources. As C64, with parameters (Spec/SourceCxxDefs.lean); types are renamed under the parameters of their definition (Lemmas/SourceCxxDefs.lean); C74 reads the text. Outcome: proved for the fragment in the note in MANIFEST.json.
* **C77** A C++ header has the enums of the sources. As C66, with the structs of the data inside (Spec/SourceCxxDefs.lean); variants are loaded, renamed and read in Lemmas/SourceCxxEnums.lean; C74 reads the text. Outcome: proved for the fragment in the note in MANIFEST.json; refuted for raw identifiers.
* **C78** An item keeps its own annotations when an alias has some. Relation between the tables before and after (Props/Kept.lean), kept by every round of the loop. Outcome: proved for entries and `must_use`; refuted for `deprecated`.
* **C79** The constants of a C++ header have the values of the sources. As C67, but a constant may be an object: its name stands for the initialiser converted to the type (`Standing` in Spec/SourceCxxDefs.lean), so that the values of C expressions of C66 can be used. Outcome: proved for the fragment in the note in MANIFEST.json; refuted for constants that refer to private ones.
* **C80** The file that a run writes declares the sources. Composes C69 (the run loads settings and sources, and writes or prints the header) with C63-C67 for C and C75-C79 for C++, and with C82, C84 and C85. Outcome: proved for the fragments of these properties.
* **C81** A configuration file means what it says. `loadConfig` follows the code that serde derives, section by section; the specification is a flat list of options (place, meaning of the value, field, default) and says nothing about sections; `reading_group` reduces reading a table to its keys and sections. Outcome: proved as an equivalence, for files in which sections are tables. Finding: `parse.clean` and `only_target_dependencies` in a file have no effect on a run of the program for a crate, since main.rs:104-112 passes the flags of the command line to cargo (see C69_target_refuted).
* **C82** A header defines no types but those of the sources. The names of an item are followed from loading (`container_fresh`) through copying, instances and renaming (`Fresh`, `Renamed`) to the declarations of the item (`defines_container`); the header has no other declarations of types (`defines_c`, `defines_cxx`). Outcome: proved, with aliases that have no annotations.
* **C83** The builder of the library does what its calls say. Model/Builder.lean: the calls, `generate` and `write`; Spec/Builder.lean: the change of the file for each call. A general lemma about changes at a path (`reading_change`) needs, for each call, only that it changes its own option (`Effects`). Composition with C69, C80 and C81. Outcome: proved, for what is written under the conditions of C80.
* **C84** A header defines no macros and constants but those of the sources. Spec/OnlyConsts.lean: the names that a constant of the sources can give. Lemmas/OnlyConsts.lean: every constant of the library and every constant attached to a type comes from the sources, through loading, specialisation and renaming. The macros and objects of a read header are those of its parts (C61, C74). Outcome: proved for C and C++; the names, not the values.
* **C85** An enum of a header has no enumerators but those that its Rust enum asks for. Spec/OnlyEnumerators.lean: what an enum asks for. Lemmas/OnlyEnumerators.lean: the variants of every enum of the bindings come from one enum of the sources, through loading, instances and renaming, with the exact names and cfgs. Props/OnlyEnumerators.lean: the enums of a read header are those of the bindings (C61, C74, C82). Outcome: proved for C and C++, with the limits of C82.

## Trusted base

* Lean 4 kernel; theorems depend on at most `propext`, `Classical.choice`, `Quot.sound`.
* The correspondence between the Rust text and the model definitions (by reading; no execution).
* The specifications in `Verif/Spec`.

### Modelled (paths under /repo/src/bindgen)

| Lean module | Rust code |
|---|---|
| Model/Prim | ir/ty.rs primitive types and their C names |
| Model/CDecl | cdecl.rs, at token level (layout `Auto`/`Vertical` only changes whitespace and is not modelled here) |
| Model/Text | character classes and text helpers used by cfg conditions and names |
| Model/Cfg | ir/cfg.rs: Cfg, Condition, ToCondition and the written condition text |
| Model/Parser | parser.rs: crate traversal, module traversal, cfg stack, item dispatch, over an abstract syntax tree of items |
| Model/Names | reserved.rs, rename.rs (case functions are parameters), field, argument and enumerator naming |
| Model/Ir, TyOps, ItemOps | ir/*.rs: types, generic paths, items and their operations: dependencies, specialize, call, rename, resolve, mangle paths, simplify |
| Model/ItemMap | ir/item.rs: ItemMap |
| Model/LibConfig | the parts of config.rs read by the library stage |
| Model/Library | library.rs, dependencies.rs, monomorph.rs, mangle.rs, declarationtyperesolver.rs |
| Model/Output | bindings.rs (files, symbols, aliases, field names), end of main.rs |
| Model/Writer | writer.rs, as an interpreter of lists of calls |
| Model/OutConfig | config.rs options read while writing, ir/cfg.rs conditions, documentation comments, cdecl.rs as writer calls |
| Model/Emit | clike.rs, cython.rs, mod.rs, ir/constant.rs: literals, constants, structs, unions, opaque items, aliases, statics, functions |
| Model/EmitEnum | ir/enumeration.rs:653-1532 and `write_enum` |
| Model/Emission | mod.rs `write_bindings`: headers, namespaces, extern blocks, order of the sections |
| Model/Syn | the parts of `syn` trees read by the load functions |
| Model/Load | the load functions of ir/*.rs: repr, annotations, documentation, types, generic parameters, literals, items |
| Model/LoadItems | parser.rs load_syn_* : loaded items go into the tables |
| Model/Front | parser.rs and builder.rs: from trees of files and crates to the tables of items; bitflags.rs |
| Model/Cargo | cargo/cargo.rs: dependencies, versions, target conditions and library files, from the contents of Cargo.lock and of the metadata |
| Model/Main | main.rs: command line options, their precedence over the configuration, loading of a file or crate, and the end of a run |
| Model/Builder | builder.rs: the calls of `Builder`, `generate`; bindings.rs: `write`; lib.rs: `generate`, `generate_with_config` |
| Model/ConfigFile | config.rs: `Deserialize` of `Config` and its parts, `Config::default`, `from_file`, `from_root_or_default`; mod.rs: `deserialize_enum_str`. Sections given as arrays and dates are left out |

The model of the backends was compared with the repository's expectation files: `struct_literal_order.cpp` is
a theorem (Props/HeaderCases); the C, C++ and Cython files of `derive_ostream` were compared by evaluation.

### Not modelled

`syn` parsing (the models start from an abstract syntax tree), `heck` case conversion (parameters), the file
system beyond file contents, running cargo and reading its output, `cargo expand`, logging and warnings, parsing of the command line and the syntax of TOML, the
parts of the writers and of the loader that no module above names. Hash maps are modelled as association
lists; where their iteration order is observable it is a parameter. Fuel stands for recursion that the Rust
code does not bound; theorems hold for every fuel for which the model answers.
