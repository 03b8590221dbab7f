{
 "claims": [
  {
   "property": "C01",
   "status": "partial",
   "theorems": [
    "TP.Props.C01_cursor_exact",
    "TP.Props.C01_cursor_partial",
    "TP.Props.C01_tokens_partial",
    "TP.Props.C01_refuted"
   ],
   "note": "Proved for texts that do not begin with a line feed; refuted for texts that do (C01_refuted). C01_cursor_exact gives the exact reported position for every text."
  },
  {
   "property": "C02",
   "status": "proved",
   "theorems": [
    "TP.Props.C02_tiling",
    "TP.Props.C02_prefix"
   ],
   "note": ""
  },
  {
   "property": "C03",
   "status": "proved",
   "theorems": [
    "TP.Props.C03_progress",
    "TP.Props.C03_returns_iff",
    "TP.Props.C03_diverges",
    "TP.Props.C03_bound",
    "TP.Props.C03_complete"
   ],
   "note": "Includes the exact characterisation of the non-returning case (string literal never closed)."
  },
  {
   "property": "C04",
   "status": "proved",
   "theorems": [
    "TP.Props.C04_absorbing",
    "TP.Props.C04_only_at_end",
    "TP.Props.C04_all_consumed",
    "TP.Props.C04_at_end"
   ],
   "note": ""
  },
  {
   "property": "C05",
   "status": "proved",
   "theorems": [
    "TP.Props.C05_filter",
    "TP.Props.C05_filter_conv",
    "TP.Props.C05_nil"
   ],
   "note": ""
  },
  {
   "property": "C06",
   "status": "partial",
   "theorems": [
    "TP.Props.C06_same_rest",
    "TP.Props.C06_replay",
    "TP.Props.C06_replay_exact_partial",
    "TP.Props.C06_refuted"
   ],
   "note": "Kinds, texts and indices are replayed always; lines/columns only when the saved point is not on a line feed (refuted otherwise)."
  },
  {
   "property": "C07",
   "status": "proved",
   "theorems": [
    "TP.Props.C07_word",
    "TP.Props.C07_word_conv",
    "TP.Props.C07_case"
   ],
   "note": ""
  },
  {
   "property": "C08",
   "status": "proved",
   "theorems": [
    "TP.Props.C08_order_independent",
    "TP.Props.C08_processor",
    "TP.Props.C08_two_runes_win",
    "TP.Props.C08_symbols_exact"
   ],
   "note": ""
  },
  {
   "property": "C09",
   "status": "partial",
   "theorems": [
    "TP.Props.C09_shape",
    "TP.Props.C09_range",
    "TP.Props.C09_minus_partial",
    "TP.Props.C09_refuted"
   ],
   "note": "Shape, maximality and a..b proved. The sentence about binary minus is refuted (a-1 is a, -1); C09_minus_partial covers a minus not directly followed by a digit."
  },
  {
   "property": "C10",
   "status": "partial",
   "theorems": [
    "TP.Props.C10_brace_partial",
    "TP.Props.C10_brace_open_partial",
    "TP.Props.C10_slash_partial",
    "TP.Props.C10_paren_partial",
    "TP.Props.C10_paren_open_partial",
    "TP.Props.C10_refuted"
   ],
   "note": "Proved for bodies without NUL, and for (* *) bodies not starting with ')'; refuted for the latter."
  },
  {
   "property": "C11",
   "status": "partial",
   "theorems": [
    "TP.Props.C11_exact",
    "TP.Props.C11_conv",
    "TP.Props.C11_plain_partial",
    "TP.Props.C11_refuted_doubled",
    "TP.Props.C11_refuted_backslash"
   ],
   "note": "Exact extent of string tokens proved both ways; the Object Pascal rule is refuted for doubled quotes and for backslashes."
  },
  {
   "property": "C12",
   "status": "proved",
   "theorems": [
    "TP.Props.C12_nil_iff",
    "TP.Props.C12_stuck_forever"
   ],
   "note": ""
  },
  {
   "property": "C13",
   "status": "proved",
   "theorems": [
    "TP.Props.C13_keyword",
    "TP.Props.C13_keywords_upper",
    "TP.Props.C13_unknown_refused",
    "TP.Props.C13_case"
   ],
   "note": ""
  },
  {
   "property": "C14",
   "status": "proved",
   "theorems": [
    "TP.Props.C14_roundtrip"
   ],
   "note": ""
  },
  {
   "property": "C15",
   "status": "proved",
   "theorems": [
    "TP.Props.C15_history",
    "TP.Props.C15_new",
    "TP.Props.C15_equal",
    "TP.Props.C15_slice"
   ],
   "note": ""
  },
  {
   "property": "C16",
   "status": "proved",
   "theorems": [
    "TP.Props.C16_reverse",
    "TP.Props.C16_reverse_involution",
    "TP.Props.C16_equal",
    "TP.Props.C16_exclude",
    "TP.Props.C16_map"
   ],
   "note": ""
  },
  {
   "property": "C17",
   "status": "proved",
   "theorems": [
    "TP.Props.C17_nested",
    "TP.Props.C17_scope"
   ],
   "note": ""
  },
  {
   "property": "C18",
   "status": "proved",
   "theorems": [
    "TP.Props.C18_get",
    "TP.Props.C18_duplicate",
    "TP.Props.C18_others",
    "TP.Props.C18_never_replaced"
   ],
   "note": "Casing means casing of ASCII letters; Unicode case mapping is a parameter."
  },
  {
   "property": "C19",
   "status": "partial",
   "theorems": [
    "TP.Props.C19_partial",
    "TP.Props.C19_prefix_partial",
    "TP.Props.C19_refuted"
   ],
   "note": "Refuted for declarations of several names (the names in front of the duplicate stay declared); proved for one name."
  },
  {
   "property": "C20",
   "status": "proved",
   "theorems": [
    "TP.Props.C20_innermost",
    "TP.Props.C20_not_found",
    "TP.Props.C20_chained",
    "TP.Props.C20_composite",
    "TP.Props.C20_alloc",
    "TP.Props.C20_set_frame",
    "TP.Props.C20_outer_kept"
   ],
   "note": ""
  },
  {
   "property": "C21",
   "status": "proved",
   "theorems": [
    "TP.Props.C21_builtin",
    "TP.Props.C21_rejects"
   ],
   "note": ""
  },
  {
   "property": "C22",
   "status": "proved",
   "theorems": [
    "TP.Props.C22_scope",
    "TP.Props.C22_same_map",
    "TP.Props.C22_inner"
   ],
   "note": ""
  },
  {
   "property": "C23",
   "status": "partial",
   "theorems": [
    "TP.Props.C23_routine_partial",
    "TP.Props.C23_heading_partial",
    "TP.Props.C23_refuted_text",
    "TP.Props.C23_partial",
    "TP.Props.C23_refuted"
   ],
   "note": "Proved for bodies without an abandoned attempt inside the scope; refuted otherwise: a rollback inside the scope leaves the parser in the wrong context. For the parser of routines itself: every table and context that existed before is unchanged after a routine with body or a heading (C23_routine_partial, C23_heading_partial); missing there is that the parser returns to the outer context, which C23_refuted_text shows to be false for a program text."
  },
  {
   "property": "C24",
   "status": "proved",
   "theorems": [
    "TP.Props.C24_precedence",
    "TP.Props.C24_last_wins"
   ],
   "note": ""
  },
  {
   "property": "C25",
   "status": "partial",
   "theorems": [
    "TP.Props.C25_private",
    "TP.Props.C25_visible_partial",
    "TP.Props.C25_interface_visible",
    "TP.Props.C25_interface_exact",
    "TP.Props.C25_refuted"
   ],
   "note": "Refuted: after a rollback in the interface part the parser holds a clone of the context of the unit, and a declaration of the implementation is then not visible through the unit name. C25_visible_partial assumes that the parser still has the context of the unit parser and that there is no rollback before the declaration. C25_private and C25_interface_visible assume, if the parser has a clone, that its table is not searched by the map in question; C25_interface_exact assumes distinct names."
  },
  {
   "property": "C26",
   "status": "partial",
   "theorems": [
    "TP.Props.C26_sort_partial",
    "TP.Props.kahnLib_correct",
    "TP.Props.C26_refuted"
   ],
   "note": "For units with distinct names, given the contract of the external graph library (an implementation meeting it is included). With two units of one name a unit is lost (refuted)."
  },
  {
   "property": "C27",
   "status": "partial",
   "theorems": [
    "TP.Props.C27_phases_partial",
    "TP.Props.C27_refuted"
   ],
   "note": "For arbitrary effects of the steps, for units with distinct names; refuted for two units of one name."
  },
  {
   "property": "C28",
   "status": "proved",
   "theorems": [
    "TP.Props.C28_effective",
    "TP.Props.C28_empty",
    "TP.Props.C28_token"
   ],
   "note": ""
  },
  {
   "property": "C29",
   "status": "proved",
   "theorems": [
    "TP.Props.C29_preorder",
    "TP.Props.C29_stop",
    "TP.Props.C29_nil_pointer",
    "TP.Props.before_irrefl"
   ],
   "note": "C29_nil_pointer describes what happens outside of the claim, with an interface holding a nil pointer."
  },
  {
   "property": "C30",
   "status": "partial",
   "theorems": [
    "TP.Props.C30_partial",
    "TP.Props.C30_case",
    "TP.Props.C30_no_private",
    "TP.Props.C30_refuted",
    "TP.Props.C30_refuted_cycle"
   ],
   "note": "Refuted for parents given by an alias and for cyclic ancestors; proved when parents are named directly."
  },
  {
   "property": "C31",
   "status": "proved",
   "theorems": [
    "TP.Props.C31_nearest",
    "TP.Props.C31_inherits",
    "TP.Props.C31_overridden_partial"
   ],
   "note": "The statement is C31_nearest. C31_overridden_partial goes beyond it (which declaration is overridden) and does not cover parents given by an alias."
  },
  {
   "property": "C32",
   "status": "partial",
   "theorems": [
    "TP.Props.C32_partial",
    "TP.Props.C32_alias",
    "TP.Props.C32_refuted_set",
    "TP.Props.C32_refuted_file",
    "TP.Props.C32_refuted_cycle"
   ],
   "note": "Set and file types are classified as ordinal when their element type is; alias cycles do not terminate."
  },
  {
   "property": "C33",
   "status": "proved",
   "theorems": [
    "TP.Props.C33_lossless",
    "TP.Props.C33_count",
    "TP.Props.C33_progress",
    "TP.Props.C33_names",
    "TP.Props.C33_world"
   ],
   "note": "C33_lossless is for every context. C33_names and C33_world (what the names refer to) go beyond the statement and assume that clones of the context answer like it, which holds for program and unit contexts. The path inside locations and the text of errors are not modelled."
  },
  {
   "property": "C34",
   "status": "partial",
   "theorems": [
    "TP.Props.C34_complete_partial",
    "TP.Props.C34_unambiguous_partial",
    "TP.Props.C34_iff_partial",
    "TP.Props.C34_refuted"
   ],
   "note": "Refuted for StackableContext (C34_refuted), which a caller could pass: a rollback forgets the enclosing context. Proved for contexts whose clones answer like the original (program and unit contexts, the only ones the parser makes). The grammar is that of the tree types (comments of ast/expression.go without AS as operator)."
  },
  {
   "property": "C35",
   "status": "partial",
   "theorems": [
    "TP.Props.C35_terminates",
    "TP.Props.C35_returns",
    "TP.Props.C35_partial",
    "TP.Props.C35_world_partial",
    "TP.Props.C35_refuted",
    "TP.Props.C35_nil_panics"
   ],
   "note": "Termination proved with an explicit bound, for every context; absence of panics for contexts whose clones answer like the original (program and unit contexts); a name qualified by a unit without declaration map panics (refuted); in such contexts nothing else panics when all tokens are recognised."
  },
  {
   "property": "C36",
   "status": "partial",
   "theorems": [
    "TP.Props.C36_program_partial",
    "TP.Props.C36_program_returns_partial",
    "TP.Props.C36_unit_partial",
    "TP.Props.C36_block_partial",
    "TP.Props.C36_refuted_text",
    "TP.Props.C36_refuted_missing",
    "TP.Props.C36_refuted_self",
    "TP.Props.C36_refuted_loop"
   ],
   "note": "Refuted: panics for a missing file, an unrecognised rune and a unit that mentions itself in its interface; a type declared by itself makes the parser loop. Proved for all inputs: there are no other panics (ParseProgram; ParseUnit and ParseBlock on their own panic only on unrecognised runes). Otherwise ParseProgram returns a tree or an error within a number of steps linear in the length of the files, if the names of the types can be ranked and assembler blocks are closed. Missing: programs without such a ranking; two units of one name are counted as a possible panic."
  },
  {
   "property": "C37",
   "status": "partial",
   "theorems": [
    "TP.Props.C37_until_partial",
    "TP.Props.C37_until_quit_partial",
    "TP.Props.C37_nonempty_partial",
    "TP.Props.C37_until_nosep_partial",
    "TP.Props.C37_refuted"
   ],
   "note": "Refuted for item parsers that give QuitUntil (class and record lists accept a separator in front of the terminator). Proved for other item parsers when no token is both terminator and separator and no end-of-file token is a separator; C37_until_quit_partial gives the exact result with QuitUntil."
  },
  {
   "property": "C38",
   "status": "partial",
   "theorems": [
    "TP.Props.C38_lossless_partial",
    "TP.Props.C38_list_partial",
    "TP.Props.C38_statement_partial",
    "TP.Props.C38_statements_partial",
    "TP.Props.C38_refuted"
   ],
   "note": "Refuted: PACKED on both sides of the array type of an exception handler gives the same tree as PACKED on one side. Proved for every context, whatever it answers, with the type parser of the code and the grammar of types of Spec/Type (C38_statement_partial, C38_statements_partial), and with any lossless type parser (C38_lossless_partial, C38_list_partial). Optional semicolons and the text of assembler blocks are not in the tree; the pieces say where they may stand."
  },
  {
   "property": "C39",
   "status": "partial",
   "theorems": [
    "TP.Props.C39_complete_partial",
    "TP.Props.C39_sound_partial",
    "TP.Props.C39_iff_partial",
    "TP.Props.C39_unambiguous_partial",
    "TP.Props.C39_else_partial",
    "TP.Props.C39_no_outer_else_partial"
   ],
   "note": "For contexts whose clones answer like the original and in which no label is called END, UNTIL, EXCEPT, FINALLY or FINALIZATION; the type parser is a parameter with its own grammar. The grammar is the one the parser follows: no empty statement, a selector of CASE ends with a semicolon, RAISE without operands is followed by a semicolon."
  },
  {
   "property": "C40",
   "status": "partial",
   "theorems": [
    "TP.Props.C40_consumes_partial",
    "TP.Props.C40_shape_partial",
    "TP.Props.C40_refuted_first",
    "TP.Props.C40_refuted_loop"
   ],
   "note": "Refuted: the token after ASM is skipped without being looked at (asm end misses its END), and without END the loop never ends. Proved: what is consumed, exactly."
  },
  {
   "property": "C41",
   "status": "partial",
   "theorems": [
    "TP.Props.C41_refuted",
    "TP.Props.C41_header_partial",
    "TP.Props.C41_semicolon_partial"
   ],
   "note": "Refuted: without the semicolon behind the name of the unit the result is neither a unit nor an error. It is the only case."
  },
  {
   "property": "C42",
   "status": "partial",
   "theorems": [
    "TP.Props.C42_section_partial",
    "TP.Props.C42_refuted"
   ],
   "note": "Refuted: the operand of 'class of' that is declared later is never resolved. Proved for all other type identifiers of a type section; those qualified with a unit have no reference."
  },
  {
   "property": "C43",
   "status": "partial",
   "theorems": [
    "TP.Props.C43_section_partial",
    "TP.Props.C43_refuted_nested",
    "TP.Props.C43_refuted_again",
    "TP.Props.C43_refuted_param",
    "TP.Props.C43_refuted_element"
   ],
   "note": "Refuted: a forward class can be completed in a nested procedure, the lookups outside still return the forward declaration; parameters of a procedural type stay visible after a rollback and hide or allow declarations. Proved for every type section: two declarations of one name are a forward class and its completion, a visible name that is declared is a forward class, the last declaration is found unless an enumeration element or a parameter hides it."
  },
  {
   "property": "C44",
   "status": "partial",
   "theorems": [
    "TP.Props.C44_resolves",
    "TP.Props.C44_undefined",
    "TP.Props.C44_unit_own",
    "TP.Props.C53_only",
    "TP.Props.C44_refuted"
   ],
   "note": "Refuted: the map of a program contains the program (P.P). The rest of the statement is proved: the lookup goes to the map of the namespace only, failure is an error, the map of a parsed unit contains only its interface declarations, and stays like that until the program has been parsed (C53_only)."
  },
  {
   "property": "C45",
   "status": "partial",
   "theorems": [
    "TP.Props.C45_partial",
    "TP.Props.C45_refuted"
   ],
   "note": "Refuted for StackableContext."
  },
  {
   "property": "C46",
   "status": "partial",
   "theorems": [
    "TP.Props.C46_terminates_partial",
    "TP.Props.C48_statement_partial",
    "TP.Props.C48_statement_no_types_partial",
    "TP.Props.C46_refuted"
   ],
   "note": "Refuted by an assembler block without END. Proved with an explicit bound when every ASM has its END: for every type parser that terminates (C46_terminates_partial), and with the type parser of the code when the searches through types return (C48_statement_partial, C48_statement_no_types_partial)."
  },
  {
   "property": "C47",
   "status": "partial",
   "theorems": [
    "TP.Props.C47_type_partial",
    "TP.Props.C47_block_partial",
    "TP.Props.C47_heading_partial",
    "TP.Props.C47_refuted",
    "TP.Props.C47_refuted_begin"
   ],
   "note": "Refuted: a type declaration without semicolon loses one token, and the word TYPE in T = type U leaves no trace. Proved for every context: what is consumed is derived from the tree by the grammar of Spec/Type and Spec/Decl, which says where such tokens may stand."
  },
  {
   "property": "C48",
   "status": "partial",
   "theorems": [
    "TP.Props.C48_program_ranked_partial",
    "TP.Props.C48_unit_ranked_partial",
    "TP.Props.C48_block_ranked_partial",
    "TP.Props.C48_block_no_types_partial",
    "TP.Props.C48_type_no_types_partial",
    "TP.Props.C48_statement_no_types_partial",
    "TP.Props.C48_block_partial",
    "TP.Props.C48_type_partial",
    "TP.Props.C48_statement_partial",
    "TP.Props.C48_refuted_alias",
    "TP.Props.C48_refuted_class"
   ],
   "note": "Refuted by cyclic aliases and cyclic ancestors. Proved with an explicit bound, when assembler blocks are closed, (a) for blocks, units and programs whose type names can be ranked such that a type leads only to types of smaller rank, read off the tokens, (b) for the contexts of the code when the types of the context do not lead back to themselves and the text has no type section, (c) for every context whose searches through types and classes return."
  },
  {
   "property": "C49",
   "status": "partial",
   "theorems": [
    "TP.Props.C49_unit_partial",
    "TP.Props.C49_program_partial",
    "TP.Props.C49_refuted"
   ],
   "note": "Refuted inside programs: the semicolon behind the name of a unit may be missing. Proved: units and programs are derived from their tokens by the grammar of Spec/Goal (with the deviations of Spec/Decl), the units of a program if their names differ."
  },
  {
   "property": "C50",
   "status": "proved",
   "theorems": [
    "TP.Props.C50_acyclic"
   ],
   "note": "For every graph library that meets the contract TopoCorrect."
  },
  {
   "property": "C51",
   "status": "partial",
   "theorems": [
    "TP.Props.C51_block_partial",
    "TP.Props.C51_program_partial",
    "TP.Props.C51_text_partial",
    "TP.Props.C51_uses_partial",
    "TP.Props.C51_units_partial",
    "TP.Props.C51_unit_partial",
    "TP.Props.C51_refuted"
   ],
   "note": "Refuted: empty statements, calls and headings with (), AS, empty sets, numeric labels, classes that begin with a method and records inside of other types are refused. Proved for the grammar of Spec/Accept: expressions, statements, constant, type, variable and routine sections, records, records with variant parts, classes with fields and methods, and with properties that have members of the class as accessors where no ancestor is declared before or the heritage of all ancestors is known, uses clauses, units parsed alone, and programs with units in files whose interfaces do not use each other in a circle; also assembler bodies, exports, external directives, absolute variables; classes may be declared forward and completed; labels that are names, goto and labelled statements where each token of the body is certainly a label or certainly none."
  },
  {
   "property": "C52",
   "status": "partial",
   "theorems": [
    "TP.Props.C52_walk",
    "TP.Props.C52_order_partial",
    "TP.Props.C52_once_partial",
    "TP.Props.C52_all_partial",
    "TP.Props.C52_unit_partial",
    "TP.Props.C52_units_partial",
    "TP.Props.C52_refuted"
   ],
   "note": "Refuted: the name of a variant part comes after its type, exports after the body come before it, the token in front of the semicolon of a type declaration may be left out, a type name IMPLEMENTS is shown twice. Proved without these: order and uniqueness for all other trees except handlers with qualified types; completeness also without assembler blocks and up to one token for each type declaration. No panic: for all trees."
  },
  {
   "property": "C53",
   "status": "partial",
   "theorems": [
    "TP.Props.C53_only",
    "TP.Props.C53_all_partial",
    "TP.Props.C53_refuted"
   ],
   "note": "Refuted: after `procedure Foo; var Foo, Bar: Integer;` in an interface, Bar is not in the map. C53_only is unconditional; C53_all_partial asks that identifiers declared in a list are not declared before in the interface."
  },
  {
   "property": "C54",
   "status": "proved",
   "theorems": [
    "TP.Props.C54_layout",
    "TP.Props.C54_case"
   ],
   "note": "For every two sets of files and every order of the map of unit names (the same for both calls)."
  },
  {
   "property": "C55",
   "status": "proved",
   "theorems": [
    "TP.Props.C55_program",
    "TP.Props.C55_more_steps",
    "TP.Props.C55_unit",
    "TP.Props.C55_block"
   ],
   "note": "For the same order of the unit names; for different orders see C56."
  },
  {
   "property": "C56",
   "status": "partial",
   "theorems": [
    "TP.Props.C56_chain_partial",
    "TP.Props.C56_single_partial",
    "TP.Props.C56_refuted_outcome",
    "TP.Props.C56_refuted_actual"
   ],
   "note": "Refuted: with errors in two units, the order decides between error and panic; if two units complete a forward class of a third one, the order decides which class is its Actual. Proved if of every two units one uses the other (then there is only one order). Missing: units that do not use each other and do not do these things."
  },
  {
   "property": "C57",
   "status": "proved",
   "theorems": [
    "TP.Props.C57_program",
    "TP.Props.C57_text",
    "TP.Props.C57_unit",
    "TP.Props.C57_begin"
   ],
   "note": "With two units of the same name the file of one of them is not read to its period."
  },
  {
   "property": "C58",
   "status": "partial",
   "theorems": [
    "TP.Props.C58_ident",
    "TP.Props.C58_unitId",
    "TP.Props.C58_absolute",
    "TP.Props.C58_list_partial",
    "TP.Props.C58_refuted_list",
    "TP.Props.C58_unitRef_partial",
    "TP.Props.C58_refuted_unitRef",
    "TP.Props.C58_typeId",
    "TP.Props.C58_external",
    "TP.Props.C58_parameterType",
    "TP.Props.C58_array_partial",
    "TP.Props.C58_refuted_array",
    "TP.Props.C58_parameter",
    "TP.Props.C58_formal_partial",
    "TP.Props.C58_refuted_option"
   ],
   "note": "Refuted: NewUnitRef panics for every string and NewIdentList for every non-empty slice of strings although their type switches list them; NewIdentList panics for a single token but accepts two; NewFormalParm drops an option of an unknown type; NewArrayParameterType changes the ParameterType it is given by pointer. Proved for all other arguments."
  },
  {
   "property": "C59",
   "status": "proved",
   "theorems": [
    "TP.Props.C59_program",
    "TP.Props.C59_unit",
    "TP.Props.C59_block",
    "TP.Props.C59_type",
    "TP.Props.C59_later",
    "TP.Props.C59_expr",
    "TP.Props.C59_embedded",
    "TP.Props.C59_start",
    "TP.Props.C59_lower",
    "TP.Props.C59_ascii"
   ],
   "note": "Both the references set when the identifier is met and those set at the end of a type section (in the final context). The operand of CLASS OF gets its reference when it is met or never (C69). 'Up to the case of letters' means: the key of the declaration is obtained from the name of the identifier by changing its case (ToLower, ToUpper, several times); for ASCII names (C59_ascii), and whenever changing case twice is changing it once (C59_lower), the names are equal when lowered."
  },
  {
   "property": "C60",
   "status": "proved",
   "theorems": [
    "TP.Props.C60_program",
    "TP.Props.C60_inside",
    "TP.Props.C60_unit",
    "TP.Props.C60_text",
    "TP.Props.C60_texts",
    "TP.Props.C60_proper",
    "TP.Props.C60_block",
    "TP.Props.C60_type",
    "TP.Props.C60_expr"
   ],
   "note": "C60_program and C60_text hold without assumptions; there a name may be the empty text at the end of the file. C60_inside and C60_proper exclude this under the assumptions of C57 (correct topological sort, units with different names). If the first rune of the text is a line feed it does not begin a new line (C01)."
  },
  {
   "property": "C61",
   "status": "partial",
   "theorems": [
    "TP.Props.C61_accepts",
    "TP.Props.C61_report_partial",
    "TP.Props.C61_errors",
    "TP.Props.C61_current",
    "TP.Props.C61_place",
    "TP.Props.C61_refuted",
    "TP.Props.C61_combined",
    "TP.Props.C61_by",
    "TP.Props.C61_extra",
    "TP.Props.C61_percent",
    "TP.Props.C61_directives",
    "TP.Props.C61_abbr_partial",
    "TP.Props.C61_refuted_abbr",
    "TP.Props.C61_clone"
   ],
   "note": "Refuted: the name of the predicate becomes part of the format, so a percent sign in it spoils the message (Value(\"%\")); ValueAbbr adds three dots to tokens with exactly n runes. Proved for names without percent sign and for other lengths. fmt.Sprintf is modelled for strings and the verb %s without flags."
  },
  {
   "property": "C62",
   "status": "proved",
   "theorems": [
    "TP.Props.C62_names",
    "TP.Props.C62_program",
    "TP.Props.C62_units",
    "TP.Props.C62_loaded",
    "TP.Props.C62_separate"
   ],
   "note": "A unit whose map is nil when it is imported counts as a panic, as in the other theorems about programs."
  },
  {
   "property": "C63",
   "status": "proved",
   "theorems": [
    "TP.Props.C63_program",
    "TP.Props.C63_unit",
    "TP.Props.C63_class",
    "TP.Props.C63_one"
   ],
   "note": "What an accessor stands for is stated for names of ASCII characters; other names lead to a member that may be used in the class (that they are spelled like it is C59). A class whose ancestor is declared later in the section has no ancestor when it is parsed: then the Parent of its properties is nil though a property may be found in the end (example). The classes are those of the type declarations; classes that are not declared are covered by C63_class."
  },
  {
   "property": "C64",
   "status": "partial",
   "theorems": [
    "TP.Props.C64_program_partial",
    "TP.Props.C64_unit",
    "TP.Props.C64_block",
    "TP.Props.C64_start"
   ],
   "note": "Missing: programs with two units of the same name, where a loaded unit may never be processed or its interface may be read twice. That the library sorts correctly and the map is iterated in some order is assumed for programs. Which member a reference to a member of a class leads to is C63."
  },
  {
   "property": "C65",
   "status": "partial",
   "theorems": [
    "TP.Props.C65_program_partial",
    "TP.Props.C65_unit",
    "TP.Props.C65_block",
    "TP.Props.C65_section"
   ],
   "note": "Missing: programs with two units of the same name. Which of the other units are read before is not stated; the order is C26. That the library sorts correctly and the map is iterated in some order is assumed for programs."
  },
  {
   "property": "C66",
   "status": "proved",
   "theorems": [
    "TP.Props.C66"
   ],
   "note": "Members of classes are C63, that the declaration has the same name is C59. Nothing is assumed about the sorting library, the order of the map or the names of the units."
  },
  {
   "property": "C67",
   "status": "proved",
   "theorems": [
    "TP.Props.C67_refers",
    "TP.Props.C67_writes"
   ],
   "note": "For contexts of programs and units, the only ones the parser makes. Nothing is said about the context the parser is left with (C23)."
  },
  {
   "property": "C68",
   "status": "proved",
   "theorems": [
    "TP.Props.C68_strings",
    "TP.Props.C68_sets",
    "TP.Props.C68_roundtrip",
    "TP.Props.C68_lists",
    "TP.Props.C68_sort",
    "TP.Props.C68_pointers"
   ],
   "note": "sort.Strings is a parameter that is assumed to sort; strings.Join is not modelled."
  },
  {
   "property": "C69",
   "status": "proved",
   "theorems": [
    "TP.Props.C69_class_of",
    "TP.Props.C69_error"
   ],
   "note": "Forward references are refuted in C42."
  }
 ]
}