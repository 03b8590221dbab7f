# Formal model of akm/tparser

Prover: Lean 4.33.0 (core; single Mathlib modules only where noted).  Source: `/repo` (read as text, never
built or changed).  Properties: `properties.jsonl`.  Theorem index: `MANIFEST.json`.

## Layout

| module | content |
|---|---|
| `Verif/Basic/*` | runes, Unicode parameter, small list lemmas |
| `Verif/Model/*` | model of the Go code, function by function, each definition cites file and lines |
| `Verif/Spec/*`  | specifications, written without using the model's helper functions |
| `Verif/Lemmas/*` | helper lemmas |
| `Verif/Props/*` | the property theorems (one file per group), each with a concrete `example` that meets its hypotheses, and, where the code violates the property, a refutation with a concrete witness |

## Modelling conventions

* A Go `rune` is a Lean `Char`.  All texts reach the tokenizer through `[]rune(string)` (`parser/unit_parser.go:38`,
  `parser/program.go:33`), which only yields Unicode scalar values, exactly `Char`.
* A Go `string` is `List Char`.
* `unicode.IsLetter`, `unicode.IsSpace`, `unicode.ToUpper`, `unicode.ToLower` are the fields of a structure
  (`Uni`) together with the facts about ASCII that the proofs use.  All theorems hold for every value of that
  structure; an ASCII-only instance shows it is inhabited.  `strings.ToUpper/ToLower` map the rune functions.
* A Go loop that may run forever is modelled with fuel; running out of fuel is the separate outcome `none`
  ("has not returned yet").  Divergence is stated as: for every fuel, no result.
* `nil` and errors are explicit values.  A nil dereference is the explicit outcome `panic`.
* Pointers whose aliasing matters (contexts, declaration maps) live in an explicit heap.
* Random map iteration order is modelled by quantifying over all orders.

## Plan per property

| id | model | proof |
|---|---|---|
| C01 | cursor (`runes/*.go`) | invariant by induction on advances; false for texts starting with LF (refuted, general formula proved) |
| C02-C12 | cursor, all token processors, `GetNext` | refinement of every processor to a spec on the remaining text; then induction over calls |
| C13 | predicates of `token/type.go` | from the word spec |
| C14 | whole tokenizer | round trip by induction on the token list |
| C15-C17 | `ext`, `log` | refinement to abstract sets / list functions; induction on histories |
| C18-C22 | declaration maps, contexts | heap model; refinement of lookups to "first in search order"; induction on histories |
| C23 | contexts + rollback, routines | refuted by witness, also as program text; partial under "no rollback inside the scope"; for the parser of routines, earlier tables and contexts stay as they were |
| C24, C25 | unit contexts | heap model, decision logic |
| C26, C27 | unit ordering; `go-toposort` is not in the repository: modelled as a parameter with its specification, and a Kahn implementation shown to meet it | invariant of Kahn's algorithm |
| C28 | uses items | list functions |
| C29 | nodes as a rose tree with nil children | structural induction |
| C30-C32 | class hierarchy, properties, aliases | induction on depth; cycles refuted |
| C33-C35 | expression parser on token streams | mutual induction on fuel / on trees |
| C36 | programs, units, blocks | invariant of the heap (`Heap`, `Fine`: every context has an innermost scope, every declared namespace has a map) through all parsers; with C48 also that a parse ends; witnesses for the panics and loops |
| C37 | `Until` | induction on the list |
| C38-C40, C46 | statement parser | derivation relation between trees and tokens (`Spec/Stmt`); soundness by induction on fuel, completeness by induction on trees |
| C41 | unit header | refuted by witness |
| C42 | type sections | every type identifier of a type is traced to the context in which it was looked up (`Tr`, `Occurs`) through all type parsers |
| C43 | type sections | the same framework with what the lookups may change (`Evolves`); a section is a chain of declarations (`SecRun`) |
| C47 | types, declarations, blocks | as C38; derivation relations `Spec/Type`, `Spec/Decl` |
| C48 | types, declarations, blocks | as C39 with the real type parser; partial: no cycle among the type names; for the contexts of the code this follows from a ranking of the names in the tokens (`Ranked`), since every reference leads to a declaration of its own name (`Named`); also for units and programs; refuted with a cycle |
| C44 | qualified identifiers | decision logic; self containment refuted for programs |
| C49 | units and programs | as C47; derivation relations `Spec/Goal` |
| C50 | programs | from the contract of the graph library |
| C51 | programs, with the units their uses clause names, and units parsed alone | grammar with a bookkeeping of the names (`Spec/Accept`) that is kept in step with the contexts (`Agrees`); induction on the derivation; uses the completeness of the statement parser for the bookkeeping instead of the context (`Elab`) |
| C52 | trees without named variant parts and exports of blocks | every method `Children` is modelled (`Model/Children`); the grammar relations of `Spec/Type`, `Spec/Decl`, `Spec/Goal` are followed from left to right with the list of names shown so far (`Lemmas/Visit*`: `V`) |
| C53 | units of programs | invariant that no context declares into a finished map (`Seal`), through all parsers by the framework of C36 (`heapBase`) and through the loops over the units |
| C54 | programs | comparison of two runs (`Lemmas/Rel*`): tokens that cannot be told apart (`TokR`), contexts that are equal up to spelling; the scanner lemmas `CaseLex`, `SpellTok` show that texts of the same tokens are such |
| C55 | programs, units, blocks | the same comparison with equal spelling and different numbers of steps |
| C56 | programs | uniqueness of the topological order; refuted for units that are not comparable |
| C57 | programs, units | every parser function reads only a beginning of the tokens and does the same with other tokens behind it (`Loc` in `Lemmas/Local*`), for whole programs with a cut in every file (`LocalProgram`); then the comparison of C54 with one run cut off; texts with the same beginning have the same tokens in it (`FrontLex`) |
| C58 | constructors | values of type `interface{}` as an inductive type (`Val`), objects behind pointers as a heap; case analysis |
| C59 | trees of programs, units, blocks, types, expressions | invariant that every declaration is stored under its name (`Tidy`); the comparison of C54 is applied to a run and itself, with one map of trees that keeps all references and one that keeps only the proper ones, so both maps of the tree are equal (`selfSim`, `marked` in `Lemmas/Tidy`); then through the goal level (`RefsGoal`); the references that are set at the end of type sections are traced to the end of the parse with the framework of C42 (`TraceStmt`, `TraceBlock`, `TraceGoal`) |
| C60 | trees of programs, units, blocks, types, expressions | the comparison of C54 applied to a run and itself, with two maps of trees that mark all identifiers that are not those of tokens, differently; the results are the same, so no identifier has a mark; C57 excludes the end of the text |
| C61 | `Validate`, `TokenErrorf`, predicates, token helpers | direct; refuted for a percent sign in the name of a predicate and for `ValueAbbr` at the exact length |
| C62 | field `Unit` of the items of uses clauses, `LoadUnits` | invariant over the loops of `LoadUnits` (`Lemmas/Links`); parsers leave items, units and contexts of units alone |
| C63 | properties of classes, `FindMemberDecl`, `FindProperty` | specification over the tree of the class (`Spec/Members`); C30 gives the result of the searches; contexts in which types are only added and references only set keep it (`Gains`), so an invariant goes through the framework of C59 (`Steady`) |
| C64 | trees of programs, units, blocks | list of all that a tree declares (`Spec/Declared`); a run is also a run in an environment in which all declarations fail that the tree does not make (`Restrict*`); there the comparison of C54 with itself, with maps of trees that mark references, shows that all references lead to the tree (`Led`); then through the goal level and the loops of `LoadUnits` (`LedGoal`) |
| C65 | trees of programs, units, blocks | `Spec/Ordered` goes through a tree with what was declared before; C64 for the single declarations, then the loops over declarations, sections, blocks, units (`Ordered`, `OrderedProgram`) |
| C66 | references of the block of a program | `Spec/Offered` lists what interfaces offer. A zone of maps and contexts that a block can neither read nor write stays as it is (`Zone`, the same simulation as C64 with a relation that marks what is seen); the units never touch the map of the program (`Apart`); the composite map of `SetUnits` reaches only the exported maps (`Reachable`, with C53) |
| C67 | contexts and blocks | `Zone` again, with the maps out of reach given by the caller |
| C68 | lists of arguments | `Model/ExtArgs`, induction over the lists |
| C69 | contexts, identifiers and what follows | unfolding `parseType` on the three tokens |

## Trusted base

* Lean kernel 4.33.0; axioms `propext`, `Classical.choice`, `Quot.sound` only (see `MANIFEST.json`; `#print axioms`).
* The correspondence between the model and the Go text, maintained by the file/line citations.  As a test of it, the model reads every text that the
  tests of the repository (`parser/parsertest`) parse and expect to be accepted, 214 in all (`Verif/Tests/RepoTests*.lean`),
  and the references of the project `same_ident_test` come out as `main_test.go` says (`RepoTestsUnits.lean`).  The kernel checks
  these examples; they prove nothing about other texts.
* The fields of `Uni` hold for Go's `unicode` package (letters, blanks and case mapping of ASCII; no letter is a blank).
* `go-toposort` (not in the repository) is a parameter (`TopoLib`) with the contract `TopoCorrect`
  (`Verif/Spec/Topo.lean`): for graphs without repeated nodes it returns all nodes in an order that respects the
  edges, or it fails, and then there is a cycle or an edge was added twice.  That the library meets it is assumed; `kahnLib_correct` shows
  that it can be met.

## What is modelled and what is not

| layer | Go files | model | simplified or left out |
|---|---|---|---|
| A lexer | `runes/*.go`, `token/*.go` | `Runes`, `Token`, `Tokenizer`, `Run` | text of error messages, `Token.String` |
| B maps, contexts, units, node types | `ext/string_set.go`, `ext/strings.go`, `ext/pointers.go`, `log/base.go`, `ast/astcore/decl.go`, `decl_map.go`, `node.go` (`WalkDown`), `ast/type_class.go`, `type_embedded.go`, `type_id.go`, `type_pointer.go`, `type_simple.go`, `type_string.go`, `type_struc.go` (classification), `ast/unit.go`, `ast/uses_clause.go`, `parser/pcontext/*.go`, `parser/unit_parser.go` (map handling), `parser/unit_parsers.go`, `parser/program.go` (`LoadUnits`) | `Ext`, `ExtArgs`, `DeclMap`, `Context`, `UnitProc`, `UnitParsers`, `Uses`, `Walk`, `ClassType`, `TypeClass` | nil declarations; files; parsing itself is a parameter of `UnitProc` |
| C expressions | `parser/base.go`, `parser/expression.go`, `parser/unit.go`, `ast/expression.go` | `Parser`, `Expr`, `WorldEnv` | the path inside locations; text of errors; the state after an error (the expression parser never goes on after an error) |
| D statements | `parser/statement*.go`, `parser/unit.go` (`ParseQualIds`), `ast/statement.go` | `Stmt` | as for expressions; the type parser and `context.Set` are parameters (`SEnv`) |
| E types, declarations, blocks | `parser/type*.go`, `parser/const.go`, `parser/var.go`, `parser/function*.go`, `parser/block.go`, `ast/type*.go`, `ast/block.go`, `ast/function*.go` | `Types`, `Decls`; `DeclEnv` (the context), `TextTokens` (texts) | as for expressions; the context is a parameter (`DEnv`), instantiated by `declEnv` |
| F units and programs | `parser/uses_clause.go`, `parser/unit_parser.go`, `parser/program.go`, `ast/uses_clause.go`, `ast/unit.go`, `ast/program.go` | `Goal` | as above; files are a parameter (the tokens of their decoded texts, or a failure); a nil map of a used unit counts as a panic when it is put into a composite map, the code panics in the first lookup that reaches it; of the nodes only what the parser looks at again |
| G children | the methods `Children` of `ast/*.go` and `ast/astcore/ident*.go` | `Children` | lists that are nil are lists without elements (the parser sets these fields only to lists with elements); references to declarations are not children |

The parser model reads a list of tokens with one of three ends (end of file, `nil` for ever, a call that does not
return).  `Verif/Lemmas/Stream.lean` proves that the tokenizer model delivers exactly such a stream for every text.
The context is a parameter (`Env`) of the expression parser; `Verif/Model/WorldEnv.lean` instantiates it with the heap
of layer B, and `lawful_world` proves the one fact about it that some theorems assume (`Lawful`: a clone answers
like its original), for program and unit contexts, the only ones the parser makes.  C34, the absence of panics in C35
and what names refer to need it; losslessness (C33) and termination (C35) do not.
After an error value the model keeps no state.  The expression parser
has no `TraceMethod` calls; where there are such calls (`function_heading.go`, `type.go`, `type_class.go`) they print the
current token and so panic if it is nil.
`declEnv` (`Verif/Model/DeclEnv.lean`) joins the heap of layer B, the class lookup and the classification of types into
the context of the real parser; `lex` (`Verif/Model/TextTokens.lean`) computes the token stream of a text, and
`lex_delivers` proves that it is the one the tokenizer delivers.  Witnesses on program texts are checked with the tactic
`krfl` (`Verif/Basic/Kernel.lean`), which hands the equation to the kernel (`Eq.refl`) without elaborator unfolding.
Not modelled: the command line tool, reading and decoding of files, the text of errors, `String` methods.
The searches through types have no bound in the code.  The model stops them after as many steps as there are types and
calls that a hang; `Verif/Lemmas/Rounds.lean` proves that such a search does not end after any number of steps.

## Where the code does not have the property

| id | witness |
|---|---|
| C01 | text starting with a line feed |
| C06 | rollback to a point at a line feed |
| C09 | `a-1` is `a` and `-1` |
| C10 | `(*)a*)` gives the comment `(*)` |
| C11 | doubled quotes; backslashes |
| C19 | declaring several names one of which exists |
| C23 | an abandoned attempt inside a scope |
| C25 | a rollback in the interface part: implementation declarations are not visible through the unit name |
| C26, C27 | two units of one name |
| C30 | parent class given by an alias; cyclic ancestors |
| C32 | set and file types; alias cycles |
| C37 | `a ; END` accepted by lists with `QuitUntil` |
| C35 | `B.x` where the interface of unit `B` has not been parsed |
| C42 | `type A = class of B; B = class end;` |
| C43 | `type T = class; procedure P; type T = class end; …` (outside of `P` the forward declaration stays); `type T = class; E = procedure(T: TFoo); T = class end;` (rejected) |
| C36 | no file of that name; a rune that is not recognised; `unit A; interface const x = A.x;`; `type A = A; type C = set of A;` |
| C40, C46 | `asm end`: the first token after `ASM` is skipped; no `END`: endless loop |
| C41 | `unit U interface implementation end.` |
| C44 | `P.P` in the program `P` with a uses clause |
| C45 | stackable contexts |
| C47 | `T = Integer platform;`, `T = type Integer;` |
| C51 | `begin end.`, `Halt();`, `y as T`, `procedure Q();`, `[]`, `label 1;`, `class procedure m; end`, `var r: record ... end` |
| C34 | `Integer + Integer(1)` in a `StackableContext`: the type cast is taken for a call |
| C38 | `on e: packed array of Integer packed do ...`: the first `packed` leaves no trace |
| C52 | `record case k: Boolean of ...` (type before name), `begin ... end exports Q;.` (exports before body), `type T = Integer Foo;` (`Foo` lost), `property p: A.implements` (shown twice) |
| C53 | `unit A; interface procedure Foo; var Foo, Bar: Integer; ...`: `A.Bar` is unknown |
| C56 | two units with an error each (error or panic); two units that complete the same forward class of a third one (either can become its `Actual`) |
| C48 | `type A = A; type C = set of A;`; a class that is its own ancestor |
| C49 | inside a program, `unit A interface` without semicolon |
| C58 | `NewUnitRef("A")`, `NewIdentList([]string{"a"})` and `NewIdentList(tok)` panic; `NewFormalParm(i, t, 3)` drops the 3; `NewArrayParameterType(p)` changes `*p` |
| C61 | `Validate(t, Value("%"))` on `x` reports `expects Value "%!"(string=x) but was f:1:1 at %!s(MISSING)`; `ValueAbbr(2)` of `ab` is `ab...` |

## Wrong variants

`seeded/LOG.jsonl` has one line per wrong variant of a model definition. A variant counts as caught only if the
edited model file compiles and a theorem or an example after it fails. The first 363 lines were checked for this
afterwards: the edited file of 11 of them (lines 152, 161, 169, 203, 204, 217, 220, 250, 257, 302 and 303) does not
compile. They tested no theorem and are marked `"valid": false`. Line 76 is a control that does not change the
behaviour. Line 283 was caught by an example only; C69 was added for it.
Lines 387, 389, 391 and 421 survived: C58_parameter used a helper of the model in its statement, and nothing was said about
`PredicatorBy` and about unused arguments and `%%` of a format. The statements were changed or added; later lines repeat the edits.
