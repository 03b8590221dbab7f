{"id": "C01", "title": "Reported positions are true to the text", "statement": "After any number of cursor advances over a text, the reported Index is the number of runes consumed, Line is one plus the number of line feeds consumed, and Col is one plus the distance from the last consumed line feed. Consequently every token's Start and End carry the true line and column of the token in the source.", "quantifier": "for every text and every number of advances (and every token produced from any text)", "why_tests_cant": "A test fixes a text; the claim is an invariant of the lazily-applied line-feed flag along every text, including texts that begin with a line feed.", "anchors": ["runes/cursor.go:Cursor.Next", "runes/position.go", "token/tokenizer.go:GetNext"]}
{"id": "C02", "title": "Tokens tile the source", "statement": "With spaces and comments loaded, consecutive tokens returned by GetNext are adjacent (each starts at the index where the previous one ended) and the concatenation of their Raw text is exactly the consumed prefix of the source: no rune is dropped, duplicated or reordered.", "quantifier": "for every text and every number of GetNext calls", "why_tests_cant": "Losslessness quantifies over all texts and all token boundaries.", "anchors": ["token/tokenizer.go:GetNext", "token/token.go:Raw", "token/*.go processors"]}
{"id": "C03", "title": "Every non-EOF token consumes input, so tokenising terminates", "statement": "Every token other than EOF has a non-empty range, so a text that has no string literal left open is completely tokenised after at most len(text)+1 calls of GetNext; GetNext itself returns for every cursor from which no unterminated string literal is reached, and never returns when the next token is an unterminated string literal.", "quantifier": "for every text, flag setting and cursor state", "why_tests_cant": "Termination over all inputs; a test that hits the divergent case hangs.", "anchors": ["token/tokenizer.go:GetNext", "token/string.go:ProcessString", "token/comment.go:ProcessComment"]}
{"id": "C04", "title": "EOF is reported exactly at the end and is absorbing", "statement": "Once GetNext returns an EOF token the cursor no longer moves and every later call returns an EOF token with the same empty range; for texts without the NUL rune EOF is returned only when all runes have been consumed.", "quantifier": "for every text and every sequence of calls", "why_tests_cant": "Unbounded sequences of calls after the end, all texts.", "anchors": ["token/eof.go:ProcessEof", "runes/cursor.go:Seek"]}
{"id": "C05", "title": "Skipping spaces and comments is filtering", "statement": "The token sequence obtained with any setting of the LoadSpace/LoadComment flags equals the sequence obtained with both flags set, with the Space tokens (if not loaded) and Comment tokens (if not loaded) removed; ranges and types of the remaining tokens are unchanged.", "quantifier": "for every text, every flag setting and every prefix of the token sequence", "why_tests_cant": "Relates two runs of the tokenizer over all texts.", "anchors": ["token/tokenizer.go:NewTokenizer", "token/tokenizer.go:GetNext"]}
{"id": "C06", "title": "Token kinds and text depend only on the remaining source (rollback replays the same tokens)", "statement": "Two tokenizers positioned before the same remaining text return tokens of the same type and raw text at every later call, whatever line/column/line-feed bookkeeping they carry. Hence rolling the parser back to a saved point replays exactly the same token types and texts. The line/column of replayed tokens must also be unchanged.", "quantifier": "for every text, every cursor state, every number of calls after the rollback", "why_tests_cant": "Two-run relational property over all states, including ones where Clone loses bookkeeping.", "anchors": ["runes/cursor.go:Clone", "token/tokenizer.go:Clone", "parser/base.go:RollbackPoint"]}
{"id": "C07", "title": "Words are maximal and keywords are case-insensitive", "statement": "A word token is the longest run of word runes at the cursor; it is a ReservedWord exactly when its upper-cased text is in the reserved word table, otherwise an Identifier; changing the case of ASCII letters never changes the type of the token, and reserved words of any case have the same Value.", "quantifier": "for every word and every following text", "why_tests_cant": "All case variants of all words, all right contexts.", "anchors": ["token/word.go:ProcessWord", "token/reserved_words.go:isReservedWord", "token/token.go:Value", "runes/word.go"]}
{"id": "C08", "title": "Two-rune symbols win over one-rune symbols, independently of map iteration order", "statement": "At any cursor the two-rune special symbols are recognised in preference to single-rune ones, and the result of recognising a two-rune symbol is the same for every iteration order of the symbol table.", "quantifier": "for every text and every iteration order (permutation) of the symbol table", "why_tests_cant": "Go map order is random per run; a test sees one order.", "anchors": ["token/special_symbols.go:ProcessDoubleSpecialSymbol", "token/special_symbols.go:TwoRunesSpecialSymbols"]}
{"id": "C09", "title": "Numeral lexemes", "statement": "Every numeral token's text is an optional minus sign, at least one digit, and, exactly for NumeralReal, one point followed by zero or more digits; a numeral is never extended over the range operator, so for all digit strings a and b the text a..b is tokenised as integer a, the symbol '..', integer b. Binary minus between two operands is a symbol token of its own.", "quantifier": "for every text; for all digit strings a, b", "why_tests_cant": "All digit strings and right contexts.", "anchors": ["token/numeral.go:ProcessNumeral", "runes/digit.go"]}
{"id": "C10", "title": "Comments are delimited correctly", "statement": "A comment token runs from its opener to the first matching closer after the opener (inclusive; exclusive of the line feed for // comments), or to the end of the text if there is none; its content does not influence the tokens that follow.", "quantifier": "for every comment body and every following text", "why_tests_cant": "All bodies and right contexts.", "anchors": ["token/comment.go:ProcessComment"]}
{"id": "C11", "title": "String literals are delimited correctly", "statement": "A string literal starting with a quote is one CharacterString token that extends to its closing quote; in Object Pascal a doubled quote inside the literal stands for a quote and backslash has no special meaning.", "quantifier": "for every literal body and every following text", "why_tests_cant": "All bodies and right contexts.", "anchors": ["token/string.go:ProcessString"]}
{"id": "C12", "title": "No lexical dead ends are passed over", "statement": "GetNext returns no token (nil) exactly when the next rune after skipped spaces and comments cannot start any token, in which case the cursor stays in front of that rune and every later call also returns nil; it never skips an unrecognised rune.", "quantifier": "for every text and cursor state", "why_tests_cant": "Characterises all 0x110000 runes in all contexts.", "anchors": ["token/tokenizer.go:GetNext", "token/special_symbols.go:SingleSpecialSymbols"]}
{"id": "C13", "title": "Keyword predicates see exactly the keyword, ignoring case", "statement": "For every word in the source, the token produced from it satisfies the ReservedWord keyword predicate for kw exactly when the word equals kw ignoring case, and satisfies no keyword predicate when it is an Identifier.", "quantifier": "for every word and every reserved word kw", "why_tests_cant": "All words and keywords.", "anchors": ["token/type.go:HasKeyword", "token/token.go:Value", "token/word.go"]}
{"id": "C14", "title": "Printed tokens lex back to themselves", "statement": "Writing any sequence of well-formed token texts (identifiers, reserved words, numerals, string literals, special symbols) separated by blanks and tokenising the result gives back the same sequence of token types and texts, followed by EOF.", "quantifier": "for every finite sequence of well-formed tokens", "why_tests_cant": "Unbounded sequences; round trip.", "anchors": ["token/tokenizer.go", "token/*.go processors"]}
{"id": "C15", "title": "String sets behave as finite sets", "statement": "A StringSet built and modified by any sequence of Add and Remove contains exactly the strings whose last operation was Add; Equal holds exactly when two sets have the same members and is independent of insertion and iteration order; Slice lists every member exactly once.", "quantifier": "for every history of operations and every iteration order", "why_tests_cant": "All histories and random map orders.", "anchors": ["ext/string_set.go"]}
{"id": "C16", "title": "List helpers keep their contracts", "statement": "Reverse is an involution that maps the first element to the last position, Equal is list equality, Exclude removes exactly the listed strings and keeps order and multiplicity of the rest.", "quantifier": "for every list of strings", "why_tests_cant": "All lists.", "anchors": ["ext/strings.go"]}
{"id": "C17", "title": "Swapping the logger is undone by its restore function", "statement": "For every properly nested history of SetLogger calls and calls of the returned restore functions, each restore puts back the logger that was active before the matching SetLogger call.", "quantifier": "for every properly nested history", "why_tests_cant": "All histories.", "anchors": ["log/base.go:SetLogger"]}
{"id": "C18", "title": "Declarations are case-insensitive and never silently replaced", "statement": "After a successful Set of a declaration, Get with any casing of a declared name returns that declaration; Set of a name already present (in any casing) fails and leaves the present declaration in place; names not mentioned keep their meaning.", "quantifier": "for every map state, every declaration node and all names", "why_tests_cant": "All histories and all casings.", "anchors": ["ast/astcore/decl_map.go:DeclMapImpl"]}
{"id": "C19", "title": "A failing declaration has no effect", "statement": "When Set fails because one of the declared names is already present, the map is unchanged.", "quantifier": "for every map state and every declaration node declaring one or several names", "why_tests_cant": "All-or-nothing over all states; tests check the error only.", "anchors": ["ast/astcore/decl_map.go:DeclMapImpl.Set"]}
{"id": "C20", "title": "Scope chains resolve to the innermost declaration", "statement": "A lookup through any nesting of chained and composite scopes returns the declaration of the first scope in search order that declares the name; Set through a chained or composite scope only changes the innermost/first scope, so outer scopes keep their declarations and are visible again when the inner scope is gone.", "quantifier": "for every nesting of scopes and every history of declarations", "why_tests_cant": "Unbounded nesting depth and histories.", "anchors": ["ast/astcore/decl_map.go:ChainedDeclMap", "ast/astcore/decl_map.go:CompositeDeclMap"]}
{"id": "C21", "title": "Built-in types cannot be changed", "statement": "No history of Set and Overwrite calls through any context changes what a fresh context resolves for a built-in type name; built-in names resolve in any casing.", "quantifier": "for every history of operations on any scope that ends in the built-in scope", "why_tests_cant": "All histories; global shared state.", "anchors": ["ast/type_embedded.go:EmbeddedTypeDeclMap", "parser/pcontext/program_context.go:NewProgramContext"]}
{"id": "C22", "title": "Leaving a scope restores the enclosing scope", "statement": "For every properly nested sequence of StackDeclMap, declarations, and calls of the restore functions on one context, after the restore the context resolves every name as before the matching StackDeclMap plus declarations made to outer scopes, and declarations of the inner scope are no longer visible.", "quantifier": "for every properly nested history of scope operations", "why_tests_cant": "All histories, any depth.", "anchors": ["parser/pcontext/program_context.go:StackDeclMap", "parser/pcontext/unit_context.go:StackDeclMap"]}
{"id": "C23", "title": "Parameters and locals do not leak out of a routine", "statement": "After a procedure or function declaration (or method heading, procedural type, property interface) has been parsed, the names declared in it (parameters, locals) are not visible in the enclosing scope and do not collide with later declarations of the enclosing scope.", "quantifier": "for every routine declaration, whatever its parameter types", "why_tests_cant": "Depends on aliasing between the context object captured by the deferred restore and the clone installed by a rollback.", "anchors": ["parser/function.go:ParseProcedureDeclSection", "parser/base.go:RollbackPoint", "parser/pcontext/*.go:Clone", "parser/type_simple.go:parseSubrangeTypeForIdentifier"]}
{"id": "C24", "title": "Later used units take precedence, local declarations take precedence over used units", "statement": "While parsing a unit interface, a name resolves to the unit's own declaration if there is one, otherwise to the interface declaration of the last unit in the uses clause that declares it, otherwise to the surrounding context (built-in types).", "quantifier": "for every uses clause, every set of loaded units and every name", "why_tests_cant": "All combinations of units and names.", "anchors": ["parser/pcontext/unit_context.go:ImportUnitDecls", "parser/unit_parser.go:ProcessIntfBody"]}
{"id": "C25", "title": "Implementation declarations stay private to the unit", "statement": "During the implementation part the unit's own implementation and interface declarations are visible through the unit name; after the unit has been processed (successfully or with an error) exactly the interface declarations are visible from other units.", "quantifier": "for every unit and every outcome of parsing its implementation", "why_tests_cant": "All outcomes including error paths.", "anchors": ["parser/unit_parser.go:ProcessImplAndInit", "parser/unit_parser.go:ParseUnitIntfBody"]}
{"id": "C26", "title": "Units are ordered by dependency", "statement": "Sorting the loaded unit parsers returns every loaded unit exactly once, each one after all loaded units named in its interface uses clause, and fails exactly when the interface dependencies are cyclic; names are compared ignoring case and the result does not depend on hash iteration order for these guarantees.", "quantifier": "for every finite set of units and every dependency graph and every iteration order", "why_tests_cant": "All graphs.", "anchors": ["parser/unit_parsers.go:Sort", "parser/unit_parsers.go:Graph"]}
{"id": "C27", "title": "Every interface is parsed after the interfaces it uses, every implementation after all interfaces", "statement": "While loading the units of a program, when the interface body of a unit is processed the interface bodies of all loaded units it uses have been processed, and when any implementation part is processed all interface bodies have been processed; each unit is processed exactly once in each phase.", "quantifier": "for every program and dependency graph", "why_tests_cant": "All graphs and orders.", "anchors": ["parser/program.go:LoadUnits", "parser/unit_parsers.go:Sort"]}
{"id": "C28", "title": "Unit paths lose exactly their quotes and backslashes", "statement": "The effective path of a uses item is the text between the quotes of the literal with every backslash replaced by the path separator and nothing else changed; it is empty exactly when no path or an empty literal was given.", "quantifier": "for every literal", "why_tests_cant": "All strings.", "anchors": ["ast/uses_clause.go:UnquotedPath", "ast/uses_clause.go:EffectivePath"]}
{"id": "C29", "title": "WalkDown is a complete preorder traversal that stops at the first error", "statement": "WalkDown calls the visitor on every node of the tree exactly once, parents before children and children in order, and if the visitor fails returns that error without further calls.", "quantifier": "for every tree and every (stateful) visitor", "why_tests_cant": "All trees and visitors.", "anchors": ["ast/astcore/node.go:WalkDown"]}
{"id": "C30", "title": "Member lookup finds the nearest accessible member", "statement": "Looking up a class member by name (any casing) returns a member of the class itself if one exists, otherwise the member of the nearest ancestor that has a non-private one; a private member of an ancestor is never returned.", "quantifier": "for every class hierarchy, every name and casing", "why_tests_cant": "All hierarchies of any depth.", "anchors": ["ast/type_class.go:FindMemberDecl", "ast/type_class.go:GetParentClass"]}
{"id": "C31", "title": "A property's effective specifiers come from the nearest declaration that gives them", "statement": "The computed property has, for each specifier, the value of the nearest declaration in the override chain that gives it; the declarations in the chain are not modified.", "quantifier": "for every override chain", "why_tests_cant": "Chains of any length.", "anchors": ["ast/type_class.go:ComputedProperty", "ast/type_class.go:InheritsFrom"]}
{"id": "C32", "title": "Type aliases are classified by the type they stand for", "statement": "A type identifier is ordinal (real, string, ...) exactly when the type at the end of its chain of aliases is; the classification terminates.", "quantifier": "for every chain of aliases", "why_tests_cant": "Chains of any length; cyclic chains hang.", "anchors": ["ast/type_id.go", "parser/type_simple.go:ParseTypeAsOrdinalType"]}
{"id": "C33", "title": "Expression parsing is lossless", "statement": "Whenever ParseExpression succeeds, flattening the returned expression gives exactly the tokens consumed, in order.", "quantifier": "for every token stream and every context", "why_tests_cant": "All inputs.", "anchors": ["parser/expression.go"]}
{"id": "C34", "title": "Expression parsing is complete for its grammar and yields the intended tree", "statement": "For every well-formed expression tree whose identifiers fit the context, parsing its token sequence followed by any token that cannot continue an expression returns exactly that tree: multiplicative operators bind tighter than additive ones, these tighter than relational ones, operators of one level group in order, parentheses override.", "quantifier": "for every expression tree and every continuation", "why_tests_cant": "Unbounded trees; round trip.", "anchors": ["parser/expression.go"]}
{"id": "C35", "title": "Expression parsing terminates without panic on lexically valid input", "statement": "If every token of the stream was recognised by the tokenizer then ParseExpression returns a tree or an error value; it does not panic or loop.", "quantifier": "for every token stream", "why_tests_cant": "All inputs.", "anchors": ["parser/expression.go", "parser/base.go"]}
{"id": "C36", "title": "Invalid source yields an error value, not a panic", "statement": "Parsing any text returns a tree or an error value.", "quantifier": "for every text", "why_tests_cant": "All texts including those with unrecognised runes.", "anchors": ["parser/base.go:Validate", "parser/expression.go", "parser/statement.go"]}
{"id": "C37", "title": "List parsing accepts exactly separator-separated non-empty lists", "statement": "Until(terminator, separator, item) succeeds exactly when the stream is item (separator item)* followed by the terminator, leaves the terminator current, and calls item once for each element in order.", "quantifier": "for every item parser, separator and terminator and stream", "why_tests_cant": "Higher order and unbounded.", "anchors": ["parser/base.go:Until", "parser/ident_list.go"]}
{"id": "C38", "title": "Statement parsing is lossless", "statement": "Whenever ParseStatement succeeds, flattening the returned statement gives exactly the tokens consumed, in order (assembler bodies excepted).", "quantifier": "for every token stream and context", "why_tests_cant": "All inputs.", "anchors": ["parser/statement*.go"]}
{"id": "C39", "title": "Statement parsing is complete for its grammar and yields the intended tree", "statement": "For every well-formed statement tree, parsing its token sequence followed by a token that cannot continue a statement returns exactly that tree; in particular else belongs to the nearest open if.", "quantifier": "for every statement tree", "why_tests_cant": "Unbounded trees.", "anchors": ["parser/statement*.go"]}
{"id": "C40", "title": "Assembler blocks end at their END", "statement": "An asm statement consumes everything up to and including the first END after ASM, and parsing terminates even if the END is missing.", "quantifier": "for every token stream", "why_tests_cant": "All inputs; non-termination.", "anchors": ["parser/statement_asm.go"]}
{"id": "C41", "title": "A failed unit header is an error", "statement": "ParseUnit returns either a unit or an error, never neither.", "quantifier": "for every token stream", "why_tests_cant": "All inputs.", "anchors": ["parser/unit_parser.go:ParseUnitIdent"]}
{"id": "C42", "title": "Forward references to types are resolved at the end of the type section", "statement": "Every type identifier used in a type section that is not declared at the point of use refers, after the section has been parsed, to the declaration of that name visible at the end of the section, if there is one.", "quantifier": "for every type section", "why_tests_cant": "All sections and orders of declarations.", "anchors": ["parser/type.go:parseTypeIdWithoutUnit", "parser/base.go:RunPostSectionFuncs"]}
{"id": "C43", "title": "A forward-declared class is completed by its full declaration", "statement": "After 'T = class;' and a later full class declaration of T, every lookup of T returns the full declaration and the forward declaration refers to the full class; no other redeclaration of a visible name is accepted in a type section.", "quantifier": "for every context and every type section", "why_tests_cant": "All histories.", "anchors": ["parser/type.go:ParseTypeDecl", "ast/type_class.go:SetActualType"]}
{"id": "C44", "title": "Unit- and program-qualified names resolve only in that namespace", "statement": "A name qualified by a unit or program name resolves to the declaration of that name in that namespace's own declarations and is an error if there is none; a namespace does not contain itself (P.P is rejected) and the units it uses.", "quantifier": "for every context and all names", "why_tests_cant": "All contexts.", "anchors": ["parser/unit.go:ParseQualId", "parser/program.go:LoadUnits", "ast/namespace.go"]}
{"id": "C45", "title": "A cloned context answers like its original", "statement": "The clone of a context resolves every name to the same declaration as the original and has the same path.", "quantifier": "for every context, every declaration state and every name", "why_tests_cant": "All contexts and histories.", "anchors": ["parser/pcontext/program_context.go:Clone", "parser/pcontext/unit_context.go:Clone", "parser/pcontext/stackable_context.go:Clone"]}
{"id": "C46", "title": "Statement parsing terminates", "statement": "ParseStatement returns from every finite token stream.", "quantifier": "for every token stream and every context", "why_tests_cant": "Non-termination; all inputs.", "anchors": ["parser/statement*.go"]}
{"id": "C47", "title": "Types, declarations and blocks are read off their tokens", "statement": "When ParseType, ParseBlock or ParseExportedHeading succeeds, the tokens it consumed are, in order, exactly the tokens of the tree it returns, with nothing added and nothing lost.", "quantifier": "for every token stream and every context", "why_tests_cant": "All token streams; tests compare a few trees.", "anchors": ["parser/type*.go", "parser/block.go", "parser/function*.go", "parser/const.go", "parser/var.go"]}
{"id": "C48", "title": "Parsing of types, declarations and blocks terminates", "statement": "ParseType, ParseBlock and ParseStatement return from every finite token stream.", "quantifier": "for every token stream and every context", "why_tests_cant": "Non-termination; all inputs.", "anchors": ["parser/type*.go", "parser/block.go", "ast/type_class.go:FindMemberDecl", "ast/type_simple.go:IsOrdinalType"]}
{"id": "C49", "title": "Units and programs are read off their tokens", "statement": "When ParseUnit or ParseProgram succeeds, the tokens of the file in front of the final period are, in order, exactly the tokens of the tree it returns; the units of a program are, one by one, those of the files the uses clause refers to.", "quantifier": "for every token stream, every set of files and every context", "why_tests_cant": "All token streams and files; tests compare a few trees.", "anchors": ["parser/unit_parser.go", "parser/program.go", "parser/uses_clause.go"]}
{"id": "C50", "title": "Units that use each other in a circle are rejected", "statement": "If ParseProgram returns a program, no chain of interface uses clauses leads from one of its units back to it.", "quantifier": "for every set of files and every order of map iteration", "why_tests_cant": "All sets of units.", "anchors": ["parser/program.go:LoadUnits", "parser/unit_parsers.go:Sort"]}
{"id": "C51", "title": "Programs of the language are accepted", "statement": "If the text of a file is a program of the language (declaration sections with constants, types, variables and routines, statements, expressions; every name declared once in its scope, type names declared before they are used), ParseProgram returns a tree and no error, it does not panic and it terminates; the same holds for ParseUnit and units.", "quantifier": "for every such text, of any length and nesting, in any spelling of the words, and every library and map order", "why_tests_cant": "All texts; tests accept a few.", "anchors": ["parser/program.go", "parser/block.go", "parser/type*.go", "parser/statement*.go", "parser/expression.go", "parser/pcontext/*.go"]}
{"id": "C52", "title": "A walk over a parsed tree shows the source in order", "statement": "WalkDown over the tree that ParseProgram or ParseUnit returns does not panic, and the names, numbers, strings and constants its visitor is given are the names and literals of the text in front of the final period: in the order of the text, each once, with their places, and none is left out.", "quantifier": "for every text, every visitor, every library and map order", "why_tests_cant": "All trees; tests compare a few lists of children.", "anchors": ["ast/*.go", "ast/astcore/node.go", "ast/astcore/ident.go", "parser/*.go"]}
{"id": "C53", "title": "After a program has been parsed, the map of every unit holds exactly the declarations of its interface", "statement": "When ParseProgram returns a program, the DeclMap of each of its units contains the first declaration of every name that the interface of the unit declares, and nothing else: nothing of the implementation, of used units, of units parsed later or of the program.", "quantifier": "for every text of the program and its units, every library and map order", "why_tests_cant": "All programs and all orders of processing; depends on every declaration made after the interface was parsed, in all contexts the parser has created.", "anchors": ["parser/unit_parser.go:142-203", "parser/program.go:115-172", "parser/pcontext/unit_context.go", "ast/astcore/decl_map.go"]}
{"id": "C54", "title": "Layout, comments and the case of words do not matter", "statement": "If two sets of source files have the same tokens, up to the case of ASCII letters in identifiers and reserved words, ParseProgram does the same for both: it returns programs that are equal up to positions and the case of words, or an error for both, or panics for both. If the texts differ only in the case of letters outside string literals, the positions are equal, too.", "quantifier": "for every two sets of files, every tokenization order, every library; the same order of the unit names for both", "why_tests_cant": "All texts and all their layouts; needs a comparison of two runs of every parser function.", "anchors": ["token/*.go", "parser/*.go", "ast/astcore/decl_map.go", "parser/pcontext/*.go"]}
{"id": "C55", "title": "A parse has one result", "statement": "Two calls of ParseProgram (or ParseUnit, or of the parser of blocks) on the same text that return, return the same result and leave the same context and the same rest of tokens, whatever the order of the map of two-rune symbols; a call that returns does so within every larger number of steps.", "quantifier": "for every text, every order of the symbol map, every two bounds on the number of steps", "why_tests_cant": "All texts and all map orders; a test sees one order.", "anchors": ["token/tokenizer.go", "parser/*.go"]}
{"id": "C56", "title": "The random order of Go's maps does not matter", "statement": "ParseProgram returns the same for every order in which the set of unit names is iterated.", "quantifier": "for every set of files and every two orders", "why_tests_cant": "The order cannot be controlled in a test.", "anchors": ["parser/unit_parsers.go:23-73", "parser/program.go:115-172", "parser/type.go:77-86"]}
{"id": "C57", "title": "Nothing behind the final period is looked at", "statement": "If ParseProgram returns a program, then in the file of the program and in the file of every unit it loads one of the tokens is a period such that the tokens behind it are irrelevant: for all files with the same tokens up to and including these periods, whatever follows (other tokens, text that is no token, text on which the tokenizer does not return), ParseProgram returns the same program. In terms of the texts: they may be changed in any way behind these periods, as long as the next rune is not a period or a closing parenthesis. The same for ParseUnit. Likewise an error or a panic that happens before the tokens of a beginning of the files are used up happens for all files with this beginning.", "quantifier": "for every set of files, every two continuations behind the periods, every order of the maps; no two loaded units with the same name", "why_tests_cant": "All continuations of all programs, also those for which the tokenizer fails or hangs; needs that every parser function stops reading at its last token.", "anchors": ["parser/program.go:20-113", "parser/unit_parser.go:205-260", "parser/parser.go", "parser/*.go"]}
{"id": "C58", "title": "The constructors of tree nodes keep what they are given", "statement": "Each of the exported constructors with arguments of type interface{} (NewIdentFrom, NewIdentList, NewUnitId, NewUnitRef, NewTypeId, NewVarDeclAbsoluteIdent, NewExternalOptions, NewParameterType, NewArrayParameterType, NewParameter, NewFormalParm) returns for every argument of a type listed in its type switch a node with exactly the given parts, panics for all other arguments, and leaves the objects given to it unchanged.", "quantifier": "for every argument of every type", "why_tests_cant": "The arguments have no static type, so every combination of types is possible; a test sees a few of them and does not see changed arguments.", "anchors": ["ast/astcore/ident.go:44-114", "ast/uses_clause.go:67-88", "ast/type_id.go:28-47", "ast/function_heading.go:117-242", "ast/directive.go:40-60", "ast/unit.go:204-211", "ast/var.go:77-88"]}
{"id": "C59", "title": "Every reference leads to a declaration of the same name", "statement": "In a tree that ParseProgram or ParseUnit returns, every Ref of an identifier, of a type identifier, of a GOTO label and every Parent of a property that is set leads, when the tree is returned, to a declaration whose name is that of the identifier up to the case of letters; for the units of the program as well. The same for types, blocks, statements and expressions parsed in a context in which all declarations are stored under their names, and such contexts stay such contexts.", "quantifier": "for every text, every set of files, every library and map order", "why_tests_cant": "All texts; the declarations come from maps of many scopes, of units, of classes and records and of embedded types.", "anchors": ["ast/astcore/decl_map.go", "parser/pcontext/*.go", "parser/expression.go", "parser/type*.go", "parser/statement*.go", "ast/type_class.go"]}
{"id": "C60", "title": "Every name in a tree stands in the text, at the place the tree says", "statement": "In a tree that ParseProgram returns, the Name of every identifier (names of what is declared, names that refer to something, the names of the program, of the units and of the items of uses clauses) is the part of the text of the file between the indices of its Start and its End, and lines and columns of Start and End are those of the indices (for the first rune see C01). For the trees of the units the file is that of the unit, named by the item of the uses clause. No name is empty if the units have different names. The same for units, blocks, types and expressions that are parsed on their own: all names are tokens.", "quantifier": "for every text, every set of files, every library and map order", "why_tests_cant": "All texts; identifiers are built in some forty places of the parser, also by parsers that go back and by parsers of other files.", "anchors": ["ast/astcore/ident.go", "parser/*.go", "token/token.go", "runes/position.go"]}
{"id": "C61", "title": "A failed check is reported with the expectation, the token and its place", "statement": "Validate(t, preds...) returns nil exactly if t is not nil and satisfies all predicates; otherwise its message is 'expects NAME but was TEXT at PATH:LINE:COL' with the name of the first predicate that fails, the text of the token, the path of the file and the line and column where the token begins in the text. Current and Next return the token exactly if Validate has no error. Some, Every and Not are or, and, not; Directives and PortabilityDirectives panic exactly for unknown names and otherwise accept these words in any case; ValueAbbr(n) is the value if the token has at most n runes and otherwise its first n runes and three dots; a clone of a token equals the token and shares no position with it.", "quantifier": "for every token, path, list of predicates, name, number", "why_tests_cant": "All names and texts, also those with characters that have a meaning for fmt.", "anchors": ["parser/base.go:49-74", "parser/base.go:118-126", "token/predicate.go", "token/directives.go:14-46", "token/token.go:21-60", "runes/position.go:32-35"]}
{"id": "C62", "title": "The items of uses clauses lead to the units they name", "statement": "After ParseProgram, the field Unit of an item of the uses clause of the program is the loaded unit with the name of the item (up to case), the last one if several files contain units of that name, and nil if there is none; the field Unit of an item of the interface or implementation uses clause of a unit is the unit of the program with that name, the first one if there are several, and nil if there is none. Every loaded unit has the name of an item of the program. No name stands twice in the uses clause of the program, and no two items are the same object.", "quantifier": "for every text, every set of files, every library and map order", "why_tests_cant": "All programs; the fields are set by four different loops, in an order that depends on the iteration over a map.", "anchors": ["parser/program.go:115-172", "parser/pcontext/unit_context.go:48-66", "ast/uses_clause.go", "ast/unit.go:62-70", "parser/unit_parser.go:142-203"]}
{"id": "C63", "title": "The accessors of a property are members of its class or of an ancestor", "statement": "In every class that ParseProgram or ParseUnit declares, the Ref of each identifier behind READ, WRITE and STORED is set and leads to the member of that name of the class itself, among those that stand before the property and are not properties of its own section, or else to the member of that name of the nearest ancestor that has one that is not private. The Parent of a property is set only to the property of that name of the class or of its nearest ancestor, and only if this has a type, an INDEX, a READ or a WRITE that the property lacks; when the class has been parsed, it is set exactly in this case.", "quantifier": "for every text, every set of files, every library and map order, every class", "why_tests_cant": "All texts; the ancestors are found through references to types of other sections and units, some of which are set later.", "anchors": ["parser/type_class.go", "ast/type_class.go", "ast/type_class.go:30-37", "parser/type.go:50-106"]}
{"id": "C64", "title": "Every reference leads to a declaration of the tree, of the kind of the section that makes it", "statement": "The Ref of every identifier in the tree of a program, a unit or a block, where it is set, leads to a declaration that this tree makes (or, for a block, that was made before): its node is a label, a constant, a variable, a thread variable, a routine, a routine heading, a parameter, an element of an enumeration or the variable of an exception handler exactly if its identifier stands in the tree at such a place, a type whose TypeDecl has the type that stands in the tree under its name, an item of a uses clause, a unit or the program of the tree. The only other declarations are the embedded types and members of classes. The same holds for references that are set at the end of a type section, and for everything that is in the declaration maps in the end.", "quantifier": "for every text, every set of files, every library that sorts correctly, every map order, every context", "why_tests_cant": "All texts; the declarations go through scopes, exported maps, copies of contexts and references that are set later, and no test compares the declaration that is found with the tree.", "anchors": ["parser/*.go", "parser/pcontext/*.go", "ast/astcore/decl_map.go", "ast/astcore/decl.go"]}
{"id": "C65", "title": "References lead to earlier declarations", "statement": "The Ref of an identifier that is set when the identifier is met never leads to a later declaration of the same text: the expression and the type of a constant refer to that constant or to what was declared before it; the type and the initial value of a variable, the type of a thread variable and the right side of a type declaration refer to what was declared before (or to the elements of enumerations and parameters inside the type itself), never to the variable or the type that is being declared; the heading of a routine does not refer to the routine, its block may; statements refer to the sections in front of them. The interface of a unit refers to other units only as far as their interfaces go, its implementation to its interface and its own earlier declarations or to other units. References of a type section that are set at its end lead to declarations of that section or before it.", "quantifier": "for every text, every set of files, every library that sorts correctly, every map order, every context", "why_tests_cant": "All orders of declarations; scopes are copied, restored and shared between units, so a declaration could become visible too early, and no test looks at names that are used before they are declared.", "anchors": ["parser/const.go", "parser/var.go", "parser/type.go", "parser/block.go", "parser/function.go", "parser/unit_parser.go", "parser/program.go", "parser/pcontext/*.go"]}
{"id": "C66", "title": "The block of a program refers to what interfaces offer and to its own declarations", "statement": "When ParseProgram has returned a program, every Ref of an identifier in its block leads to the program itself, to an item of its uses clause, to a constant, type, variable, thread variable or routine that the interface of one of its units declares at its outermost level, to a declaration of the block, to an embedded type or to a member of a class. It never leads to what the implementation of a unit declares, to an element of an enumeration or a parameter of an interface, or to a declaration of a unit that is not one of the program. The same holds for the references that are set at the end of a type section.", "quantifier": "for every text, every set of files, every library and map order, with no condition on the names of the units", "why_tests_cant": "The maps of all units are alive while the block is read, and units share, copy and replace maps and contexts; a test sees the few units it has, and an unintended reference is not an error.", "anchors": ["parser/program.go", "parser/unit_parser.go", "parser/pcontext/*.go", "parser/pcontext/unit_context.go", "ast/astcore/decl_map.go"]}
{"id": "C67", "title": "A block neither refers to nor changes what is out of its reach", "statement": "In every program or unit context, ParseBlock refers only to declarations that stand in a table within reach of the context (the layers of its declaration map, and the maps of units and programs that are named there), to declarations of the block itself, to embedded types and to members of classes. It changes no declaration map that was there before, except for the table that declarations of the context go to, no other context, no declaration map of a unit and no item of a uses clause.", "quantifier": "for every context, every set of maps out of reach, every text", "why_tests_cant": "All contexts; scopes are opened, copied by abandoned attempts and closed again inside of a block, and what is changed by mistake may belong to a unit that is looked at much later.", "anchors": ["parser/block.go", "parser/function.go", "parser/base.go", "parser/unit.go", "parser/pcontext/*.go", "ast/astcore/decl_map.go"]}
{"id": "C68", "title": "The helpers for arguments lose and invent nothing", "statement": "ExtractStrings returns the strings of all string, []string and Strings arguments in order, and all other arguments in order; ExtractStringSets does the same for sets. Strings passed on with Interfaces are found again, wherever they stand between other arguments. ToUpper, Select and Include go through a list element by element, Sort returns the strings of the list in order and changes the list itself, StringPtr gives nil for the empty string only.", "quantifier": "for every list of arguments and strings", "why_tests_cant": "All lists of arguments of mixed types.", "anchors": ["ext/strings.go", "ext/string_set.go", "ext/pointers.go"]}
{"id": "C69", "title": "CLASS OF refers to the visible declaration if it is a type", "statement": "CLASS OF and an identifier are accepted in every context and leave it unchanged. The Ref of the identifier is the declaration that the context returns for the name at this point if that is a declared or embedded type, and nil otherwise; it is not set later. Anything but an identifier after CLASS OF is an error.", "quantifier": "for every context, every identifier, every text that follows", "why_tests_cant": "All contexts: a name may be declared as anything, in any enclosing scope or unit, and a missing or wrong reference is not an error.", "anchors": ["parser/type_class.go", "parser/pcontext/*.go", "ast/astcore/decl_map.go"]}
