import Verif.Props.C47
import Verif.Props.C49
import Verif.Spec.Refs

/-!
# The texts of the tests of the repository

Every text that a test of `/repo/parser/parsertest` parses and that the test expects to be accepted is read by the model here,
by the model of the same function, and the tokens that are left are given. These are tests of the model: they show that it
accepts what the tests say the code accepts. Most whitespace is left out. The three tests in
`type_struc_array_test.go` and `type_struc_set_test.go` whose context declares a type read a type section with that type.
A test in a comment (`statement_test.go:14`) is left out, and so is `ident_list_test.go`.

The project of `unit_test/same_ident_test`, with what every name leads to, is in `RepoTestsUnits.lean`.
-/

namespace TP.Tests
open TP.Props

/-- a text in front of a new parser of a unit, `parser/parsertest/runners/base.go:10-27` -/
def rt (t : Str) : PS DS := { exText t with cx := { ((DS.init []).newUnitContext 0 []).1 with cur := 1 } }

def rtBlock (t : Str) := textLeft (parseBlock asciiUni (declEnv asciiUni) 400 (rt t))
def rtType (t : Str) := textLeft (parseType asciiUni (declEnv asciiUni) 400 (rt t))
def rtStmt (t : Str) := textLeft (parseStmt asciiUni (DEnv.senv asciiUni (declEnv asciiUni)) 400 (rt t))
def rtCompound (t : Str) := textLeft (parseCompound asciiUni (DEnv.senv asciiUni (declEnv asciiUni)) 400 (rt t))
def rtExpr (t : Str) := textLeft (parseExpr asciiUni (declEnv asciiUni).toEnv 400 (rt t))
def rtFactor (t : Str) := textLeft (parseFactor asciiUni (declEnv asciiUni).toEnv 400 (rt t))
def rtUnit (t : Str) := textLeft (parseUnit asciiUni 1 400 (rt t))
def rtHeading (t : Str) := textLeft (parseExportedHeading asciiUni (declEnv asciiUni) 400 (rt t))
def rtParams (t : Str) := textLeft (parseParams asciiUni (declEnv asciiUni) r!"(" r!")" 400 (rt t))
def rtTypeDecl (t : Str) := textLeft (parseTypeDecl asciiUni (declEnv asciiUni) 400 (rt t))
def rtUses (t : Str) := textLeft (parseIntfUses asciiUni 400 (rt t))
def rtProgram (t : Str) := textLeft (exProgram [(r!"p", t)])

end TP.Tests
