import Verif.Tests.RepoTestsStmt

/-! The project of `parser/parsertest/unit_test/same_ident_test`, without its comments, strings and finalization parts, and what the
names of it lead to, see `main_test.go` there. -/

namespace TP.Tests
open TP.Props

def sameIdent : List (Str × Str) :=
  [(r!"p", r!"program Project1; {$APPTYPE CONSOLE} uses SysUtils, Unit1 in 'Unit1.pas', Unit2 in 'Unit2.pas', Unit3 in 'Unit3.pas', Unit4 in 'Unit4.pas'; var Bar: string = ''; Baz: string = ''; begin Writeln(Foo); Writeln(Bar); Writeln(Unit1.Unit2); Writeln(Unit2.Unit1); Writeln(Project1.Bar); Writeln(Project1.Baz); Readln; end."),
    (r!"Unit1.pas", r!"unit Unit1;
      interface uses SysUtils, Unit4; var Foo: string = ''; Bar: string = ''; Unit2: string = ''; Project1: string = ''; implementation initialization Writeln(Foo); Writeln(Unit1.Foo); Writeln(Bar); Writeln(Unit4.Foo); Writeln(Unit4.Bar); Writeln(Unit2); end."),
    (r!"Unit2.pas", r!"unit Unit2;
      interface var Foo: string = ''; Bar: string = ''; Unit1: string = ''; Project1: string = ''; implementation uses Unit1; initialization Writeln(Foo); Writeln(Bar); Writeln(Unit1.Foo); Writeln(Unit1.Bar); end."),
    (r!"Unit3.pas", r!"unit Unit3;
      interface uses Unit1, Unit2; implementation var Baz: string = ''; initialization Writeln(Foo); Writeln(Bar); Writeln(Baz); Writeln(Unit3.Baz); Writeln(Project1); end."),
    (r!"Unit4.pas", r!"  unit Unit4;
      interface var Foo: string = ''; Bar: string = ''; Project1: string = ''; implementation initialization Writeln(Foo); Writeln(Bar); Writeln(Project1); end.")]

/-- the names with a reference, without those of built-in types, and the place of the declaration if it has an identifier -/
def leadsTo : R (PS DS) (ProgramTree (Decl Node)) → Option (List (Str × Option Nat))
  | .ok t _ => some (t.refs.filterMap fun r => match r.2.node with
    | .embedded _ _ => none
    | .decl _ i => some (r.1.name, some i.start.index)
    | _ => some (r.1.name, none))
  | _ => none

example : leadsTo (exProgram sameIdent) =
    some [(r!"Foo", some 54), (r!"Unit1", none), (r!"Foo", some 54), (r!"Bar", some 72), (r!"Unit4", none), (r!"Foo", some 34),
    (r!"Unit4", none), (r!"Bar", some 52), (r!"Unit2", some 90), (r!"Foo", some 32), (r!"Bar", some 50), (r!"Unit1", none),
    (r!"Foo", some 54), (r!"Unit1", none), (r!"Bar", some 72), (r!"Foo", some 32), (r!"Bar", some 50), (r!"Baz", some 66),
    (r!"Unit3", none), (r!"Baz", some 66), (r!"Project1", some 88), (r!"Foo", some 34), (r!"Bar", some 52), (r!"Project1", some 70),
    (r!"Foo", some 34), (r!"Bar", some 144), (r!"Unit1", none), (r!"Unit2", some 90), (r!"Unit2", none), (r!"Unit1", some 68),
    (r!"Project1", none), (r!"Bar", some 144), (r!"Project1", none), (r!"Baz", some 162)] := by krfl

end TP.Tests
