import Verif.Tests.RepoTests

/-! The texts of the tests of the repository, see `Verif/Tests/RepoTests.lean`. -/

namespace TP.Tests
open TP.Props

/-! ## `parser/parsertest/const_test.go` -/

/-- line 14 -/
example : rtUnit r!"UNIT Unit1;
INTERFACE
CONST
MaxValue = 237;
Message1 = 'Out of memory';
Max: Integer = 100;
IMPLEMENTATION
END." = some [r!"."] := by krfl

/-- line 66 -/
example : rtBlock r!"CONST MaxValue = 237;" = some [] := by krfl

/-- line 73 -/
example : rtBlock r!"CONST Max: Integer = 100;" = some [] := by krfl

/-- line 80 -/
example : rtBlock r!"CONST Message = 'Out of memory';" = some [] := by krfl

/-- line 88 -/
example : rtBlock r!"const
Min = 0;
Max = 100;
Center = (Max - Min) div 2;
Beta = Chr(225);
NumChars = Ord('Z') - Ord('A') + 1;
Message = 'Out of memory';
ErrStr = ' Error: ' + Message + '. ';
ErrPos = 80 - Length(ErrStr) div 2;
Ln10 = 2.302585092994045684;
Ln10R = 1 / Ln10;
Numeric = ['0'..'9'];
Alpha = ['A'..'Z', 'a'..'z'];
AlphaNum = Alpha + Numeric;" = some [] := by krfl


/-! ## `parser/parsertest/expression_test.go` -/

/-- line 31 -/
example : rtExpr r!"X" = some [] := by krfl

/-- line 37 -/
example : rtExpr r!"7" = some [] := by krfl

/-- line 48 -/
example : rtExpr r!"7" = some [] := by krfl

/-- line 54 -/
example : rtExpr r!"'abc'" = some [] := by krfl

/-- line 66 -/
example : rtExpr r!"@X" = some [] := by krfl

/-- line 78 -/
example : rtExpr r!"15" = some [] := by krfl

/-- line 84 -/
example : rtExpr r!"InterestRate" = some [] := by krfl

/-- line 90 -/
example : rtExpr r!"Calc(X,Y)" = some [] := by krfl

/-- line 106 -/
example : rtExpr r!"Z / (1 - Z)" = some [] := by krfl

/-- line 131 -/
example : rtExpr r!"X = 1.5" = some [] := by krfl

/-- line 145 -/
example : rtExpr r!"C in Range1" = some [] := by krfl

/-- line 159 -/
example : rtExpr r!"not Done" = some [] := by krfl

/-- line 169 -/
example : rtExpr r!"['a','b','c']" = some [] := by krfl

/-- line 183 -/
example : rtExpr r!"Char(48)" = some [] := by krfl

/-- line 193 -/
example : rtExpr r!"Char(48)" = some [] := by krfl

/-- line 206 -/
example : rtExpr r!"X + Y" = some [] := by krfl

/-- line 219 -/
example : rtExpr r!"Result - 1" = some [] := by krfl

/-- line 232 -/
example : rtExpr r!"P * InterestRate" = some [] := by krfl

/-- line 245 -/
example : rtExpr r!"X / 2" = some [] := by krfl

/-- line 258 -/
example : rtExpr r!"Total div UnitSize" = some [] := by krfl

/-- line 271 -/
example : rtExpr r!"Y mod 6" = some [] := by krfl

/-- line 284 -/
example : rtExpr r!"+7" = some [] := by krfl

/-- line 295 -/
example : rtExpr r!"-X" = some [] := by krfl

/-- line 308 -/
example : rtExpr r!"not (C in MySet)" = some [] := by krfl

/-- line 328 -/
example : rtExpr r!"Done and (Total > 0)" = some [] := by krfl

/-- line 351 -/
example : rtExpr r!"A or B" = some [] := by krfl

/-- line 364 -/
example : rtExpr r!"A xor B" = some [] := by krfl

/-- line 379 -/
example : rtExpr r!"not X" = some [] := by krfl

/-- line 389 -/
example : rtExpr r!"X and Y" = some [] := by krfl

/-- line 402 -/
example : rtExpr r!"X or Y" = some [] := by krfl

/-- line 415 -/
example : rtExpr r!"X xor Y" = some [] := by krfl

/-- line 428 -/
example : rtExpr r!"X shl 2" = some [] := by krfl

/-- line 441 -/
example : rtExpr r!"X shr I" = some [] := by krfl

/-- line 456 -/
example : rtExpr r!"S + '. '" = some [] := by krfl

/-- line 471 -/
example : rtExpr r!"P + I" = some [] := by krfl

/-- line 484 -/
example : rtExpr r!"P - Q" = some [] := by krfl

/-- line 497 -/
example : rtExpr r!"P^" = some [] := by krfl

/-- line 510 -/
example : rtExpr r!"P = Q" = some [] := by krfl

/-- line 524 -/
example : rtExpr r!"P <> Q" = some [] := by krfl

/-- line 540 -/
example : rtExpr r!"Set1 + Set2" = some [] := by krfl

/-- line 553 -/
example : rtExpr r!"S - T" = some [] := by krfl

/-- line 566 -/
example : rtExpr r!"S * T" = some [] := by krfl

/-- line 579 -/
example : rtExpr r!"Q <= MySet" = some [] := by krfl

/-- line 593 -/
example : rtExpr r!"S1 >= S2" = some [] := by krfl

/-- line 607 -/
example : rtExpr r!"S2 = MySet" = some [] := by krfl

/-- line 621 -/
example : rtExpr r!"MySet <> S1" = some [] := by krfl

/-- line 635 -/
example : rtExpr r!"A in Set1" = some [] := by krfl

/-- line 651 -/
example : rtExpr r!"I = Max" = some [] := by krfl

/-- line 665 -/
example : rtExpr r!"X <> Y" = some [] := by krfl

/-- line 679 -/
example : rtExpr r!"X < Y" = some [] := by krfl

/-- line 693 -/
example : rtExpr r!"Len > 0" = some [] := by krfl

/-- line 706 -/
example : rtExpr r!"Cnt <= I" = some [] := by krfl

/-- line 720 -/
example : rtExpr r!"I >= 1" = some [] := by krfl

/-- line 749 -/
example : rtExpr r!"S - T" = some [] := by krfl

/-- line 773 -/
example : rtFactor r!"['a','b','c']" = some [] := by krfl

/-- line 798 -/
example : rtFactor r!"Calc(X,Y)" = some [] := by krfl


/-! ## `parser/parsertest/function_heading_test.go` -/

/-- line 38 -/
example : rtHeading r!"PROCEDURE Proc0;" = some [] := by krfl

/-- line 48 -/
example : rtHeading r!"PROCEDURE Proc1(Param1: INTEGER);" = some [] := by krfl

/-- line 61 -/
example : rtHeading r!"procedure NumString(N: Integer; var S: string);" = some [] := by krfl

/-- line 75 -/
example : rtHeading r!"function WF: Integer;" = some [] := by krfl

/-- line 86 -/
example : rtHeading r!"function Max(A: array of Real; N: Integer): Real;" = some [] := by krfl

/-- line 101 -/
example : rtHeading r!"function Power(X: Real; Y: Integer): Real;" = some [] := by krfl

/-- line 116 -/
example : rtHeading r!"function MyFunction(X, Y: Real): Real; cdecl;" = some [] := by krfl

/-- line 131 -/
example : rtHeading r!"function Calculate(X, Y: Integer): Real; forward;" = some [] := by krfl

/-- line 146 -/
example : rtHeading r!"function printf(Format: PChar): Integer; cdecl; varargs;" = some [] := by krfl

/-- line 161 -/
example : rtHeading r!"procedure MoveWord(var Source, Dest; Count: Integer); external;" = some [] := by krfl

/-- line 176 -/
example : rtHeading r!"function SomeFunction(S: string): string; external 'strlib.dll';" = some [] := by krfl

/-- line 192 -/
example : rtHeading r!"function MessageBox(HWnd: Integer; Text, Caption: PChar; Flags: Integer): Integer; stdcall; external 'user32.dll' name 'MessageBoxA';" = some [] := by krfl

/-- line 210 -/
example : rtHeading r!"function Divide(X, Y: Real): Real; overload;" = some [] := by krfl

/-- line 228 -/
example : rtHeading r!"function DoubleByValue(X: Integer): Integer;" = some [] := by krfl

/-- line 242 -/
example : rtHeading r!"function DoubleByRef(var X: Integer): Integer;" = some [] := by krfl

/-- line 256 -/
example : rtHeading r!"function CompareStr(const S1, S2: string): Integer;" = some [] := by krfl

/-- line 270 -/
example : rtHeading r!"procedure GetInfo(out Info: SomeRecordType);" = some [] := by krfl

/-- line 283 -/
example : rtHeading r!"function Equal(var Source, Dest; Size: Integer): Boolean;" = some [] := by krfl

/-- line 299 -/
example : rtHeading r!"procedure Check(S: OpenString);" = some [] := by krfl

/-- line 313 -/
example : rtHeading r!"function Find(A: array of Char): Integer;" = some [] := by krfl

/-- line 327 -/
example : rtHeading r!"procedure Clear(var A: array of Real);" = some [] := by krfl

/-- line 340 -/
example : rtHeading r!"function MakeStr(const Args: array of const): string;" = some [] := by krfl

/-- line 354 -/
example : rtHeading r!"procedure FillArray(A: array of Integer; Value: Integer = 0);" = some [] := by krfl

/-- line 370 -/
example : rtHeading r!"function MyFunction(X: Real = 3.5; Y: Real = 3.5): Real;" = some [] := by krfl

/-- line 389 -/
example : rtHeading r!"procedure DoSomething(X: Real = 1.0; I: Integer = 0; S: string = '');" = some [] := by krfl

/-- line 455 -/
example : rtParams r!"(X, Y: Real)" = some [] := by krfl

/-- line 461 -/
example : rtParams r!"(var S: string; X: Integer)" = some [] := by krfl

/-- line 468 -/
example : rtParams r!"(HWnd: Integer; Text, Caption: PChar; PChar: Integer)" = some [] := by krfl

/-- line 488 -/
example : rtParams r!"(const P; I: Integer)" = some [] := by krfl


/-! ## `parser/parsertest/var_test.go` -/

/-- line 14 -/
example : rtUnit r!"UNIT Unit1;
INTERFACE
VAR
I: Integer;
X, Y: Real;
IMPLEMENTATION
END." = some [r!"."] := by krfl

/-- line 37 -/
example : rtUnit r!"UNIT Unit1;
INTERFACE
VAR
X, Y, Z: Double;
I, J, K: Integer;
VAR
Digit: 0..9;
Okay: Boolean;
A: Integer = 7;
IMPLEMENTATION
END." = some [r!"."] := by krfl

/-- line 69 -/
example : rtUnit r!"UNIT Unit1;
INTERFACE
THREADVAR
X: Integer;
IMPLEMENTATION
END." = some [r!"."] := by krfl

/-- line 99 -/
example : rtBlock r!"VAR
Str: string[32];
StrLen: Byte absolute Str;" = some [] := by krfl

/-- line 117 -/
example : rtBlock r!"VAR A: Integer = 7;" = some [] := by krfl

/-- line 129 -/
example : rtBlock r!"VAR
Digit: 0..9;
Okay: Boolean;" = some [] := by krfl

/-- line 151 -/
example : rtUnit r!"UNIT Unit1;
INTERFACE
TYPE TMyInteger1 = INTEGER;
VAR MyInteger1: TMyInteger1;
IMPLEMENTATION
END." = some [r!"."] := by krfl


end TP.Tests
