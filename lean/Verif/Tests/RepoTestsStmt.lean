import Verif.Tests.RepoTestsType

/-! The texts of the tests of the repository, see `Verif/Tests/RepoTests.lean`. -/

namespace TP.Tests
open TP.Props

/-! ## `parser/parsertest/program_test.go` -/

/-- line 40 -/
example : rtProgram r!"PROGRAM Hello;
begin
writeln('hello, world');
end." = some [r!"."] := by krfl

/-- line 49 -/
example : rtProgram r!"PROGRAM Hello;
begin
writeln('hello, world')
end." = some [r!"."] := by krfl

/-- line 58 -/
example : rtProgram r!"PROGRAM Hello;
const DefaultMessage = 'hello, world';
var msg: string;
begin
msg := DefaultMessage;
writeln(msg);
end." = some [r!"."] := by krfl


/-! ## `parser/parsertest/statement_test.go` -/

/-- line 31 -/
example : rtProgram r!"PROGRAM GotoLoop;
label START1;
begin
START1: writeln('hello, world');
GOTO START1;
end." = some [r!"."] := by krfl


/-! ## `parser/parsertest/unit_test.go` -/

/-- line 54 -/
example : rtCompound r!"begin
foo.Bar;
end;" = some [r!";"] := by krfl


/-! ## `parser/parsertest/statement_tests/assembler_statement_test.go` -/

/-- line 27 -/
example : rtBlock r!"begin
asm
DB FFH { One byte }
DB 0.99 { Two bytes }
DB 'A' { Ord('A') }
DB 'Hello world...',0DH,0AH { String followed by CR/LF }
DB 12,'string' { {{Delphi}} style string }
DW 0FFFFH { One word }
DW 0,9999 { Two words }
DW 'A' { Same as DB 'A',0 }
DW 'BA' { Same as DB 'A','B' }
DW MyVar { Offset of MyVar }
DW MyProc { Offset of MyProc }
DD 0FFFFFFFFH { One double-word }
DD 0,999999999 { Two double-words }
DD 'A' { Same as DB 'A',0,0,0 }
DD 'DCBA' { Same as DB 'A','B','C','D' }
DD MyVar { Pointer to MyVar }
DD MyProc { Pointer to MyProc }
end;
end;" = some [r!";"] := by krfl

/-- line 63 -/
example : rtBlock r!"var
ByteVar: Byte;
WordVar: Word;
IntVar: Integer;
asm
MOV AL,ByteVar
MOV BX,WordVar
MOV ECX,IntVar
end;" = some [r!";"] := by krfl

/-- line 106 -/
example : rtBlock r!"procedure CallVirtualMethod(e: TExample);
asm
// Instance pointer needs to be in EAX
MOV EAX, e
// Retrieve VMT table entry
MOV EDX, [EAX]
// Now call the method at offset VMTOFFSET
CALL DWORD PTR [EDX + VMTOFFSET TExample.VirtualMethod]
end;" = some [] := by krfl


/-! ## `parser/parsertest/statement_tests/casestmt_test.go` -/

/-- line 14 -/
example : rtStmt r!"case MyColor of
Red: X := 1;
Green: X := 2;
Blue: X := 3;
Yellow, Orange, Black: X := 0;
end;" = some [r!";"] := by krfl

/-- line 73 -/
example : rtStmt r!"case Selection of
Done: Form1.Close;
Compute: CalculateTotal(UnitCost, Quantity);
else
Beep;
end;" = some [r!";"] := by krfl

/-- line 126 -/
example : rtStmt r!"case I of
1..5: Caption := 'Low';
6..9: Caption := 'High';
0, 10..99: Caption := 'Out of range';
else
Caption := '';
end;" = some [r!";"] := by krfl


/-! ## `parser/parsertest/statement_tests/for_stmt_test.go` -/

/-- line 14 -/
example : rtStmt r!"for C := Red to Blue do Check(C);" = some [r!";"] := by krfl

/-- line 34 -/
example : rtStmt r!"for I := 2 to 63 do
if Data[I] > Max then
Max := Data[I];" = some [r!";"] := by krfl

/-- line 85 -/
example : rtStmt r!"for I := ListBox1.Items.Count - 1 downto 0 do
ListBox1.Items[I] := UpperCase(ListBox1.Items[I]);" = some [r!";"] := by krfl

/-- line 147 -/
example : rtStmt r!"for I := 1 to 10 do
for J := 1 to 10 do
begin
X := 0;
for K := 1 to 10 do
X := X + Mat1[I, K] * Mat2[K, J];
Mat[I, J] := X;
end;" = some [r!";"] := by krfl


/-! ## `parser/parsertest/statement_tests/ifstmt_test.go` -/

/-- line 14 -/
example : rtProgram r!"PROGRAM IfStmtSimple;
begin
if Flag then
writeln('OK');
end." = some [r!"."] := by krfl

/-- line 51 -/
example : rtProgram r!"PROGRAM WihtoutElse;
var I,J: integer;
begin
if J <> 0 then Result := I/J;
end." = some [r!"."] := by krfl

/-- line 106 -/
example : rtProgram r!"PROGRAM WihtElse;
var I,J: integer;
begin
if J = 0 then
Exit
else
Result := I/J;
end." = some [r!"."] := by krfl

/-- line 169 -/
example : rtProgram r!"PROGRAM WihtElseIf;
begin
if J = 0 then
begin
Result := I/J;
Count := Count + 1;
end
else if Count = Last then
Done := True
else
Exit;
end." = some [r!"."] := by krfl


/-! ## `parser/parsertest/statement_tests/raise_stmt_test.go` -/

/-- line 46 -/
example : rtBlock r!"function GetFileList(const Path: string): TStringList;
var
I: Integer;
SearchRec: TSearchRec;
begin
Result := TStringList.Create;
try
I := FindFirst(Path, 0, SearchRec);
while I = 0 do
begin
Result.Add(SearchRec.Name);
I := FindNext(SearchRec);
end;
except
Result.Free;
raise;
end;
end;" = some [] := by krfl

/-- line 233 -/
example : rtStmt r!"raise Exception.Create('Missing parameter') at @MyFunction;" = some [r!";"] := by krfl


/-! ## `parser/parsertest/statement_tests/repeat_stmt_test.go` -/

/-- line 14 -/
example : rtStmt r!"repeat
K := I mod J;
I := J;
J := K;
until J = 0;" = some [r!";"] := by krfl

/-- line 62 -/
example : rtStmt r!"repeat
Write('Enter a value (0..9): ');
Readln(I);
until (I >= 0) and (I <= 9);" = some [r!";"] := by krfl


/-! ## `parser/parsertest/statement_tests/try_except_stmt_test.go` -/

/-- line 15 -/
example : rtStmt r!"try
DoSomething;
except
HandleException;
end;" = some [r!";"] := by krfl

/-- line 77 -/
example : rtProgram r!"PROGRAM OneExceptionBlockHandler;
type
EZeroDivide = Exception;
begin
try
X := Y/Z;
except
on EZeroDivide do HandleZeroDivide;
end;
end." = some [r!"."] := by krfl

/-- line 135 -/
example : rtProgram r!"PROGRAM ThreeExceptionBlockHandlersWithoutElse;
type
EZeroDivide = Exception;
EOverflow = Exception;
EMathError = Exception;
begin
try
DoSomething;
except
on EZeroDivide do HandleZeroDivide;
on EOverflow do HandleOverflow;
on EMathError do HandleMathError;
end;
end." = some [r!"."] := by krfl

/-- line 217 -/
example : rtProgram r!"PROGRAM ThreeExceptionBlockHandlersWithElse;
type
EZeroDivide = Exception;
EOverflow = Exception;
EMathError = Exception;
begin
try
DoSomething;
except
on EZeroDivide do HandleZeroDivide;
on EOverflow do HandleOverflow;
on EMathError do HandleMathError;
else
HandleAllOthers;
end;
end." = some [r!"."] := by krfl

/-- line 321 -/
example : rtProgram r!"PROGRAM ExceptionBlockHandlerWithIdent;
type Exception = Error;
begin
try
DoSomething;
except
on E: Exception do ErrorDialog(E.Message, E.HelpContext);
end;
end." = some [r!"."] := by krfl


/-! ## `parser/parsertest/statement_tests/try_finally_stmt_test.go` -/

/-- line 27 -/
example : rtProgram r!"PROGRAM TryFinallyStmtTest;
begin
Reset(F);
try
ProcessFile(F);
finally
CloseFile(F);
end;
end." = some [r!"."] := by krfl


/-! ## `parser/parsertest/statement_tests/while_stmt_test.go` -/

/-- line 14 -/
example : rtStmt r!"while Data[I] <> X do I := I + 1;" = some [r!";"] := by krfl

/-- line 51 -/
example : rtStmt r!"while I > 0 do
begin
if Odd(I) then Z := Z * X;
I := I div 2;
X := Sqr(X);
end;" = some [r!";"] := by krfl

/-- line 130 -/
example : rtStmt r!"while not Eof(InputFile) do
begin
Readln(InputFile, Line);
Process(Line);
end;" = some [r!";"] := by krfl


/-! ## `parser/parsertest/statement_tests/with_stmt_test.go` -/

/-- line 21 -/
example : rtProgram r!"PROGRAM WithExample1;
var OrderDate: TDate;
begin
with OrderDate do
if Month = 12 then begin
Month := 1;
Year := Year + 1;
end
else
Month := Month + 1;
end." = some [r!"."] := by krfl


/-! ## `parser/parsertest/unit_test/unit_test.go` -/

/-- line 24 -/
example : rtUnit r!"UNIT U1;
interface
implementation
end." = some [r!"."] := by krfl

/-- line 57 -/
example : rtUnit r!"UNIT U1;
interface
implementation
initialization
Readln;
end." = some [r!"."] := by krfl

/-- line 68 -/
example : rtUnit r!"UNIT U1;
interface
implementation
initialization
Readln
end." = some [r!"."] := by krfl

/-- line 79 -/
example : rtUnit r!"UNIT U1;
interface
procedure CountUp;
implementation

var cnt: integer;
procedure CountUp;
begin
cnt := cnt + 1;
end;

end." = some [r!"."] := by krfl

/-- line 156 -/
example : rtUnit r!"UNIT U1;
interface
procedure Process;
implementation
uses networks;
procedure Process;
begin
Ping;
end;

initialization
SetupNetwork;

finalization
TeardownNetwork;

end." = some [r!"."] := by krfl

/-- line 254 -/
example : rtUses r!"INTERFACE USES U1,U2,U3;" = some [] := by krfl

end TP.Tests
