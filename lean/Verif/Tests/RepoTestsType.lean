import Verif.Tests.RepoTestsExpr

/-! The texts of the tests of the repository, see `Verif/Tests/RepoTests.lean`. -/

namespace TP.Tests
open TP.Props

/-! ## `parser/parsertest/type_class_ref_test.go` -/

/-- line 16 -/
example : rtBlock r!"type TClass = class of TObject;" = some [] := by krfl

/-- line 27 -/
example : rtBlock r!"type
TFigure = class
end;
TFigureClass = class of TFigure;" = some [] := by krfl


/-! ## `parser/parsertest/type_class_test.go` -/

/-- line 17 -/
example : rtBlock r!"type
TMemoryStream = class(TCustomMemoryStream)
private
FCapacity: Longint;
procedure SetCapacity(NewCapacity: Longint);
protected
function Realloc(var NewCapacity: Longint): Pointer; virtual;
property Capacity: Longint read FCapacity write SetCapacity;
public
destructor Destroy; override;
procedure Clear;
procedure LoadFromStream(Stream: TStream);
procedure LoadFromFile(const FileName: string);
procedure SetSize(NewSize: Longint); override;
function Write(const Buffer; Count: Longint): Longint; override;
end;" = some [] := by krfl

/-- line 176 -/
example : rtBlock r!"type TSomeControl = class(TControl);" = some [] := by krfl

/-- line 189 -/
example : rtBlock r!"type
TFigure = class(TObject);
TRectangle = class(TFigure);
TSquare = class(TRectangle);" = some [] := by krfl

/-- line 234 -/
example : rtBlock r!"type
TFigure = class; // forward declaration
TDrawing = class
Figure: TFigure;
end;
TFigure = class // defining declaration
Drawing: TDrawing;
end;" = some [] := by krfl

/-- line 297 -/
example : rtBlock r!"type
TArrayPropExample1 = class
private
function GetObject(Index: Integer): TObject;
function GetPixel(X, Y: Integer): TColor;
function GetValue(const Name: string): string;
procedure SetObject(Index: Integer; Value: TObject);
procedure SetPixel(X, Y: Integer; Value: TColor);
procedure SetValue(const Name, Value: string);
public
property Objects[Index: Integer]: TObject read GetObject write SetObject;
property Pixels[X, Y: Integer]: TColor read GetPixel write SetPixel;
property Values[const Name: string]: string read GetValue write SetValue;
end;" = some [] := by krfl

/-- line 452 -/
example : rtBlock r!"type
TRectangle = class
private
FCoordinates: array[0..3] of Longint;
function GetCoordinate(Index: Integer): Longint;
procedure SetCoordinate(Index: Integer; Value: Longint);
public
property Left: Longint index 0 read GetCoordinate write SetCoordinate;
property Top: Longint index 1 read GetCoordinate write SetCoordinate;
property Right: Longint index 2 read GetCoordinate write SetCoordinate;
property Bottom: Longint index 3 read GetCoordinate write SetCoordinate;
property Coordinates[Index: Integer]: Longint read GetCoordinate write SetCoordinate;
end;" = some [] := by krfl

/-- line 595 -/
example : rtBlock r!"type
TAncestor = class
protected
FSize: Integer;
private
function GetText: string;
procedure SetText(const Value: string);
private
FColor: TColor;
procedure SetColor(Value: TColor);
protected
property Size: Integer read FSize;
property Text: string read GetText write SetText;
property Color: TColor read FColor write SetColor stored False;
end;

TDerived = class(TAncestor)
private
procedure SetSize(const Value: Integer);
protected
property Size write SetSize;
published
property Text;
property Color stored True default clBlue;
end;" = some [] := by krfl


/-! ## `parser/parsertest/type_pointer_test.go` -/

/-- line 14 -/
example : rtBlock r!"var
X, Y: Integer;
P: ^Integer;
begin
X := 17;
P := @X;
Y := P^;
end;" = some [r!";"] := by krfl

/-- line 74 -/
example : rtBlock r!"type
PInteger = ^Integer;
var
R: Single;
I: Integer;
P: Pointer;
PI: PInteger;
begin
P := @R;
PI := PInteger(P);
I := PI^;
end;" = some [r!";"] := by krfl

/-- line 160 -/
example : rtBlock r!"var
MyArray: array[0..32] of Char;
MyPointer: PChar;
begin
MyArray := 'Hello';
MyPointer := MyArray;
SomeProcedure(MyArray);
SomeProcedure(MyPointer);
end;" = some [r!";"] := by krfl

/-- line 228 -/
example : rtBlock r!"type
PGUID = ^TGUID;
TGUID = packed record
D1: Longword;
D2: Word;
D3: Word;
D4: array[0..7] of Byte;
end;" = some [] := by krfl


/-! ## `parser/parsertest/type_procedure_test.go` -/

/-- line 14 -/
example : rtBlock r!"var F: function(X,Y: Integer): Integer;" = some [] := by krfl

/-- line 31 -/
example : rtUnit r!"UNIT U1;
interface
type
TIntegerFunction = function: Integer;
TProcedure = procedure;
TStrProc = procedure(const S: string);
TMathFunc = function(X: Double): Double;
var
F: TIntegerFunction;
Proc: TProcedure;
SP: TStrProc;
M: TMathFunc;

procedure FuncProc(P: TIntegerFunction);

implementation
end." = some [r!"."] := by krfl

/-- line 119 -/
example : rtUnit r!"UNIT U1;
interface
type
TStrProc1 = procedure(S: string);
TStrProc2 = procedure(S: string);

procedure Proc1(S: string);
procedure Proc2(S: string);

implementation

procedure Proc1(S: string);
begin
Writeln(S);
end;

procedure Proc2(S: string);
begin
Writeln(S);
end;

end." = some [r!"."] := by krfl

/-- line 256 -/
example : rtBlock r!"type
TMethod = procedure of object;
TNotifyEvent = procedure(Sender: TObject) of object;" = some [] := by krfl


/-! ## `parser/parsertest/type_simple_test.go` -/

/-- line 13 -/
example : rtType r!"(Club, Diamond, Heart, Spade)" = some [] := by krfl

/-- line 24 -/
example : rtType r!"(Small = 5, Medium = 10, Large = Small + Medium)" = some [] := by krfl

/-- line 53 -/
example : rtType r!"Green..White" = some [] := by krfl

/-- line 61 -/
example : rtType r!"-128..127" = some [] := by krfl

/-- line 66 -/
example : rtType r!"'A'..'Z'" = some [] := by krfl


/-! ## `parser/parsertest/type_string_test.go` -/

/-- line 17 -/
example : rtType r!"STRING" = some [] := by krfl

/-- line 18 -/
example : rtType r!"ANSISTRING" = some [] := by krfl

/-- line 19 -/
example : rtType r!"WIDESTRING" = some [] := by krfl

/-- line 20 -/
example : rtType r!"STRING[100]" = some [] := by krfl

/-- line 26 -/
example : rtType r!"STRING[ALen + BLen]" = some [] := by krfl


/-! ## `parser/parsertest/type_struc_array_test.go` -/

/-- line 16 -/
example : rtType r!"array[1..100] of Char" = some [] := by krfl

/-- line 30 -/
example : rtType r!"array[1..10] of array[1..50] of Real" = some [] := by krfl

/-- line 52 -/
example : rtType r!"array[1..10, 1..50] of Real" = some [] := by krfl

/-- line 84 -/
example : rtBlock r!"type TShoeSize = 24..27; T = packed array[Boolean,1..10,TShoeSize] of Integer;" = some [] := by krfl

/-- line 105 -/
example : rtBlock r!"type TShoeSize = 24..27; T = packed array[Boolean] of packed array[1..10] of packed array[TShoeSize] of Integer;" = some [] := by krfl

/-- line 136 -/
example : rtType r!"array of Real" = some [] := by krfl

/-- line 145 -/
example : rtType r!"array of array of string" = some [] := by krfl


/-! ## `parser/parsertest/type_struc_file_test.go` -/

/-- line 35 -/
example : rtBlock r!"type
PhoneEntry = record
FirstName, LastName: string[20];
PhoneNumber: string[15];
Listed: Boolean;
end;
PhoneList = file of PhoneEntry;" = some [] := by krfl


/-! ## `parser/parsertest/type_struc_rec_test.go` -/

/-- line 13 -/
example : rtType r!"record
Year: Integer;
Month: (Jan, Feb, Mar, Apr, May, Jun,
Jul, Aug, Sep, Oct, Nov, Dec);
Day: 1..31;
end" = some [r!"end"] := by krfl

/-- line 59 -/
example : rtType r!"record
Name: string;
Age: Integer;
end" = some [r!"end"] := by krfl

/-- line 83 -/
example : rtType r!"record
FirstName, LastName: string[40];
BirthDate: TDate;
case Salaried: Boolean of
True: (AnnualSalary: Currency);
False: (HourlyWage: Currency);
end" = some [r!"end"] := by krfl

/-- line 138 -/
example : rtType r!"record
FirstName, LastName: string[40];
BirthDate: TDate;
case Citizen: Boolean of
True: (Birthplace: string[40]);
False: (Country: string[20];
EntryPort: string[20];
EntryDate, ExitDate: TDate);
end" = some [r!"end"] := by krfl

/-- line 212 -/
example : rtBlock r!"type
TShapeList = (Rectangle, Triangle, Circle, Ellipse, Other);
TFigure = record
case TShapeList of
Rectangle: (Height, Width: Real);
Triangle: (Side1, Side2, Angle: Real);
Circle: (Radius: Real);
Ellipse, Other: ();
end;" = some [] := by krfl


/-! ## `parser/parsertest/type_struc_set_test.go` -/

/-- line 30 -/
example : rtBlock r!"type TSomeInts = 1..250; T = set of TSomeInts;" = some [] := by krfl

/-- line 42 -/
example : rtType r!"set of 1..250" = some [] := by krfl

/-- line 53 -/
example : rtType r!"set of 'a'..'z'" = some [] := by krfl

/-- line 64 -/
example : rtType r!"set of Byte" = some [] := by krfl

/-- line 72 -/
example : rtType r!"set of (Club, Diamond, Heart, Spade)" = some [] := by krfl

/-- line 85 -/
example : rtType r!"set of Char" = some [] := by krfl


/-! ## `parser/parsertest/type_test.go` -/

/-- line 16 -/
example : rtUnit r!"UNIT Unit1;
INTERFACE
USES Unit2;
TYPE
TTypeId1 = TType1;
TTypeId2 = Unit2.TType2;
IMPLEMENTATION
END." = some [r!"."] := by krfl

/-- line 42 -/
example : rtUnit r!"UNIT Unit1;
INTERFACE
USES Unit2;
TYPE
TTypeId1 = TType1;
TTypeId2 = Unit2.TType2;
TYPE
TMyInteger1 = INTEGER;
TMyReal1 = REAL;
TMyString1 = STRING;
TMyString2 = ANSISTRING;
TMyEnumerated1 = (tsClick, tsClack, tsClock);
TMySubrange1 = tsClick..tsClack;
TMySubrange2 = -128..127;
TMySubrange3 = 'A'..'Z';
IMPLEMENTATION
END." = some [r!"."] := by krfl

/-- line 97 -/
example : rtBlock r!"TYPE TTypeId1 = TType1;" = some [] := by krfl

/-- line 104 -/
example : rtBlock r!"TYPE TTypeId1 = TType1;
TTypeId2 = (tsClick, tsClack, tsClock);" = some [] := by krfl

/-- line 117 -/
example : rtBlock r!"TYPE TRealType1 = REAL;" = some [] := by krfl

/-- line 127 -/
example : rtBlock r!"TYPE
TMyInteger1 = INTEGER;
TMyString1 = STRING;
TMyReal1 = REAL;" = some [] := by krfl

/-- line 177 -/
example : rtTypeDecl r!"TTypeId1 = TType1" = some [] := by krfl

/-- line 186 -/
example : rtTypeDecl r!"TTypeId1 = U1.TType1" = some [r!"TType1"] := by krfl

/-- line 197 -/
example : rtTypeDecl r!"TTypeId1 = TYPE TType1" = some [] := by krfl

/-- line 222 -/
example : rtType r!"TType1" = some [] := by krfl

/-- line 228 -/
example : rtType r!"U1.TType1" = some [r!".", r!"TType1"] := by krfl

/-- line 241 -/
example : rtType r!"INTEGER" = some [] := by krfl

/-- line 242 -/
example : rtType r!"CARDINAL" = some [] := by krfl

/-- line 243 -/
example : rtType r!"SHORTINT" = some [] := by krfl

/-- line 244 -/
example : rtType r!"SMALLINT" = some [] := by krfl

/-- line 245 -/
example : rtType r!"LONGINT" = some [] := by krfl

/-- line 246 -/
example : rtType r!"INT64" = some [] := by krfl

/-- line 247 -/
example : rtType r!"BYTE" = some [] := by krfl

/-- line 248 -/
example : rtType r!"WORD" = some [] := by krfl

/-- line 249 -/
example : rtType r!"LONGWORD" = some [] := by krfl

/-- line 250 -/
example : rtType r!"CHAR" = some [] := by krfl

/-- line 251 -/
example : rtType r!"ANSICHAR" = some [] := by krfl

/-- line 252 -/
example : rtType r!"WIDECHAR" = some [] := by krfl

/-- line 253 -/
example : rtType r!"BOOLEAN" = some [] := by krfl

/-- line 255 -/
example : rtType r!"REAL48" = some [] := by krfl

/-- line 256 -/
example : rtType r!"REAL" = some [] := by krfl

/-- line 257 -/
example : rtType r!"SINGLE" = some [] := by krfl

/-- line 258 -/
example : rtType r!"DOUBLE" = some [] := by krfl

/-- line 259 -/
example : rtType r!"EXTENDED" = some [] := by krfl

/-- line 260 -/
example : rtType r!"CURRENCY" = some [] := by krfl

/-- line 261 -/
example : rtType r!"COMP" = some [] := by krfl


/-! ## `parser/parsertest/type_variant_test.go` -/

/-- line 14 -/
example : rtBlock r!"var
V1, V2, V3, V4, V5: Variant;
I: Integer;
D: Double;
S: string;
begin
V1 := 1; { integer value }
V2 := 1234.5678; { real value }
V3 := 'Hello world!'; { string value }
V4 := '1000'; { string value }
V5 := V1 + V2 + V4; { real value 2235.5678}
I := V1; { I = 1 (integer value) }
D := V2; { D = 1234.5678 (real value) }
S := V3; { S = 'Hello world!' (string value) }
I := V4; { I = 1000 (integer value) }
S := V5; { S = '2235.5678' (string value) }
end;" = some [r!";"] := by krfl


end TP.Tests
