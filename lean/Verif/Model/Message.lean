import Verif.Model.Types

/-!
# Model of the checks of the parser and of the text of their errors

`Validate`, `TokenErrorf`, `PlaceString` (`parser/base.go`), `Directives`, `PortabilityDirectives` (`token/directives.go`),
`Clone`, `ValueAbbr` (`token/token.go`), `PredicatorBy` (`token/predicate.go`).
-/

namespace TP

/-! ## `fmt.Sprintf` with strings -/

/-- the end of `fmt.Sprintf`: arguments that no verb has used -/
def fmtExtra : List Str → Str
  | [] => []
  | a :: as => r!"%!(EXTRA string=" ++ a ++ as.flatMap (fun b => r!", string=" ++ b) ++ r!")"

/-- `fmt.Sprintf(format, args...)` where all arguments are strings.  A verb is the rune behind the percent sign: flags, widths
and explicit argument numbers are not modelled, and of the verbs that print strings only `%s` is. -/
def sprintf : Str → List Str → Str
  | [], args => fmtExtra args
  | '%' :: [], args => r!"%!(NOVERB)" ++ fmtExtra args
  | '%' :: '%' :: f, args => '%' :: sprintf f args
  | '%' :: v :: f, [] => r!"%!" ++ v :: r!"(MISSING)" ++ sprintf f []
  | '%' :: v :: f, a :: args => (if v = 's' then a else r!"%!" ++ v :: r!"(string=" ++ a ++ r!")") ++ sprintf f args
  | c :: f, args => c :: sprintf f args

/-! ## Errors -/

/-- `%d` -/
def decimal (n : Int) : Str := (toString n).toList

/-- `PlaceString`, `parser/base.go:124-126`; `path` is the path of the context -/
def placeString (path : Str) (t : Token) : Str :=
  path ++ r!":" ++ decimal t.start.line ++ r!":" ++ decimal t.start.col

/-- the text of the error of `TokenErrorf`, `parser/base.go:118-122`, with strings as arguments -/
def tokenErrorf (path format : Str) (t : Token) (args : List Str) : Str :=
  sprintf (format ++ r!" at %s") (t.raw :: (args ++ [placeString path t]))

/-- a `Predicator` with its name, `token/predicate.go:10-13` -/
structure NPred where
  name : Str
  pred : Pred

/-- the loop of `Validate`, `parser/base.go:68-72` -/
def validateAll (path : Str) (t : Token) : List NPred → Option Str
  | [] => none
  | p :: ps =>
    if p.pred t then validateAll path t ps
    else some (tokenErrorf path (r!"expects " ++ p.name ++ r!" but was %s") t [])

/-- the text of the error of `Validate`, `parser/base.go:64-74`; nil if there is none -/
def validate (path : Str) (t : Option Token) (ps : List NPred) : Option Str :=
  match t with
  | none => some r!"something wrong, token is nil"
  | some t => validateAll path t ps

/-! ## Predicates and tokens -/

namespace Pred
/-- `PredicatorBy`, `token/predicate.go:105-112` -/
def by_ (u : Uni) (fn : Str → Bool) : Pred := fun t => fn (u.toUpper (t.value u))
/-- `Directives` and `PortabilityDirectives`, `token/directives.go:26-33, 37-44`, with the known names; none is a panic -/
def directives (u : Uni) (known names : List Str) : Option Pred :=
  if names.all known.contains then Option.some (directive u names) else Option.none
end Pred

/-- `ValueAbbr`, `token/token.go:52-60`, for tokens and numbers for which the slice is inside of the text -/
def Token.valueAbbr (u : Uni) (t : Token) (n : Nat) : Str :=
  if t.len < n then t.value u else (t.text.drop t.start.index).take n ++ r!"..."

/-- the fields of a `Position` at an address -/
abbrev PosHeap := List Pos

/-- a `Token` whose positions are addresses, `token/token.go:10-15` -/
structure TokenP where
  typ : TType
  text : Str
  start : Nat
  stop : Nat

/-- `(*Token).Clone`, `token/token.go:21-28`, with `(*Position).Clone`, `runes/position.go:32-35`; none is a nil dereference -/
def TokenP.clone (h : PosHeap) (t : TokenP) : Option (PosHeap × TokenP) :=
  match h[t.start]?, h[t.stop]? with
  | some a, some b => some (h ++ [a, b], { t with start := h.length, stop := h.length + 1 })
  | _, _ => none

/-- the token that is seen at a time -/
def TokenP.read (h : PosHeap) (t : TokenP) : Option Token :=
  match h[t.start]?, h[t.stop]? with
  | some a, some b => some ⟨t.typ, t.text, a, b⟩
  | _, _ => none

end TP
