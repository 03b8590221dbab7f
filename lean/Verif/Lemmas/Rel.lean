import Verif.Spec.Canon
import Mathlib.Data.List.Forall2
import Mathlib.Data.Option.Basic

/-!
# Two runs of the parser side by side

`PR K A p q`: if the runs `p` and `q` start with tokens that cannot be told apart and contexts related by `K`, then `p` does
not return, or both end in the same way, with results related by `A` and in states that are again related.
-/

namespace TP
open Spec

variable {κ₁ κ₂ δ₁ δ₂ ε : Type}

/-- texts the parser compares the value of a token with -/
def Fixed (c : Str) : Prop := c ∈ reservedWords ∨ c ∈ [r!":=", r!"..", r!"@", r!"[", r!"(", r!".", r!"^"]

instance (c : Str) : Decidable (Fixed c) := inferInstanceAs (Decidable (_ ∨ _))

/-- The tokens cannot be told apart by the parser, and leave the same traces in trees. -/
structure TokR (u : Uni) (nm : Str → Str → Prop) (m₁ : Tr δ₁ ε) (m₂ : Tr δ₂ ε) (a b : Token) : Prop where
  typ : a.typ = b.typ
  fix : ∀ c, Fixed c → (a.value u = c ↔ b.value u = c)
  up : u.toUpper a.raw = u.toUpper b.raw
  low : u.toLower a.raw = u.toLower b.raw
  sym : a.typ = .symbol → a.raw = b.raw
  lit : a.typ = .charString → a.raw = b.raw
  id : m₁.id (Ident.ofTok a) = m₂.id (Ident.ofTok b)
  str : m₁.str (a.value u) = m₂.str (b.value u)
  raw : nm a.raw b.raw
  val : nm (a.value u) (b.value u)

section
variable (u : Uni) (nm : Str → Str → Prop) (m₁ : Tr δ₁ ε) (m₂ : Tr δ₂ ε)

def TailR : Tail → Tail → Prop
  | .eof x p, .eof y q => TokR u nm m₁ m₂ (eofTok x p) (eofTok y q)
  | .nil, .nil => True
  | .hang, .hang => True
  | _, _ => False

/-- The tokens to come cannot be told apart.  If `w` holds the first stream may be cut off: the call that would read on does not
return. -/
inductive StrR (w : Prop) : List Token → Tail → List Token → Tail → Prop
  | nil {tl tl' : Tail} (h : TailR u nm m₁ m₂ tl tl') : StrR w [] tl [] tl'
  | cut {ts : List Token} {tl : Tail} (h : w) : StrR w [] .hang ts tl
  | cons {a b : Token} {l l' : List Token} {tl tl' : Tail} (h : TokR u nm m₁ m₂ a b) (h' : StrR w l tl l' tl') : StrR w (a :: l) tl (b :: l') tl'

/-- the states are related -/
structure SR (w : Prop) (K : κ₁ → κ₂ → Prop) (s : PS κ₁) (t : PS κ₂) : Prop where
  ts : StrR u nm m₁ m₂ w s.ts s.tail t.ts t.tail
  cx : K s.cx t.cx

/-- the results are related -/
def RR (w : Prop) (K : κ₁ → κ₂ → Prop) {α β : Type} (A : α → β → Prop) : R (PS κ₁) α → R (PS κ₂) β → Prop
  | .wait, _ => True
  | .ok a s, .ok b t => A a b ∧ SR u nm m₁ m₂ w K s t
  | .err, .err => True
  | .panic, .panic => True
  | _, _ => False

def PR (w : Prop) (K : κ₁ → κ₂ → Prop) {α β : Type} (A : α → β → Prop) (p : P κ₁ α) (q : P κ₂ β) : Prop :=
  ∀ s t, SR u nm m₁ m₂ w K s t → RR u nm m₁ m₂ w K A (p s) (q t)
end

variable {u : Uni} {nm : Str → Str → Prop} {m₁ : Tr δ₁ ε} {m₂ : Tr δ₂ ε} {w : Prop} {K : κ₁ → κ₂ → Prop}
variable {α α' β β' : Type} {A : α → β → Prop} {B : α' → β' → Prop}

local notation "TT" => TokR u nm m₁ m₂

/-- the predicate cannot tell them apart -/
class Resp (u : Uni) (nm : Str → Str → Prop) (m₁ : Tr δ₁ ε) (m₂ : Tr δ₂ ε) (pred : Pred) : Prop where
  eq : ∀ a b, TokR u nm m₁ m₂ a b → pred a = pred b

theorem TokR.upv {a b : Token} (h : TT a b) : u.toUpper (a.value u) = u.toUpper (b.value u) := by
  unfold Token.value
  rw [← h.typ]
  split
  · rw [h.up]
  · exact h.up

theorem TokR.lowv {a b : Token} (h : TT a b) : u.toLower (a.value u) = u.toLower (b.value u) := by
  unfold Token.value
  rw [← h.typ]
  split
  · rw [h.up]
  · exact h.low

theorem TokR.isFix {a b : Token} (h : TT a b) {c : Str} (hc : Fixed c := by decide) : (a.value u = c) = (b.value u = c) :=
  propext (h.fix c hc)

instance resp_sym (s : Str) : Resp u nm m₁ m₂ (sym s) := ⟨fun a b h => by
  unfold TP.sym Pred.symbol
  rw [← h.typ]
  by_cases c : a.typ = .symbol
  · rw [h.sym c]
  · simp [c]⟩

instance resp_kw (s : Str) : Resp u nm m₁ m₂ (kw u s) := ⟨fun a b h => by
  unfold kw
  rw [← h.typ]
  by_cases c : a.typ = .reserved
  · have : a.value u = b.value u := by
      unfold Token.value
      rw [← h.typ, c]; exact h.up
    rw [this]
  · have : (a.typ == .reserved) = false := by simpa using c
    rw [this]; rfl⟩

instance resp_hasText (s : Str) : Resp u nm m₁ m₂ (Pred.hasText u .symbol s) := ⟨fun a b h => by
  unfold Pred.hasText
  rw [← h.typ]
  by_cases c : a.typ = .symbol
  · have : a.value u = b.value u := by
      unfold Token.value
      rw [← h.typ, c]; exact h.sym c
    rw [this]
  · have : (a.typ == .symbol) = false := by simpa using c
    rw [this]; rfl⟩

instance resp_typ (ty : TType) : Resp u nm m₁ m₂ (Pred.typ ty) := ⟨fun a b h => by unfold Pred.typ; rw [h.typ]⟩

instance resp_upper (s : Str) : Resp u nm m₁ m₂ (Pred.upperCase u s) := ⟨fun a b h => by unfold Pred.upperCase; rw [h.upv]⟩

instance resp_directive (l : List Str) : Resp u nm m₁ m₂ (Pred.directive u l) := ⟨fun a b h => by unfold Pred.directive; rw [h.up]⟩

theorem resp_value {s : Str} (hs : Fixed s) : Resp u nm m₁ m₂ (Pred.value u s) := ⟨fun a b h => by
  unfold Pred.value
  rw [Bool.eq_iff_iff]
  simpa using h.fix s hs⟩

instance : Resp u nm m₁ m₂ (Pred.value u r!"..") := resp_value (by decide)

instance resp_not {p : Pred} [h : Resp u nm m₁ m₂ p] : Resp u nm m₁ m₂ (Pred.not p) := ⟨fun a b g => by
  unfold Pred.not; rw [h.eq a b g]⟩

class RespAll (u : Uni) (nm : Str → Str → Prop) (m₁ : Tr δ₁ ε) (m₂ : Tr δ₂ ε) (ps : List Pred) : Prop where
  eq : ∀ p ∈ ps, Resp u nm m₁ m₂ p

instance : RespAll u nm m₁ m₂ [] := ⟨fun _ h => by cases h⟩
instance {p : Pred} {ps : List Pred} [h : Resp u nm m₁ m₂ p] [g : RespAll u nm m₁ m₂ ps] : RespAll u nm m₁ m₂ (p :: ps) :=
  ⟨fun q hq => by
    rcases List.mem_cons.1 hq with rfl | hq
    · exact h
    · exact g.eq q hq⟩

instance resp_some {ps : List Pred} [h : RespAll u nm m₁ m₂ ps] : Resp u nm m₁ m₂ (Pred.some ps) := ⟨fun a b g => by
  unfold Pred.some
  rw [Bool.eq_iff_iff, List.any_eq_true, List.any_eq_true]
  constructor <;> rintro ⟨p, hp, e⟩ <;> refine ⟨p, hp, ?_⟩
  · rw [← (h.eq p hp).eq a b g]; exact e
  · rw [(h.eq p hp).eq a b g]; exact e⟩

instance : Resp u nm m₁ m₂ (relOp u) := by unfold relOp; infer_instance
instance : Resp u nm m₁ m₂ unaryOp := by unfold unaryOp; infer_instance
instance : Resp u nm m₁ m₂ (addOp u) := by unfold addOp; infer_instance
instance : Resp u nm m₁ m₂ (mulOp u) := by unfold mulOp; infer_instance
instance : Resp u nm m₁ m₂ (tryEnd u) := by unfold tryEnd; infer_instance
instance : Resp u nm m₁ m₂ (visibilityBreak u) := by unfold visibilityBreak; infer_instance
instance : Resp u nm m₁ m₂ (propertyBreak u) := by unfold propertyBreak; infer_instance
instance : Resp u nm m₁ m₂ (methodBreak u) := by unfold methodBreak; infer_instance
instance : Resp u nm m₁ m₂ (fieldListBreak u) := by unfold fieldListBreak; infer_instance
instance : Resp u nm m₁ m₂ sectionEnd := by unfold sectionEnd; infer_instance

namespace PR

local notation "PP" => PR u nm m₁ m₂ w K

theorem bind {p : P κ₁ α} {q : P κ₂ β} {f : α → P κ₁ α'} {g : β → P κ₂ β'} (h : PP A p q) (h' : ∀ a b, A a b → PP B (f a) (g b)) :
    PP B (p >>= f) (q >>= g) := by
  intro s t hs
  have := h s t hs
  change RR u nm m₁ m₂ w K B (P.bind p f s) (P.bind q g t)
  unfold P.bind
  cases hp : p s with
  | wait => exact trivial
  | err => rw [hp] at this; cases hq : q t <;> rw [hq] at this <;> first | exact trivial | exact this.elim
  | panic => rw [hp] at this; cases hq : q t <;> rw [hq] at this <;> first | exact trivial | exact this.elim
  | ok a s' =>
    rw [hp] at this
    cases hq : q t <;> rw [hq] at this <;> try exact this.elim
    rename_i b t'
    exact h' a b this.1 s' t' this.2

theorem pure {a : α} {b : β} (h : A a b) : PP A (Pure.pure a) (Pure.pure b) := fun _ _ hs => ⟨h, hs⟩
theorem fail : PP A P.fail P.fail := fun _ _ _ => trivial
theorem wait {q : P κ₂ β} : PP A P.wait q := fun _ _ _ => trivial
theorem panic : PP A P.panic P.panic := fun _ _ _ => trivial

theorem mono {A' : α → β → Prop} {p : P κ₁ α} {q : P κ₂ β} (h : PP A p q) (h' : ∀ a b, A a b → A' a b) : PP A' p q := by
  intro s t hs
  have := h s t hs
  cases hp : p s with
  | wait => exact trivial
  | err => rw [hp] at this; cases hq : q t <;> rw [hq] at this <;> first | exact trivial | exact this.elim
  | panic => rw [hp] at this; cases hq : q t <;> rw [hq] at this <;> first | exact trivial | exact this.elim
  | ok a s' =>
    rw [hp] at this
    cases hq : q t <;> rw [hq] at this <;> try exact this.elim
    exact ⟨h' _ _ this.1, this.2⟩

theorem cur? : PP (Option.Rel TT) P.cur? P.cur? := by
  intro s t hs
  obtain ⟨ts, tl, cx⟩ := s
  obtain ⟨ts', tl', cx'⟩ := t
  cases hs.ts with
  | cons h _ => exact ⟨.some h, hs⟩
  | cut _ => exact trivial
  | nil h =>
    cases tl <;> cases tl' <;> try exact h.elim
    · exact ⟨.some h, hs⟩
    · exact ⟨.none, hs⟩
    · exact trivial

theorem cur : PP TT P.cur P.cur := by
  intro s t hs
  obtain ⟨ts, tl, cx⟩ := s
  obtain ⟨ts', tl', cx'⟩ := t
  cases hs.ts with
  | cons h _ => exact ⟨h, hs⟩
  | cut _ => exact trivial
  | nil h =>
    cases tl <;> cases tl' <;> try exact h.elim
    · exact ⟨h, hs⟩
    · exact trivial
    · exact trivial

theorem next : PP (fun _ _ => True) P.next P.next := by
  intro s t hs
  obtain ⟨ts, tl, cx⟩ := s
  obtain ⟨ts', tl', cx'⟩ := t
  cases hs.ts with
  | cut _ => exact trivial
  | nil h =>
    cases tl <;> cases tl' <;> try exact h.elim
    · exact ⟨trivial, hs⟩
    · exact ⟨trivial, hs⟩
    · exact trivial
  | cons _ hr =>
    cases hr with
    | cons h1 h2 => exact ⟨trivial, ⟨.cons h1 h2, hs.cx⟩⟩
    | cut _ => exact trivial
    | nil h =>
      cases tl <;> cases tl' <;> try exact h.elim
      · exact ⟨trivial, ⟨.nil h, hs.cx⟩⟩
      · exact ⟨trivial, ⟨.nil h, hs.cx⟩⟩
      · exact trivial

theorem is {pred : Pred} [h : Resp u nm m₁ m₂ pred] : PP Eq (P.is pred) (P.is pred) := by
  unfold P.is
  exact cur.bind fun a b hab => pure (h.eq a b hab)

theorem current {pred : Pred} [h : Resp u nm m₁ m₂ pred] :
    PP (fun a b => TokR u nm m₁ m₂ a b ∧ pred a = true ∧ pred b = true) (P.current pred) (P.current pred) := by
  unfold P.current
  refine cur?.bind fun a b hab => ?_
  cases hab with
  | none => exact fail
  | some hab =>
    rename_i a b
    show PR u nm m₁ m₂ w K _ (if pred a = true then _ else _) (if pred b = true then _ else _)
    rw [← h.eq a b hab]
    split
    · rename_i c
      exact pure ⟨hab, c, by rw [← h.eq a b hab]; exact c⟩
    · exact fail

theorem nextIs {pred : Pred} [h : Resp u nm m₁ m₂ pred] :
    PP (fun a b => TokR u nm m₁ m₂ a b ∧ pred a = true ∧ pred b = true) (P.nextIs pred) (P.nextIs pred) :=
  next.bind fun _ _ _ => current

theorem ite {c d : Prop} [Decidable c] [Decidable d] (h : c = d) {p p' : P κ₁ α} {q q' : P κ₂ β} (h1 : c → d → PP A p q)
    (h2 : ¬ c → ¬ d → PP A p' q') : PP A (if c then p else p') (if d then q else q') := by
  subst h
  by_cases g : c
  · rw [if_pos g, if_pos g]; exact h1 g g
  · rw [if_neg g, if_neg g]; exact h2 g g

theorem traced {p : P κ₁ α} {q : P κ₂ β} (h : PP A p q) : PP A (TP.traced p) (TP.traced q) := by
  unfold TP.traced
  exact cur.bind fun _ _ _ => h.bind fun _ _ hab => cur.bind fun _ _ _ => pure hab

theorem currentP {pred : Pred} [h : Resp u nm m₁ m₂ pred] :
    PP (fun a b => TokR u nm m₁ m₂ a b) (TP.currentP pred) (TP.currentP pred) := by
  unfold TP.currentP
  refine cur.bind fun a b hab => ?_
  refine ite (by rw [h.eq a b hab]) (fun _ _ => pure hab) (fun _ _ => fail)

end PR

/-- the results are the same after replacing leaves -/
@[reducible] def EqR {γ : Type} (f : α → γ) (g : β → γ) : α → β → Prop := fun a b => f a = g b

/-- the declarations are the same, for some identifiers that refer to them -/
def SameD (m₁ : Tr δ₁ ε) (m₂ : Tr δ₂ ε) (d : δ₁) (e : δ₂) : Prop := ∃ i j, m₁.decl i d = m₂.decl j e

/-- `a` is the text under which something is looked up for the token -/
def SoughtAs (u : Uni) (t : Token) (a : Str) : Prop := a = t.raw ∨ a = t.value u ∨ a = u.toLower (t.value u)

/-- the declarations found under the names `a` and `b` are the same, for identifiers with such names -/
structure DeclR (u : Uni) (nm : Str → Str → Prop) (m₁ : Tr δ₁ ε) (m₂ : Tr δ₂ ε) (a b : Str) (d : δ₁) (e : δ₂) : Prop where
  same : SameD m₁ m₂ d e
  refer : ∀ t t', TokR u nm m₁ m₂ t t' → SoughtAs u t a → SoughtAs u t' b → m₁.decl (Ident.ofTok t) d = m₂.decl (Ident.ofTok t') e

theorem SoughtAs.raw {t : Token} : SoughtAs u t t.raw := .inl rfl
theorem SoughtAs.val {t : Token} : SoughtAs u t (t.value u) := .inr (.inl rfl)
theorem SoughtAs.low {t : Token} : SoughtAs u t (u.toLower (t.value u)) := .inr (.inr rfl)

theorem TokR.isTyp {a b : Token} (h : TT a b) {c : TType} : (a.typ = c) = (b.typ = c) := by rw [h.typ]

theorem TokR.isNum {a b : Token} (h : TT a b) {c d : TType} : (a.typ = c ∨ a.typ = d) = (b.typ = c ∨ b.typ = d) := by rw [h.typ]

theorem TokR.isFix2 {a b : Token} (h : TT a b) {c d : Str} (hc : Fixed c := by decide) (hd : Fixed d := by decide) :
    (a.value u = c ∨ a.value u = d) = (b.value u = c ∨ b.value u = d) := by rw [h.isFix hc, h.isFix hd]

theorem TokR.isPred {a b : Token} (h : TT a b) {p : Pred} [g : Resp u nm m₁ m₂ p] : (p a = true) = (p b = true) := by
  rw [g.eq a b h]

theorem TokR.isManifest {a b : Token} (h : TT a b) :
    (TP.isManifest u (a.value u) = true) = (TP.isManifest u (b.value u) = true) := by
  unfold TP.isManifest; rw [h.upv]

/-- what is needed of a context by the parser of expressions -/
structure ESim (u : Uni) (nm : Str → Str → Prop) (m₁ : Tr δ₁ ε) (m₂ : Tr δ₂ ε) (K : κ₁ → κ₂ → Prop) (E₁ : Env κ₁ δ₁)
    (E₂ : Env κ₂ δ₂) : Prop where
  get : ∀ {k l a b}, K k l → nm a b → Option.Rel (DeclR u nm m₁ m₂ a b) (E₁.get k a) (E₂.get l b)
  isType : ∀ {d e}, SameD m₁ m₂ d e → E₁.isType d = E₂.isType e
  isNamespace : ∀ {d e}, SameD m₁ m₂ d e → E₁.isNamespace d = E₂.isNamespace e
  isUses : ∀ {d e}, SameD m₁ m₂ d e → E₁.isUses d = E₂.isUses e
  member : ∀ {k l d e a b}, K k l → SameD m₁ m₂ d e → nm a b →
    match E₁.member k d a, E₂.member l e b with
    | .found d, .found e => DeclR u nm m₁ m₂ a b d e
    | .error, .error => True
    | .panic, .panic => True
    | _, _ => False
  rollback : ∀ {k l}, K k l → K (E₁.rollback k) (E₂.rollback l)

syntax "rel_leaf" : tactic
macro_rules | `(tactic| rel_leaf) => `(tactic| assumption)
macro_rules | `(tactic| rel_leaf) => `(tactic| exact PR.cur)
macro_rules | `(tactic| rel_leaf) => `(tactic| exact PR.cur?)
macro_rules | `(tactic| rel_leaf) => `(tactic| exact PR.next)
macro_rules | `(tactic| rel_leaf) => `(tactic| exact PR.is)
macro_rules | `(tactic| rel_leaf) => `(tactic| exact PR.current)
macro_rules | `(tactic| rel_leaf) => `(tactic| exact PR.nextIs)

syntax "rel_cond" : tactic
macro_rules | `(tactic| rel_cond) => `(tactic| rfl)
macro_rules | `(tactic| rel_cond) => `(tactic| exact TokR.isTyp (by assumption))
macro_rules | `(tactic| rel_cond) => `(tactic| exact TokR.isNum (by assumption))
macro_rules | `(tactic| rel_cond) => `(tactic| exact TokR.isFix (by assumption))
macro_rules | `(tactic| rel_cond) => `(tactic| exact TokR.isFix2 (by assumption))
macro_rules | `(tactic| rel_cond) => `(tactic| exact TokR.isPred (by assumption))
macro_rules | `(tactic| rel_cond) => `(tactic| exact TokR.isManifest (by assumption))

/-- names the results of the first steps -/
syntax "rel_intro" : tactic
macro_rules | `(tactic| rel_intro) => `(tactic| intro a b hab)
macro_rules | `(tactic| rel_intro) => `(tactic| (intro a b hab; have hid := TokR.id hab; have hstr := TokR.str hab))
macro_rules | `(tactic| rel_intro) => `(tactic| (rintro a b ⟨hab, -, -⟩; have hid := TokR.id hab; have hstr := TokR.str hab))
macro_rules | `(tactic| rel_intro) => `(tactic| (intro a b hab; obtain ⟨hab⟩ | _ := (hab : Option.Rel (TokR _ _ _ _) a b)))
macro_rules | `(tactic| rel_intro) => `(tactic| (intro a b hab; subst hab))

/-- compares the final results -/
syntax "rel_done" : tactic
macro_rules | `(tactic| rel_done) => `(tactic| trivial)

syntax "rel_step" : tactic
macro_rules | `(tactic| rel_step) => `(tactic| first
  | exact PR.wait
  | exact PR.fail
  | exact PR.panic
  | (with_reducible refine PR.pure ?_; rel_done; done)
  | ((with_reducible apply PR.bind); rel_leaf; rel_intro)
  | ((with_reducible refine PR.ite ?hc (fun _ _ => ?_) (fun _ _ => ?_)); (case hc => rel_cond))
  | (rel_leaf; done))

/-- goes through two parsers step by step -/
macro "rel" : tactic => `(tactic| repeat' rel_step)

theorem StrR.of {l l' : List Token} {tl tl' : Tail} (h : List.Forall₂ TT l l') (h' : TailR u nm m₁ m₂ tl tl') :
    StrR u nm m₁ m₂ w l tl l' tl' := by
  induction h with
  | nil => exact .nil h'
  | cons h _ ih => exact .cons h ih

/-- streams that are not cut off -/
theorem StrR.whole {l l' : List Token} {tl tl' : Tail} (h : StrR u nm m₁ m₂ w l tl l' tl') (hw : ¬ w) :
    List.Forall₂ TT l l' ∧ TailR u nm m₁ m₂ tl tl' := by
  induction h with
  | nil h => exact ⟨.nil, h⟩
  | cut h => exact absurd h hw
  | cons h _ ih => exact ⟨.cons h ih.1, ih.2⟩

theorem StrR.append {l l' : List Token} (h : List.Forall₂ TT l l') (hw : w) (ts : List Token) (tl : Tail) :
    StrR u nm m₁ m₂ w l .hang (l' ++ ts) tl := by
  induction h with
  | nil => exact .cut hw
  | cons h _ ih => exact .cons h ih

section
variable {E₁ : Env κ₁ δ₁} {E₂ : Env κ₂ δ₂}

namespace PR

local notation "PP" => PR u nm m₁ m₂ w K

theorem getDecl (S : ESim u nm m₁ m₂ K E₁ E₂) {a b : Str} (h : nm a b) :
    PP (Option.Rel (DeclR u nm m₁ m₂ a b)) (TP.getDecl E₁ a) (TP.getDecl E₂ b) := fun _ _ hs => ⟨S.get hs.cx h, hs⟩

theorem rollbackPoint : PP (SR u nm m₁ m₂ w K) TP.rollbackPoint TP.rollbackPoint := by
  intro s t hs
  have := (cur (w := w) (K := K)) s t hs
  unfold TP.rollbackPoint
  cases hp : P.cur s with
  | wait => exact trivial
  | err => rw [hp] at this; cases hq : P.cur t <;> rw [hq] at this <;> first | exact trivial | exact this.elim
  | panic => rw [hp] at this; cases hq : P.cur t <;> rw [hq] at this <;> first | exact trivial | exact this.elim
  | ok a s' =>
    rw [hp] at this
    cases hq : P.cur t <;> rw [hq] at this <;> try exact this.elim
    exact ⟨hs, hs⟩

theorem rollbackTo (S : ESim u nm m₁ m₂ K E₁ E₂) {s0 : PS κ₁} {t0 : PS κ₂} (h : SR u nm m₁ m₂ w K s0 t0) :
    PP (fun _ _ => True) (TP.rollbackTo E₁ s0) (TP.rollbackTo E₂ t0) :=
  fun _ _ _ => ⟨trivial, h.ts, S.rollback h.cx⟩

/-- related options -/
theorem onOption {x : Option α'} {y : Option β'} (h : Option.Rel B x y) {p : P κ₁ α} {p' : P κ₂ β} {q : α' → P κ₁ α}
    {q' : β' → P κ₂ β} (h1 : PP A p p') (h2 : ∀ a b, B a b → PP A (q a) (q' b)) :
    PP A (match x with | none => p | some a => q a) (match y with | none => p' | some b => q' b) := by
  cases h with
  | none => exact h1
  | some h => exact h2 _ _ h

end PR
end

end TP
