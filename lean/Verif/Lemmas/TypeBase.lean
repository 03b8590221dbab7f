import Verif.Spec.Type
import Verif.Lemmas.StmtSound

/-!
# Steps of the parser of types
-/

namespace TP
open Spec

variable {κ δ : Type}

/-- What is fixed while types and declarations are parsed within one scope.  `I` holds of every context, `Good` of the
tokens left. -/
structure DStep (u : Uni) (D : DEnv κ δ) (I : κ → Prop) (Good : List Token → Prop) (tl : Tail) (Pp Pw : Prop) : Prop where
  roll : ∀ c, I c → I (D.rollback c)
  nil : tl = .nil → Pp
  hang : tl = .hang → Pw
  ns : ∀ c, I c → ∀ t1 t2 t3 ts d, Good (t1 :: t2 :: t3 :: ts) → t1.typ = .ident → IsSym r!"." t2 →
    D.get c t1.raw = some d → D.member c d t3.raw = .panic → Pp
  set : ∀ c, I c → ∀ is k, (∀ ty, k ≠ .type ty) → match D.set c is k with
    | .ok c' => I c'
    | .err => True
    | .panic => Pp
  newRef : ∀ c name, I c → I (D.newRef c name).1
  ordinal : ∀ c, I c → ∀ ty, D.ordinal c ty = none → Pw
  findMember : ∀ c, I c → ∀ h ms name, D.findMember c h ms name = .hang → Pw
  findProp : ∀ c, I c → ∀ h ms name, D.findProp c h ms name = .hang → Pw
  good : ∀ t ts, Good (t :: ts) → Good ts
  asm : ∀ t ts, Good (t :: ts) → IsKw u r!"ASM" t → (∀ x ∈ ts.tail, ¬ IsKw u r!"END" x) → Pw

/-- `J` holds where a scope opens in `c`, and gives `I` back after it -/
structure Nests (D : DEnv κ δ) (I : κ → Prop) (c : κ) (J : κ → Prop) : Prop where
  stack : J (D.stack c)
  restore : ∀ c', J c' → I (D.restore c c')

/-- `J` holds where a type section opens in `c`, and gives `I` back after it; `K l` holds when the types `l` have been declared
in the section -/
structure Sects' (D : DEnv κ δ) (I : κ → Prop) (c : κ) (J : κ → Prop) (K : List Ident → κ → Prop) : Prop where
  opens : J (D.openSection c)
  first : K [] (D.openSection c)
  closes : ∀ c', J c' → I (D.closeSection c (D.runSection c'))

/-- the tokens before a declaration of a type -/
def Begins (u : Uni) (Good : List Token → Prop) (ts : List Token) : Prop :=
  ∃ prev, Good (prev :: ts) ∧ (IsKw u r!"TYPE" prev ∨ IsSym r!";" prev)

/-- The type `ty` of `i` has just been parsed: in a context for which `K` holds; `c` is what has become of it. -/
def Came (u : Uni) (D : DEnv κ δ) (K : κ → Prop) (Good : List Token → Prop) (c : κ) (i : Ident) (ty : PType δ) : Prop :=
  ∃ t eq rest n s s', Begins u Good (t :: eq :: rest) ∧ t.typ = .ident ∧ i = Ident.ofTok t ∧ IsSym r!"=" eq ∧
    (rest = s.ts ∨ ∃ w, rest = w :: s.ts ∧ IsKw u r!"TYPE" w) ∧ K s.cx ∧ parseType u D n s = .ok ty s' ∧ s'.cx = c ∧
    gType u ty s.ts s'.ts

/-- Types may be declared: within a type section. -/
structure DTypes (u : Uni) (D : DEnv κ δ) (I : κ → Prop) (K : List Ident → κ → Prop) (Good : List Token → Prop) (Pp : Prop) :
    Prop where
  set : ∀ l c, I c → ∀ i ty, Came u D (K l) Good c i ty → match D.set c [i] (.type ty) with
    | .ok c' => I c' ∧ K (l ++ [i]) c'
    | .err => True
    | .panic => Pp
  complete : ∀ l c, I c → ∀ d i ty, Came u D (K l) Good c i ty → match D.complete c d i ty with
    | .ok c' => I c' ∧ K (l ++ [i]) c'
    | .err => True
    | .panic => Pp

/-- What is fixed while types and declarations are parsed.  The invariant of an inner scope may be another one; all of
them belong to a family `F`. -/
structure DBase (u : Uni) (D : DEnv κ δ) (I : κ → Prop) (Good : List Token → Prop) (tl : Tail) (Pp Pw : Prop) : Prop
    extends DStep u D I Good tl Pp Pw where
  fam : ∃ F : (κ → Prop) → Prop, F I ∧ ∀ J, F J → DStep u D J Good tl Pp Pw ∧
    (∀ c, J c → ∃ J', F J' ∧ Nests D J c J') ∧ (∀ t ts, Good (t :: ts) → IsKw u r!"TYPE" t → ∀ c, J c →
      ∃ J' K, F J' ∧ Sects' D J c J' K ∧ DTypes u D J' K Good Pp)

variable {u : Uni} {D : DEnv κ δ} {I : κ → Prop} {Good : List Token → Prop} {tl : Tail} {Pp Pw : Prop}

theorem DBase.of {F : (κ → Prop) → Prop} (h : ∀ J, F J → DStep u D J Good tl Pp Pw ∧
    (∀ c, J c → ∃ J', F J' ∧ Nests D J c J') ∧ (∀ t ts, Good (t :: ts) → IsKw u r!"TYPE" t → ∀ c, J c →
      ∃ J' K, F J' ∧ Sects' D J c J' K ∧ DTypes u D J' K Good Pp)) (hI : F I) :
    DBase u D I Good tl Pp Pw := ⟨(h I hI).1, F, hI, h⟩

theorem DBase.nest (B : DBase u D I Good tl Pp Pw) {c : κ} (h : I c) :
    ∃ J, DBase u D J Good tl Pp Pw ∧ Nests D I c J := by
  obtain ⟨F, h1, h2⟩ := B.fam
  obtain ⟨J, h3, h4⟩ := (h2 I h1).2.1 c h
  exact ⟨J, .of h2 h3, h4⟩

theorem DBase.sect (B : DBase u D I Good tl Pp Pw) {t : Token} {ts : List Token} (hg : Good (t :: ts)) (ht : IsKw u r!"TYPE" t)
    {c : κ} (h : I c) : ∃ J K, DBase u D J Good tl Pp Pw ∧ Sects' D I c J K ∧ DTypes u D J K Good Pp := by
  obtain ⟨F, h1, h2⟩ := B.fam
  obtain ⟨J, K, h3, h4⟩ := (h2 I h1).2.2 t ts hg ht c h
  exact ⟨J, K, .of h2 h3, h4⟩

/-- one invariant for all scopes -/
theorem DStep.base (B : DStep u D I Good tl Pp Pw) (T : DTypes u D I (fun _ _ => True) Good Pp) (stack : ∀ c, I c → I (D.stack c))
    (restore : ∀ c c', I c → I c' → I (D.restore c c')) (openS : ∀ c, I c → I (D.openSection c))
    (runS : ∀ c, I c → I (D.runSection c)) (closeS : ∀ c c', I c → I c' → I (D.closeSection c c')) :
    DBase u D I Good tl Pp Pw := by
  refine .of (F := fun J => J = I) ?_ rfl
  rintro J rfl
  exact ⟨B, fun c h => ⟨_, rfl, stack c h, fun c' h' => restore c c' h h'⟩,
    fun _ _ _ _ c h => ⟨_, _, rfl, ⟨openS c h, trivial, fun c' h' => closeS c _ h (runS _ h')⟩, T⟩⟩

theorem Came.mono {K : κ → Prop} {Good' : List Token → Prop} (hg : ∀ ts, Good' ts → Good ts) {c : κ} {i : Ident} {ty : PType δ}
    (h : Came u D K Good' c i ty) : Came u D K Good c i ty := by
  obtain ⟨t, eq, rest, n, s, s', ⟨prev, h1, h2⟩, h3⟩ := h
  exact ⟨t, eq, rest, n, s, s', ⟨prev, hg _ h1, h2⟩, h3⟩

theorem DTypes.weaken {K : List Ident → κ → Prop} {Good' : List Token → Prop} (hg : ∀ ts, Good' ts → Good ts)
    (T : DTypes u D I K Good Pp) : DTypes u D I K Good' Pp :=
  ⟨fun l c h i ty hc => T.set l c h i ty (hc.mono hg), fun l c h d i ty hc => T.complete l c h d i ty (hc.mono hg)⟩

/-- any way of declaring types -/
theorem DTypes.any (hs : ∀ c, I c → ∀ i ty, match D.set c [i] (.type ty) with
      | .ok c' => I c'
      | .err => True
      | .panic => Pp)
    (hc : ∀ c, I c → ∀ d i ty, match D.complete c d i ty with
      | .ok c' => I c'
      | .err => True
      | .panic => Pp) : DTypes u D I (fun _ _ => True) Good Pp where
  set l c h i ty _ := by
    have := hs c h i ty
    cases e : D.set c [i] (.type ty) <;> rw [e] at this <;> simp_all
  complete l c h d i ty _ := by
    have := hc c h d i ty
    cases e : D.complete c d i ty <;> rw [e] at this <;> simp_all

/-- expressions only -/
def DEnv.xenv (D : DEnv κ δ) : SEnv κ δ Unit where
  toEnv := D.toEnv
  isLabel := D.isLabel
  setHandler k i _ := D.set k [i] .handler
  parseType _ := P.fail

variable (I Good tl) in
/-- the state belongs to this parse -/
structure In' (s : PS κ) : Prop where
  tail : s.tail = tl
  cx : I s.cx
  good : Good s.ts

section
variable (B : DBase u D I Good tl Pp Pw)
include B

theorem DBase.x : SBase u D.xenv (fun _ _ _ _ => True) (fun _ c => I c) Good tl Pp Pw False where
  roll _ c h := B.roll c h
  get l := l.elim
  member l := l.elim
  nil := B.nil
  hang := B.hang
  ns _ c h := B.ns c h
  set _ c h i ty := by
    have := B.set c h [i] .handler (fun _ h => by cases h)
    show match D.set c [i] .handler with
      | .ok c' => ∃ _, I c' ∧ _
      | .err => True
      | .panic => Pp
    cases e : D.set c [i] .handler <;> rw [e] at this <;> simp only at this ⊢
    · exact ⟨c, this, fun l => l.elim⟩
    · exact this
  good := B.good
  asm := B.asm
  type _ _ _ _ _ _ _ := trivial

variable {s : PS κ} (hs : In' I Good tl s)

theorem DBase.goods {a b : List Token} (h : Good (a ++ b)) : Good b := B.x.goods h

include hs
omit B in
theorem In'.at : At (fun _ c => I c) Good tl s.cx s := ⟨hs.tail, hs.cx, hs.good⟩

theorem DBase.nil' : s.tail = .nil → Pp := by rw [hs.tail]; exact B.nil
theorem DBase.hang' : s.tail = .hang → Pw := by rw [hs.tail]; exact B.hang

variable {α β : Type} {Q : α → PS κ → Prop}

/-- `P.next` on a known token -/
theorem DBase.next {t : Token} {ts : List Token} (h : s.ts = t :: ts) {f : Unit → P κ α}
    (hf : ∀ s', In' I Good tl s' → s'.ts = ts → wp (f ()) s' Q Pp Pw) :
    wp (P.next >>= f) s Q Pp Pw :=
  wp_next_cons h (B.hang' hs) fun s' h1 h2 h3 =>
    hf s' ⟨h2.trans hs.tail, by rw [h3]; exact hs.cx, by rw [h1]; have := hs.good; rw [h] at this; exact B.good _ _ this⟩ h1

/-- `P.next` in any state -/
theorem DBase.skip {f : Unit → P κ α}
    (hf : ∀ s', In' I Good tl s' → s'.ts = s.ts.tail → wp (f ()) s' Q Pp Pw) :
    wp (P.next >>= f) s Q Pp Pw := by
  rw [wp_bind]
  refine wp_next (hf _ ⟨hs.tail, hs.cx, ?_⟩ rfl) (B.hang' hs)
  have := hs.good
  show Good s.ts.tail
  cases e : s.ts with
  | nil => rw [e] at this; exact this
  | cons t ts => rw [e] at this; exact B.good _ _ this

/-- the same, and the context stays as it is -/
theorem DBase.skipK {f : Unit → P κ α}
    (hf : ∀ s', In' I Good tl s' → s'.ts = s.ts.tail → s'.cx = s.cx → wp (f ()) s' Q Pp Pw) :
    wp (P.next >>= f) s Q Pp Pw := by
  rw [wp_bind]
  refine wp_next (hf _ ⟨hs.tail, hs.cx, ?_⟩ rfl rfl) (B.hang' hs)
  have := hs.good
  show Good s.ts.tail
  cases e : s.ts with
  | nil => rw [e] at this; exact this
  | cons t ts => rw [e] at this; exact B.good _ _ this

/-- `Current(pred)` followed by `NextToken()` -/
theorem DBase.eat {pred : Pred} (hne : ∀ t, pred t = true → t.typ ≠ .eof ∨ t.raw ≠ []) {f : Token → Unit → P κ α}
    (hf : ∀ t s', pred t = true → In' I Good tl s' → s.ts = t :: s'.ts → wp (f t ()) s' Q Pp Pw) :
    wp (P.current pred >>= fun t => P.next >>= f t) s Q Pp Pw := by
  refine wp_current_bind (B.hang' hs) fun t ht hp => ?_
  obtain ⟨ts, hts⟩ : ∃ ts, s.ts = t :: ts := by
    rcases hne t hp with h | h
    · exact tok_cons ht h
    · exact tok_cons_raw ht h
  exact B.next hs hts fun s' h1 h2 => hf t s' hp h1 (by rw [h2]; exact hts)

theorem DBase.eatKw {c : Str} {f : Token → Unit → P κ α}
    (hf : ∀ t s', IsKw u c t → In' I Good tl s' → s.ts = t :: s'.ts → wp (f t ()) s' Q Pp Pw) :
    wp (P.current (kw u c) >>= fun t => P.next >>= f t) s Q Pp Pw :=
  B.eat hs (fun _ h => .inl (kw_ne_eof (kw_iff.1 h))) fun t s' h h1 h2 => hf t s' (kw_iff.1 h) h1 h2

theorem DBase.eatSym {c : Str} {f : Token → Unit → P κ α}
    (hf : ∀ t s', IsSym c t → In' I Good tl s' → s.ts = t :: s'.ts → wp (f t ()) s' Q Pp Pw) :
    wp (P.current (sym c) >>= fun t => P.next >>= f t) s Q Pp Pw :=
  B.eat hs (fun _ h => .inl (sym_ne_eof (symbol_iff.1 h))) fun t s' h h1 h2 => hf t s' (symbol_iff.1 h) h1 h2

theorem DBase.eatIdent {f : Token → Unit → P κ α}
    (hf : ∀ t s', t.typ = .ident → In' I Good tl s' → s.ts = t :: s'.ts → wp (f t ()) s' Q Pp Pw) :
    wp (P.current (Pred.typ .ident) >>= fun t => P.next >>= f t) s Q Pp Pw :=
  B.eat hs (fun _ h => .inl (by rw [typ_iff.1 h]; decide)) fun t s' h h1 h2 => hf t s' (typ_iff.1 h) h1 h2

/-- `Current(pred)` -/
theorem DBase.current {pred : Pred} {f : Token → P κ α}
    (hf : ∀ t, s.tok? = some t → pred t = true → wp (f t) s Q Pp Pw) : wp (P.current pred >>= f) s Q Pp Pw :=
  wp_current_bind (B.hang' hs) hf

theorem DBase.cur {f : Token → P κ α} (hf : ∀ t, s.tok? = some t → wp (f t) s Q Pp Pw) : wp (P.cur >>= f) s Q Pp Pw :=
  wp_cur_bind (B.nil' hs) (B.hang' hs) hf

theorem DBase.currentP {pred : Pred} {f : Token → P κ α}
    (hf : ∀ t, s.tok? = some t → pred t = true → wp (f t) s Q Pp Pw) : wp (currentP pred >>= f) s Q Pp Pw := by
  unfold TP.currentP
  rw [P.bind_assoc]
  refine B.cur hs fun t ht => ?_
  exact wp_ite_bind (fun c => hf t ht c) (fun _ => trivial)

theorem DBase.eatKwP {c : Str} {f : Token → Unit → P κ α}
    (hf : ∀ t s', IsKw u c t → In' I Good tl s' → s.ts = t :: s'.ts → wp (f t ()) s' Q Pp Pw) :
    wp (TP.currentP (kw u c) >>= fun t => P.next >>= f t) s Q Pp Pw := by
  refine B.currentP hs fun t ht hp => ?_
  have hk := kw_iff.1 hp
  obtain ⟨ts, hts⟩ := tok_cons ht (kw_ne_eof hk)
  exact B.next hs hts fun s' h1 h2 => hf t s' hk h1 (by rw [h2]; exact hts)

/-- `CurrentToken().Is(pred)` -/
theorem DBase.is {pred : Pred} {f : Bool → P κ α} (h1 : ∀ t, s.tok? = some t → pred t = true → wp (f true) s Q Pp Pw)
    (h2 : ∀ t, s.tok? = some t → ¬ pred t = true → wp (f false) s Q Pp Pw) : wp (P.is pred >>= f) s Q Pp Pw := by
  refine wp_is_bind (B.nil' hs) (B.hang' hs) fun t ht => ?_
  by_cases c : pred t = true
  · rw [c]; exact h1 t ht c
  · have c' := c
    rw [Bool.not_eq_true] at c'; rw [c']; exact h2 t ht c

theorem DBase.cur? {f : Option Token → P κ α} (hn : wp (f none) s Q Pp Pw)
    (hf : ∀ t, s.tok? = some t → wp (f (some t)) s Q Pp Pw) : wp (P.cur? >>= f) s Q Pp Pw :=
  wp_cur?_bind (B.hang' hs) (fun _ _ => hn) hf

/-- `Next(pred)`: two tokens are there -/
theorem DBase.nextIs {pred : Pred} (hne : ∀ t, pred t = true → t.typ ≠ .eof) {f : Token → P κ α}
    (hf : ∀ t0 t s' ts, pred t = true → In' I Good tl s' → s.ts = t0 :: s'.ts → s'.ts = t :: ts → wp (f t) s' Q Pp Pw) :
    wp (P.nextIs pred >>= f) s Q Pp Pw := by
  unfold P.nextIs
  rw [P.bind_assoc]
  refine B.skip hs fun s1 h1 e1 => ?_
  refine B.current h1 fun t ht hp => ?_
  obtain ⟨ts, hts⟩ := tok_cons ht (hne t hp)
  cases e : s.ts with
  | nil => rw [e] at e1; rw [e1] at hts; cases hts
  | cons t0 rest => exact hf t0 t s1 ts hp h1 (by rw [e] at e1 ⊢; rw [e1]; rfl) hts

theorem DBase.expr {n : Nat} (hf : n < 10 * s.ts.length + 7 → Pw) {f : Expr δ → P κ α}
    (h : ∀ e s', In' I Good tl s' → s'.ts.length ≤ s.ts.length → gExpr u e s.ts s'.ts → wp (f e) s' Q Pp Pw) :
    wp (parseExpr u D.toEnv n >>= f) s Q Pp Pw :=
  B.x.expr hs.at hf fun e s' used a h1 d =>
    h e s' ⟨h1.tail, h1.cx, h1.good⟩ (by have := a.len; omega) ⟨used, a.ts, d.1⟩

omit B hs in
theorem wp_declOf {name : Str} {f : Option δ → P κ α} (h : wp (f (D.get s.cx name)) s Q Pp Pw) :
    wp (getDecl D.toEnv name >>= f) s Q Pp Pw := h

theorem DBase.setDecl {is : List Ident} {k : DKind δ} {f : Unit → P κ α}
    (h : ∀ s', In' I Good tl s' → s'.ts = s.ts → wp (f ()) s' Q Pp Pw)
    (hk : ∀ ty, k ≠ .type ty := by intro _ h; cases h) : wp (setDecl D is k >>= f) s Q Pp Pw := by
  rw [wp_bind]
  have := B.set s.cx hs.cx is k hk
  unfold wp TP.setDecl
  cases e : D.set s.cx is k with
  | ok c => rw [e] at this; exact h _ ⟨hs.tail, this, hs.good⟩ rfl
  | err => trivial
  | panic => rw [e] at this; exact this

theorem DBase.newRef' {name : Str} {f : Nat → P κ α}
    (h : ∀ i s', In' I Good tl s' → s'.ts = s.ts → wp (f i) s' Q Pp Pw) : wp (TP.newRef D name >>= f) s Q Pp Pw := by
  rw [wp_bind]
  exact h _ _ ⟨hs.tail, B.newRef s.cx name hs.cx, hs.good⟩ rfl

theorem DBase.ordinal' {ty : PType δ} {f : Unit → P κ α} (h : wp (f ()) s Q Pp Pw) :
    wp (checkOrdinal D ty >>= f) s Q Pp Pw := by
  rw [wp_bind]
  unfold wp checkOrdinal
  cases e : D.ordinal s.cx ty with
  | none => exact B.ordinal s.cx hs.cx ty e
  | some b => cases b with
    | true => exact h
    | false => trivial

theorem DBase.member' {h' : List (TypeId δ)} {ms : Sects δ} {name : Str} {f : δ → P κ α} (h : ∀ d, wp (f d) s Q Pp Pw) :
    wp (TP.findMember D h' ms name >>= f) s Q Pp Pw := by
  rw [wp_bind]
  unfold wp TP.findMember
  cases e : D.findMember s.cx h' ms name with
  | found d => exact h d
  | none => trivial
  | hang => exact B.findMember s.cx hs.cx _ _ _ e

theorem DBase.prop' {h' : List (TypeId δ)} {ms : Sects δ} {name : Str} {f : Option δ → P κ α}
    (h : ∀ d, wp (f d) s Q Pp Pw) : wp (TP.findProp D h' ms name >>= f) s Q Pp Pw := by
  rw [wp_bind]
  unfold wp TP.findProp
  cases e : D.findProp s.cx h' ms name with
  | found d => exact h _
  | none => exact h _
  | hang => exact B.findProp s.cx hs.cx _ _ _ e

end

/-- `p` reads its result from the tokens -/
def TSound (I : κ → Prop) (Good : List Token → Prop) (tl : Tail) (Pp Pw : Prop) {α : Type} (p : P κ α) (G : α → Rd)
    (n r : Nat) : Prop :=
  ∀ s, In' I Good tl s → (n < 20 * s.ts.length + r → Pw) →
    wp p s (fun a s' => In' I Good tl s' ∧ s'.ts.length ≤ s.ts.length ∧ G a s.ts s'.ts) Pp Pw

section
variable {α β : Type}

theorem TSound.bind {p : P κ α} {G : α → Rd} {n r : Nat} (hp : TSound I Good tl Pp Pw p G n r) {s : PS κ}
    (hs : In' I Good tl s) (hf : n < 20 * s.ts.length + r → Pw) {f : α → P κ β} {Q : β → PS κ → Prop}
    (h : ∀ a s', In' I Good tl s' → s'.ts.length ≤ s.ts.length → G a s.ts s'.ts → wp (f a) s' Q Pp Pw) :
    wp (p >>= f) s Q Pp Pw :=
  wp_then (hp s hs hf) fun a s' ⟨h1, h2, h3⟩ => h a s' h1 h2 h3

theorem TSound.mono {p : P κ α} {G G' : α → Rd} {n r r' : Nat} (hp : TSound I Good tl Pp Pw p G n r)
    (hg : ∀ a x y, G a x y → G' a x y) (hr : r ≤ r') : TSound I Good tl Pp Pw p G' n r' := by
  intro s hs hf
  exact wp_mono (hp s hs fun h => hf (by omega)) (fun a s' ⟨h1, h2, h3⟩ => ⟨h1, h2, hg _ _ _ h3⟩) id id

end

section
variable (B : DBase u D I Good tl Pp Pw)
include B
variable {α : Type} {G : α → Rd} {p : P κ α} {n r : Nat}

theorem traced_sound (hp : TSound I Good tl Pp Pw p G n r) : TSound I Good tl Pp Pw (traced p) G n r := by
  intro s hs hf
  unfold traced
  refine B.cur hs fun _ _ => ?_
  refine hp.bind hs hf fun a s' h1 h2 h3 => ?_
  exact B.cur h1 fun _ _ => ⟨h1, h2, h3⟩

theorem stacked_sound (hp : ∀ J, DBase u D J Good tl Pp Pw → TSound J Good tl Pp Pw p G n r) :
    TSound I Good tl Pp Pw (stacked D p) G n r := by
  intro s hs hf
  obtain ⟨J, BJ, hJ⟩ := B.nest hs.cx
  have := hp J BJ { s with cx := D.stack s.cx } ⟨hs.tail, hJ.stack, hs.good⟩ hf
  unfold wp at this ⊢
  unfold stacked
  cases e : p { s with cx := D.stack s.cx } with
  | ok a s' =>
    rw [e] at this
    exact ⟨⟨this.1.tail, hJ.restore _ this.1.cx, this.1.good⟩, this.2.1, this.2.2⟩
  | err => trivial
  | panic => rw [e] at this; exact this
  | wait => rw [e] at this; exact this
end

end TP
