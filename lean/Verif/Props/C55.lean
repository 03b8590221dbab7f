import Verif.Lemmas.SpellTok
import Verif.Props.C08
import Verif.Props.C49

/-!
# C55  A parse has one result

The code iterates over two Go maps, whose order is random: the table of symbols of two runes and the set of unit names.  The first
order does not matter; for the second one see C56.
-/

namespace TP.Props
open TP Spec

/-- The same text, cut into tokens with different orders of the table of symbols. -/
inductive Rescanned (u : Uni) : FileR → FileR → Prop
  | missing : Rescanned u .missing .missing
  | unreadable : Rescanned u .unreadable .unreadable
  | tokens {o o' : List (Char × Char)} {x : Str} {ts ts' : List Token} {tl tl' : Tail} (ho : IsOrder o) (ho' : IsOrder o')
      (h : Delivers u o (Cursor.new x) ts tl) (h' : Delivers u o' (Cursor.new x) ts' tl') :
      Rescanned u (.tokens ts tl) (.tokens ts' tl')

/-- All a caller can see of a result: the tree, and of the parser the context and the kinds, texts and places of the tokens that
are left. -/
def visible {α : Type} : R (PS DS) α → R (DS × List (TType × Str × Pos × Pos)) α
  | .ok a s => .ok a (s.cx, s.ts.map fun t => (t.typ, t.raw, t.start, t.stop))
  | .err => .err
  | .panic => .panic
  | .wait => .wait

theorem run_reorder {u : Uni} {o o' : List (Char × Char)} (ho : IsOrder o) (ho' : IsOrder o') {fl : Flags} {c c' : Cursor} {ts : List Token}
    (h : Run u o fl c ts c') : Reachable c → Run u o' fl c ts c' := by
  induction h with
  | nil c => intro _; exact .nil c
  | cons hg _ ih => intro hc; exact .cons ((C08_order_independent u o o' ho ho' fl _ hc _ _).1 hg) (ih (gets_reachable ho hc hg))

theorem delivers_reorder {u : Uni} {o o' : List (Char × Char)} (ho : IsOrder o) (ho' : IsOrder o') {x : Str} {ts : List Token} {tl : Tail}
    (h : Delivers u o (Cursor.new x) ts tl) : Delivers u o' (Cursor.new x) ts tl := by
  obtain ⟨h1, c', h2, h3⟩ := h
  have hc := run_reachable ho (.new x) h2
  refine ⟨h1, c', run_reorder ho ho' h2 (.new x), ?_⟩
  have key : ∀ c, Reachable c → ∀ c3 o2, Gets u o Flags.none c c3 o2 ↔ Gets u o' Flags.none c c3 o2 := fun c hc c3 o2 =>
    C08_order_independent u o o' ho ho' Flags.none c hc c3 o2
  cases tl with
  | eof y p =>
    obtain ⟨c2, h4, h5⟩ := h3
    exact ⟨c2, (key c' hc _ _).1 h4, fun c3 o2 => by rw [← key c2 (gets_reachable ho hc h4)]; exact h5 c3 o2⟩
  | nil =>
    obtain ⟨c2, h4, h5⟩ := h3
    exact ⟨c2, (key c' hc _ _).1 h4, fun c3 o2 => by rw [← key c2 (gets_reachable ho hc h4)]; exact h5 c3 o2⟩
  | hang => exact fun ⟨c2, o2, h4⟩ => h3 ⟨c2, o2, (key c' hc _ _).2 h4⟩

theorem Rescanned.eq {u : Uni} {f g : FileR} (h : Rescanned u f g) : f = g := by
  cases h with
  | missing => rfl
  | unreadable => rfl
  | tokens ho ho' h h' =>
    obtain ⟨rfl, rfl⟩ := delivers_unique (delivers_reorder ho ho' h) h'
    rfl

theorem toks_same {u : Uni} {l l' : List Token} (h : List.Forall₂ (TokR u (NmR Spell.same) Spell.same.tr Spell.same.tr) l l') :
    (l.map fun t => (t.typ, t.raw, t.start, t.stop)) = l'.map fun t => (t.typ, t.raw, t.start, t.stop) := by
  induction h with
  | nil => rfl
  | cons h _ ih =>
    rename_i a b _ _ _
    have hid : Ident.ofTok a = Ident.ofTok b := h.id
    have h1 : (Ident.ofTok a).name = (Ident.ofTok b).name := by rw [hid]
    have h2 : (Ident.ofTok a).start = (Ident.ofTok b).start := by rw [hid]
    have h3 : (Ident.ofTok a).stop = (Ident.ofTok b).stop := by rw [hid]
    change a.raw = b.raw at h1
    change a.start = b.start at h2
    change a.stop = b.stop at h3
    simp only [List.map_cons, h.typ, h1, h2, h3, ih]

theorem RR.visible {u : Uni} {α : Type} {f : α → α} (hf : ∀ a, f a = a) {p q : R (PS DS) α}
    (h : RR u (NmR Spell.same) Spell.same.tr Spell.same.tr False (DSR Spell.same) (EqR f f) p q) (hp : p ≠ .wait) : visible p = visible q := by
  cases p <;> cases q <;> first | exact h.elim | rfl | (exact absurd rfl hp) | skip
  rename_i a s b t
  obtain ⟨h1, h2⟩ := h
  have h1 : f a = f b := h1
  rw [hf, hf] at h1
  have h3 : s.cx.sp Spell.same = t.cx.sp Spell.same := h2.cx
  rw [DS.sp_same, DS.sp_same] at h3
  simp only [Props.visible]
  rw [h1, h3, toks_same (h2.ts.whole not_false).1]

theorem order_same (it : List UParser → List Str) (m m' : List UParser)
    (h : m.map (UParser.sp Spell.same) = m'.map (UParser.sp Spell.same)) : it m = it m' := by
  have : ∀ m : List UParser, m.map (UParser.sp Spell.same) = m := fun m => by
    conv_rhs => rw [← List.map_id m]
    refine List.map_congr_left fun p _ => ?_
    obtain ⟨a, b, c⟩ := p
    simp only [UParser.sp, Spell.same, List.map_id_fun', id]
  rw [this, this] at h
  rw [h]

section
variable (u : Uni) (sep : Char) (files files' : Str → FileR) (lib : TopoLib) (it : List UParser → List Str)

/-- Two calls of `ParseProgram` with the same texts and the same order of the unit names that both return, return the same: both
a program, an error or a panic, and the same program.  (`n` and `m` bound the numbers of steps; so the result does not depend on
them.) -/
theorem C55_program (hfiles : ∀ p, Rescanned u (files p) (files' p)) (path : Str) (n m : Nat)
    (hn : parseProgramFile u sep files lib it path n ≠ .wait) (hm : parseProgramFile u sep files' lib it path m ≠ .wait) :
    visible (parseProgramFile u sep files lib it path n) = visible (parseProgramFile u sep files' lib it path m) := by
  have e : files' = files := funext fun p => (hfiles p).eq.symm
  rw [e] at hm ⊢
  have hit := order_same it
  have hf : ∀ t : ProgramTree (Decl Node), t.tr Spell.same.tr = t := fun t => by rw [Spell.same_tr]; exact t.tr_one
  rcases Nat.le_total n m with h | h
  · exact RR.visible hf (program_rel (Spell.same_good u) (fun p => FileRR.refl (files p)) hit path h) hn
  · exact (RR.visible hf (program_rel (Spell.same_good u) (fun p => FileRR.refl (files p)) hit path h) hm).symm

/-- A call that returns with some number of steps returns with every greater number. -/
theorem C55_more_steps (path : Str) (n m : Nat) (h : n ≤ m) (hn : parseProgramFile u sep files lib it path n ≠ .wait) :
    parseProgramFile u sep files lib it path m ≠ .wait := by
  intro hm
  have hit := order_same it
  exact hn (RR.wait_of (w := False) hm (program_rel (Spell.same_good u) (fun p => FileRR.refl (files p)) hit path h))

/-- The same for `ParseUnit`. -/
theorem C55_unit (cu n m : Nat) (s : PS DS) (hn : parseUnit u cu n s ≠ .wait) (hm : parseUnit u cu m s ≠ .wait) :
    visible (parseUnit u cu n s) = visible (parseUnit u cu m s) := by
  have hs : SR u (NmR Spell.same) Spell.same.tr Spell.same.tr False (DSR Spell.same) s s := ⟨.of (TokR.refls _) (TailR.refl _), rfl⟩
  have hf : ∀ t : Option (UnitTree (Decl Node)), t.map (UnitTree.tr Spell.same.tr) = t := fun t => by
    rw [Spell.same_tr]; cases t <;> simp [UnitTree.tr_one]
  rcases Nat.le_total n m with h | h
  · exact RR.visible hf (PR.parseUnit (Spell.same_good u) cu h s s hs) hn
  · exact (RR.visible hf (PR.parseUnit (Spell.same_good u) cu h s s hs) hm).symm

/-- The same for blocks. -/
theorem C55_block (n m : Nat) (s : PS DS) (hn : parseBlock u (declEnv u) n s ≠ .wait) (hm : parseBlock u (declEnv u) m s ≠ .wait) :
    visible (parseBlock u (declEnv u) n s) = visible (parseBlock u (declEnv u) m s) := by
  have hs : SR u (NmR Spell.same) Spell.same.tr Spell.same.tr False (DSR Spell.same) s s := ⟨.of (TokR.refls _) (TailR.refl _), rfl⟩
  have hf : ∀ t : Block (Decl Node), t.tr Spell.same.tr = t := fun t => by rw [Spell.same_tr]; exact t.tr_one
  rcases Nat.le_total n m with h | h
  · exact RR.visible hf ((blockR (dsim (Spell.same_good u)) h).block s s hs) hn
  · exact (RR.visible hf ((blockR (dsim (Spell.same_good u)) h).block s s hs) hm).symm

end

/-! ## Examples -/

/-- a program that is returned within 400 steps -/
example : ((exProgram [(r!"p", r!"program P; uses A in 'a'; begin A.x := 1; end."),
    (r!"a", r!"unit A; interface const x = 1; implementation end.")]) matches .ok _ _) = true := by krfl

/-- the table of symbols in another order gives the same stream -/
example : lexFrom asciiUni doubleSymbols.reverse 40 40 (Cursor.new r!"a <= b..c") =
    lexFrom asciiUni doubleSymbols 40 40 (Cursor.new r!"a <= b..c") := by krfl

end TP.Props
