import Verif.Lemmas.ProgramSound
import Verif.Lemmas.AccStmt
import Verif.Spec.Chain

/-!
# If every two units depend on each other in one direction, there is only one order
-/

namespace TP
open Spec Props

theorem inFront_idx {α : Type} [DecidableEq α] {l : List α} (hn : l.Nodup) {a b : α} (h : InFront l a b) : l.idxOf a < l.idxOf b := by
  obtain ⟨l1, l2, l3, rfl⟩ := h
  rw [List.append_assoc] at hn ⊢
  rw [List.nodup_append] at hn
  obtain ⟨_, h2, h3⟩ := hn
  have ha : a ∉ l1 := fun h => h3 a h a (by simp) rfl
  have hb : b ∉ l1 := fun h => h3 b h b (by simp) rfl
  have hab : a ≠ b := by
    rintro rfl
    simp at h2
  rw [List.idxOf_append_of_notMem ha, List.idxOf_append_of_notMem hb, List.cons_append, List.idxOf_cons_self,
    List.idxOf_cons_ne _ hab]
  omega

/-- two orders of the same elements that respect a relation in which all are comparable are the same -/
theorem order_unique {α : Type} [DecidableEq α] {l l' : List α} (hp : l.Perm l') (hn : l.Nodup) {r : α → α → Prop}
    (h : ∀ a b, r a b → InFront l b a) (h' : ∀ a b, r a b → InFront l' b a)
    (ht : ∀ a ∈ l, ∀ b ∈ l, a ≠ b → Relation.TransGen r a b ∨ Relation.TransGen r b a) : l = l' := by
  have key : ∀ {k : List α}, k.Nodup → (∀ a b, r a b → InFront k b a) → ∀ a b, Relation.TransGen r a b → k.idxOf b < k.idxOf a := by
    intro k hk hr a b hab
    induction hab with
    | single h => exact inFront_idx hk (hr _ _ h)
    | tail _ h ih => exact Nat.lt_trans (inFront_idx hk (hr _ _ h)) ih
  have pw : ∀ {k : List α}, k.Nodup → (∀ a b, r a b → InFront k b a) → k.Perm l → k.Pairwise fun a b => Relation.TransGen r b a := by
    intro k hk hr hkl
    rw [List.pairwise_iff_getElem]
    intro i j hi hj hij
    have hne : k[i] ≠ k[j] := fun e => by have := (List.Nodup.getElem_inj_iff hk).1 e; omega
    rcases ht _ (hkl.mem_iff.1 (List.getElem_mem hi)) _ (hkl.mem_iff.1 (List.getElem_mem hj)) hne with h | h
    · have := key hk hr _ _ h
      rw [List.Nodup.idxOf_getElem hk, List.Nodup.idxOf_getElem hk] at this
      omega
    · exact h
  have hn' := hp.nodup_iff.1 hn
  refine List.Perm.eq_of_pairwise (le := fun a b => Relation.TransGen r b a) ?_ (pw hn h (.refl _)) (pw hn' h' hp.symm) hp
  intro a b _ _ h1 h2
  have := key hn h _ _ (h1.trans h2)
  omega

variable {u : Uni} {lib : TopoLib} {it it' : List UParser → List Str}

theorem sort_one (hlib : TopoCorrect lib) (hit : IterOK u it) (hit' : IterOK u it') {ls : List Loader}
    (hd : DistinctUnits u (ls.map Loader.head)) (hu : ∀ l ∈ ls, (l.uses.map fun e => u.toLower e.ident.name).Nodup)
    (hc : ∀ a ∈ ls, ∀ b ∈ ls, u.toLower a.head.ident.name ≠ u.toLower b.head.ident.name →
      Relation.TransGen (UsesName u (ls.map fun l => (l.head, l.uses))) (u.toLower a.head.ident.name) (u.toLower b.head.ident.name) ∨
      Relation.TransGen (UsesName u (ls.map fun l => (l.head, l.uses))) (u.toLower b.head.ident.name) (u.toLower a.head.ident.name)) :
    UnitParsers.sort u lib (it (uparsers ls)) (uparsers ls) = UnitParsers.sort u lib (it' (uparsers ls)) (uparsers ls) := by
  have hD := distinct_uparsers hd hu
  obtain ⟨h1, h2⟩ := C26_sort_partial u lib hlib _ hD _ (hit _)
  obtain ⟨h1', h2'⟩ := C26_sort_partial u lib hlib _ hD _ (hit' _)
  cases e : UnitParsers.sort u lib (it (uparsers ls)) (uparsers ls) with
  | none => exact (h2'.2 (h2.1 e)).symm
  | some r =>
    cases e' : UnitParsers.sort u lib (it' (uparsers ls)) (uparsers ls) with
    | none => exact absurd (h2.2 (h2'.1 e')) (by rw [e]; simp)
    | some r' =>
      obtain ⟨p1, q1⟩ := h1 r e
      obtain ⟨p2, q2⟩ := h1' r' e'
      have nd : (uparsers ls).Nodup := by
        have : ((uparsers ls).map UParser.id).Nodup := by rw [uparsers_ids]; exact List.nodup_range
        exact List.Nodup.of_map _ this
      have inj : ∀ p ∈ uparsers ls, ∀ q ∈ uparsers ls, u.toLower p.name = u.toLower q.name → p = q := fun p hp q hq h =>
        List.inj_on_of_nodup_map hD.1 hp hq h
      have toL : ∀ p ∈ uparsers ls, ∃ l ∈ ls, p.name = l.head.ident.name := by
        intro p hp
        unfold uparsers at hp
        obtain ⟨⟨l, i⟩, hl, rfl⟩ := List.mem_map.1 hp
        exact ⟨l, (List.mem_zipIdx hl).2.2 ▸ List.getElem_mem _, rfl⟩
      have lift : ∀ a b, Relation.TransGen (UsesName u (ls.map fun l => (l.head, l.uses))) a b →
          ∀ p ∈ uparsers ls, ∀ q ∈ uparsers ls, u.toLower p.name = a → u.toLower q.name = b → Relation.TransGen (Uses u (uparsers ls)) p q := by
        have one : ∀ a b, UsesName u (ls.map fun l => (l.head, l.uses)) a b → ∀ p ∈ uparsers ls, ∀ q ∈ uparsers ls,
            u.toLower p.name = a → u.toLower q.name = b → Uses u (uparsers ls) p q := by
          rintro a b ⟨x, hx, y, hy, en, hen, rfl, rfl, hyb⟩ p hp q hq hpa hqb
          obtain ⟨lx, hlx, rfl⟩ := List.mem_map.1 hx
          obtain ⟨p', hp', hpn, hpu⟩ := uparsers_mem hlx
          have : p = p' := inj p hp p' hp' (by rw [hpa, hpn])
          subst this
          exact ⟨hp, hq, en.ident.name, hpu ▸ List.mem_map.2 ⟨en, hen, rfl⟩, hqb.symm⟩
        intro a b hab
        induction hab with
        | single h => intro p hp q hq h1 h2; exact .single (one _ _ h p hp q hq h1 h2)
        | tail h h' ih =>
          rename_i b c
          intro p hp q hq h1 h2
          have h'' := h'
          obtain ⟨x, hx, y, hy, en, hen, hxb, -, -⟩ := h''
          obtain ⟨lx, hlx, rfl⟩ := List.mem_map.1 hx
          obtain ⟨p', hp', hpn, -⟩ := uparsers_mem hlx
          have hb : u.toLower p'.name = b := by rw [hpn]; exact hxb
          exact .tail (ih p hp p' hp' h1 hb) (one _ _ h' p' hp' q hq hb h2)
      refine congrArg some (order_unique (p1.trans p2.symm) (p1.nodup_iff.2 nd) q1 q2 ?_)
      intro a ha b hb hab
      have ha := p1.mem_iff.1 ha
      have hb := p1.mem_iff.1 hb
      obtain ⟨la, hla, ea⟩ := toL a ha
      obtain ⟨lb, hlb, eb⟩ := toL b hb
      have hne : u.toLower la.head.ident.name ≠ u.toLower lb.head.ident.name := by
        rw [← ea, ← eb]; exact fun e => hab (inj a ha b hb e)
      rcases hc la hla lb hlb hne with h | h
      · exact .inl (lift _ _ h a ha b hb (by rw [ea]) (by rw [eb]))
      · exact .inr (lift _ _ h b hb a ha (by rw [eb]) (by rw [ea]))

theorem ok_of_bind {κ α β : Type} {p : P κ α} {f : α → P κ β} {s s' : PS κ} {b : β} (h : (p >>= f) s = .ok b s') :
    ∃ a s1, p s = .ok a s1 ∧ f a s1 = .ok b s' := by
  change P.bind p f s = _ at h
  unfold P.bind at h
  cases e : p s with
  | ok a s1 => rw [e] at h; exact ⟨a, s1, rfl, h⟩
  | err => rw [e] at h; cases h
  | panic => rw [e] at h; cases h
  | wait => rw [e] at h; cases h

theorem wp_ok {α : Type} {p : P DS α} {s s' : PS DS} {a : α} {Q : α → PS DS → Prop} (h : wpT p s Q) (e : p s = .ok a s') : Q a s' := by
  change wp p s Q True True at h
  unfold wp at h
  rw [e] at h
  exact h

variable {sep : Char} {files : Str → FileR}

theorem loadUnits_one (hlib : TopoCorrect lib) (hit : IterOK u it) (hit' : IterOK u it') {cp n : Nat} {i : Ident} {es : List UsesEntry}
    {s s' : PS DS} {ls : List Loader} (h : loadUnits u sep files lib it cp i es n s = .ok ls s')
    (hd : DistinctUnits u (ls.map Loader.head)) (hc : Chain u (ls.map fun l => (l.head, l.uses))) :
    loadUnits u sep files lib it' cp i es n s = .ok ls s' := by
  unfold loadUnits at h ⊢
  obtain ⟨cs, s1, h1, h⟩ := ok_of_bind h
  obtain ⟨ls0, s2, h2, h⟩ := ok_of_bind h
  rw [bind_ok h1, bind_ok h2]
  obtain ⟨-, -, g⟩ := wp_ok (loadAll_wp cs s1) h2
  cases hs : UnitParsers.sort u lib (it (uparsers ls0)) (uparsers ls0) with
  | none => rw [hs] at h; cases h
  | some r =>
    rw [hs] at h
    have h' := h
    simp only at h'
    obtain ⟨ls1, s3, h3, h'⟩ := ok_of_bind h'
    obtain ⟨ls2, s4, h4, h'⟩ := ok_of_bind h'
    obtain ⟨_, s5, h5, h'⟩ := ok_of_bind h'
    cases h'
    have k1 := (wp_ok (intfAll_wp (files := files) (P0 := fun _ => True) (P1 := fun _ => True) (fun _ _ _ _ => trivial)
      (r.map UParser.id) ls0 s2 (.inr fun _ _ => trivial) (fun _ _ _ _ => trivial) (fun _ _ _ _ => trivial)) h3).2.1
    have k2 := (wp_ok (implAll_wp (files := files) (P0 := fun _ => True) (P1 := fun _ => True) (fun _ _ _ _ => trivial)
      (r.map UParser.id) ls1 s3 (.inr fun _ _ => trivial) (fun _ _ _ _ => trivial) (fun _ _ _ _ => trivial)) h4).2.1
    have k := k2.trans k1
    have e1 : ls.map Loader.head = ls0.map Loader.head := by
      simpa [List.map_map, Function.comp_def, Loader.key] using congrArg (List.map fun k => k.2.1) k
    have e2 : ls.map (fun l => (l.head, l.uses)) = ls0.map (fun l => (l.head, l.uses)) := by
      simpa [List.map_map, Function.comp_def, Loader.key] using congrArg (List.map Prod.snd) k
    rw [e1] at hd
    rw [e2] at hc
    have := sort_one (it := it) (it' := it') hlib hit hit' hd (fun l hl => (g l hl).2) fun a ha b hb hab =>
      hc (a.head, a.uses) (List.mem_map.2 ⟨a, ha, rfl⟩) (b.head, b.uses) (List.mem_map.2 ⟨b, hb, rfl⟩) hab
    rw [← this, hs]
    exact h

theorem program_one (hlib : TopoCorrect lib) (hit : IterOK u it) (hit' : IterOK u it') {path : Str} {n : Nat} {t : ProgramTree (Decl Node)}
    {s : PS DS} (h : parseProgramFile u sep files lib it path n = .ok t s) (hd : DistinctUnits u (t.units.map UnitTree.head))
    (hc : Chain u (t.units.map fun d => (d.head, d.intfUses))) : parseProgramFile u sep files lib it' path n = .ok t s := by
  unfold parseProgramFile at h ⊢
  cases e : files path with
  | missing => rw [e] at h; cases h
  | unreadable => rw [e] at h; cases h
  | tokens ts tl =>
    rw [e] at h
    simp only at h ⊢
    obtain ⟨a0, s0, h0, h⟩ := ok_of_bind h
    rw [bind_ok h0]
    unfold parseProgram at h ⊢
    obtain ⟨a1, s1, h1, h⟩ := ok_of_bind h
    obtain ⟨a2, s2, h2, h⟩ := ok_of_bind h
    obtain ⟨a3, s3, h3, h⟩ := ok_of_bind h
    obtain ⟨a4, s4, h4, h⟩ := ok_of_bind h
    obtain ⟨us, s5, h5, h⟩ := ok_of_bind h
    rw [bind_ok h1, bind_ok h2, bind_ok h3, bind_ok h4]
    have hu : t.units = us.2 := by
      obtain ⟨_, _, _, h⟩ := ok_of_bind h
      obtain ⟨_, _, _, h⟩ := ok_of_bind h
      cases h; rfl
    rw [hu] at hd hc
    suffices parseProgramUses u sep files lib it' 0 (Ident.ofTok a2) n s4 = .ok us s5 by rw [bind_ok this]; exact h
    unfold parseProgramUses at h5 ⊢
    obtain ⟨b, s6, h6, h5⟩ := ok_of_bind h5
    rw [bind_ok h6]
    cases b with
    | false => exact h5
    | true =>
      simp only [if_true] at h5 ⊢
      obtain ⟨es, s7, h7, h5⟩ := ok_of_bind h5
      obtain ⟨_, s8, h8, h5⟩ := ok_of_bind h5
      obtain ⟨ls, s9, h9, h5⟩ := ok_of_bind h5
      rw [bind_ok h7, bind_ok h8]
      cases h5
      rw [bind_ok (loadUnits_one hlib hit hit' h9 (by simpa [List.map_map, Function.comp_def, Loader.tree] using hd)
        (by simpa [List.map_map, Function.comp_def, Loader.tree] using hc))]
      rfl

end TP
