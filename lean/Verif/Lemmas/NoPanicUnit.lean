import Verif.Lemmas.NoPanicProgram

/-!
# `ParseUnit` does not panic
-/

namespace TP
open Spec

variable {u : Uni} {Pp : Prop}

theorem Fine.weaken {k : DS} (h : Fine none k) (c : Option (Str × Nat)) : Fine c k where
  owns := h.owns
  stored := h.stored.mono fun key n g => by
    cases n with
    | unit j => exact .inl (g.resolve_right nofun)
    | _ => exact g
  items := h.items

/-- `ParseUnit` of a parser at the beginning of a text -/
theorem unit_fine {cu n : Nat} {s : PS DS} (h : Fine none s.cx) (hc : s.cx.cur < s.cx.w.ctxs.length) (hcu : cu < s.cx.w.ctxs.length)
    (hnil : s.tail = .nil → Pp) : wp (parseUnit u cu n) s (fun _ _ => True) Pp True := by
  have base : ∀ {k : DS}, Fine none k → DBase u (declEnv u) (Heap (Known k none) (fun _ => True) (fun _ => True) k) (· <:+ s.ts)
      s.tail Pp True := fun f => f.base s.ts hnil (fun _ _ h => by cases h)
  have start : In' (Heap (Known s.cx none) (fun _ => True) (fun _ => True) s.cx) (· <:+ s.ts) s.tail s :=
    ⟨rfl, h.heap hc, List.suffix_rfl⟩
  unfold parseUnit
  refine wp_then (Q1 := fun r s' => Fine none s'.cx ∧ Later s.cx s'.cx ∧ s'.cx.cur < s'.cx.w.ctxs.length ∧ s'.ts <:+ s.ts ∧
    s'.tail = s.tail ∧ ∃ o : UnitObj, s'.cx.w.units[r.1.1.no]? = some o) ?_ ?_
  · unfold parseIdentAndUses
    refine wp_then (wp_both (unitIdent_sound (base h) (fun c h i => h.newUnit i) n _ start (fun _ => trivial)) (unitIdent_unit _)) ?_
    rintro h1 s1 ⟨⟨g1, -, -⟩, o, ho, -⟩
    have f2 := Heap.fine h g1.cx
    refine (intfUses_sound (base f2) (Heap.uses fun _ _ => trivial) n).bind ⟨g1.tail, f2.heap g1.cx.here, g1.good⟩ (fun _ => trivial)
      fun es s2 h2 _ _ => ?_
    obtain ⟨o', ho', -⟩ := h2.cx.later.names _ o ho
    exact ⟨Heap.fine f2 h2.cx, g1.cx.later.trans h2.cx.later, h2.cx.here, h2.good, h2.tail, o', ho'⟩
  rintro r s1 ⟨f1, l1, c1, g1, t1, o1, ho1⟩
  refine wp_then (intfBody_sound (I' := fun k' => Fine none k' ∧ Later s1.cx k' ∧ k'.cur < k'.w.ctxs.length) (base f1) ?_ (n := n)
    ⟨t1, f1.heap c1, g1⟩ (fun _ => trivial)) ?_
  · intro k' h' ds
    have f2 : Fine (some (([] : Str), r.1.1.no)) k' := (Heap.fine f1 h').weaken _
    obtain ⟨o, ho, -⟩ := h'.later.names _ o1 ho1
    obtain ⟨g1, g2, g3⟩ := f2.finishIntf u ⟨o, ho⟩ ds
    exact ⟨g1, h'.later.trans g2, Nat.lt_of_lt_of_le h'.here g2.len⟩
  rintro ds s2 ⟨⟨t2, ⟨f2, l2, c2⟩, g2⟩, -, -⟩
  refine wp_then (Q1 := fun _ s' => s'.tail = s.tail ∧ s'.ts <:+ s.ts ∧ Fine none s'.cx ∧ s'.cx.cur < s'.cx.w.ctxs.length) ?_ ?_
  · unfold parseImplUses
    refine (base f2).eatKw ⟨t2, f2.heap c2, g2⟩ fun t s3 c h3 e3 => ?_
    have f3 := Heap.fine f2 h3.cx
    obtain ⟨f4, l4, c4⟩ := f3.stackAt (cu := cu)
      (Nat.lt_of_lt_of_le (Nat.lt_of_lt_of_le hcu (l1.trans l2).len) h3.cx.len)
    have hcur : (s3.cx.stackAt cu).cur < (s3.cx.stackAt cu).w.ctxs.length := by
      rw [c4]; exact Nat.lt_of_lt_of_le h3.cx.here l4.len
    rw [wp_bind]
    show wp (parseOptUses u n) { s3 with cx := s3.cx.stackAt cu } _ _ _
    refine wp_mono (optUses_sound (base f4) (Heap.uses fun _ _ => trivial) n _ ⟨h3.tail, f4.heap hcur, h3.good⟩ (fun _ => trivial)) ?_ id id
    rintro es s4 ⟨h4, -, -⟩
    exact ⟨h4.tail, h4.good, Heap.fine f4 h4.cx, h4.cx.here⟩
  rintro es s3 ⟨t3, g3, f3, c3⟩
  exact (implAndEnd_sound (base f3) n).bind ⟨t3, f3.heap c3, g3⟩ (fun _ => trivial) fun _ _ _ _ _ => trivial

/-- `ParseBlock` -/
theorem block_fine {n : Nat} {s : PS DS} (h : Fine none s.cx) (hc : s.cx.cur < s.cx.w.ctxs.length) (hnil : s.tail = .nil → Pp) :
    wp (parseBlock u (declEnv u) n) s (fun _ _ => True) Pp True :=
  wp_mono ((allDecls (h.base s.ts hnil (fun _ _ h => by cases h)) n).block s ⟨rfl, h.heap hc, List.suffix_rfl⟩ (fun _ => trivial))
    (fun _ _ _ => trivial) id id

end TP
