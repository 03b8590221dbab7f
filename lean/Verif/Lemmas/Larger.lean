import Verif.Spec.Accept

/-! The bookkeeping of names forgets no name. -/

namespace TP
open Spec

variable {u : Uni}

/-- names are only added -/
structure Larger (Γ Γ' : NameEnv) : Prop where
  inner : ∀ x ∈ Γ.inner, x ∈ Γ'.inner
  seen : ∀ x ∈ Γ.seen, x ∈ Γ'.seen

theorem Larger.refl (Γ : NameEnv) : Larger Γ Γ := ⟨fun _ h => h, fun _ h => h⟩
theorem Larger.trans {a b c : NameEnv} (h : Larger a b) (h' : Larger b c) : Larger a c :=
  ⟨fun x hx => h'.inner x (h.inner x hx), fun x hx => h'.seen x (h.seen x hx)⟩
theorem Larger.declare (Γ : NameEnv) (ns : List Str) : Larger Γ (Γ.declare u ns) :=
  ⟨fun _ h => List.mem_append_right _ h, fun _ h => List.mem_append_right _ h⟩
theorem Larger.declareType (Γ : NameEnv) (n : Str) (o : NameSort) : Larger Γ (Γ.declareType u n o) :=
  ⟨fun _ h => List.mem_cons_of_mem _ h, fun _ h => List.mem_cons_of_mem _ h⟩
theorem Larger.completeType (Γ : NameEnv) (n : Str) (o : NameSort) : Larger Γ (Γ.completeType u n o) :=
  ⟨fun _ h => List.mem_cons_of_mem _ h, fun _ h => List.mem_cons_of_mem _ h⟩
theorem Larger.declareSpace (Γ : NameEnv) (n : Str) : Larger Γ (Γ.declareSpace u n) :=
  ⟨fun _ h => List.mem_cons_of_mem _ h, fun _ h => List.mem_cons_of_mem _ h⟩
theorem Larger.closed (Γ Γ' : NameEnv) : Larger Γ (Γ.closed Γ') :=
  ⟨fun _ h => List.mem_append_left _ h, fun _ h => List.mem_append_left _ h⟩

variable {Γ Γ' : NameEnv} {x : List Token} {o : Bool}

theorem OkElems.grows (h : OkElems u Γ x Γ') : Larger Γ Γ' := by
  induction h with
  | one => exact .declare _ _
  | cons _ _ _ _ _ ih => exact (Larger.declare _ _).trans ih

theorem OkSimple.grows (h : OkSimple u Γ x o Γ') : Larger Γ Γ' := by
  cases h with
  | enum _ h _ => exact OkElems.grows h
  | _ => exact .refl _

theorem OkOrd.grows (h : OkOrd u Γ x Γ') : Larger Γ Γ' := by
  cases h with
  | simple h => exact OkSimple.grows h
  | name => exact .refl _

theorem OkOrds.grows (h : OkOrds u Γ x Γ') : Larger Γ Γ' := by
  induction h with
  | one h => exact OkOrd.grows h
  | cons h _ _ ih => exact (OkOrd.grows h).trans ih

theorem OkIndex.grows (h : OkIndex u Γ x Γ') : Larger Γ Γ' := by
  cases h with
  | none => exact .refl _
  | some _ h _ => exact OkOrds.grows h

theorem OkType.grows (h : OkType u Γ x o Γ') : Larger Γ Γ' := by
  induction h with
  | simple h => exact OkSimple.grows h
  | set _ _ _ h => exact OkOrd.grows h
  | file => exact .refl _
  | array _ _ h _ _ ih => exact (OkIndex.grows h).trans ih
  | proc => exact .closed _ _

theorem OkFields.grows (h : OkFields u Γ x Γ') : Larger Γ Γ' := by
  induction h with
  | nil => exact .refl _
  | last _ _ h => exact OkType.grows h
  | cons _ _ h _ _ ih => exact (OkType.grows h).trans ih

theorem OkFixedFields.grows (h : OkFixedFields u Γ x Γ') : Larger Γ Γ' := by
  induction h with
  | nil => exact .refl _
  | cons _ _ h _ _ ih => exact (OkType.grows h).trans ih

theorem OkTag.grows (h : OkTag u Γ x Γ') : Larger Γ Γ' := by
  cases h with
  | mk _ h => exact OkOrd.grows h
  | named _ _ h => exact OkOrd.grows h

theorem OkVariants.grows (h : OkVariants u Γ x Γ') : Larger Γ Γ' := by
  induction h with
  | nil => exact .refl _
  | last _ _ _ h => exact OkFields.grows h
  | cons _ _ _ h _ _ _ ih => exact (OkFields.grows h).trans ih

theorem OkMethods.grows {ns : List Str} (h : OkMethods u Γ x ns Γ') : Larger Γ Γ' := by
  induction h with
  | nil => exact .refl _
  | cons _ _ _ _ ih => exact (Larger.closed _ _).trans ih

theorem OkClassFields.grows {ns : List Str} (h : OkClassFields u Γ x ns Γ') : Larger Γ Γ' := by
  induction h with
  | nil => exact .refl _
  | cons _ _ _ h _ _ ih => exact (OkType.grows h).trans ih

theorem OkPropType.grows (h : OkPropType u Γ x Γ') : Larger Γ Γ' := by
  cases h with
  | array => exact .closed _ _
  | _ => exact .refl _

theorem OkProps.grows {ms : List Str} (h : OkProps u ms Γ x Γ') : Larger Γ Γ' := by
  induction h with
  | nil => exact .refl _
  | cons _ _ h _ _ _ _ _ _ _ ih => exact (OkPropType.grows h).trans ih

theorem OkSections.grows {p : Prop} {ms : List Str} (h : OkSections u p ms Γ x Γ') : Larger Γ Γ' := by
  induction h with
  | nil => exact .refl _
  | cons _ _ h1 h2 h3 _ _ ih => exact (((OkClassFields.grows h1).trans (OkMethods.grows h2)).trans (OkProps.grows h3)).trans ih

theorem OkMembers.grows {p : Prop} (h : OkMembers u p Γ x Γ') : Larger Γ Γ' := by
  cases h with
  | sections h => exact OkSections.grows h
  | fields _ h1 h2 h3 _ h4 => exact (((OkClassFields.grows h1).trans (OkMethods.grows h2)).trans (OkProps.grows h3)).trans (OkSections.grows h4)

theorem OkTypeDef.grows {o : NameSort} (h : OkTypeDef u Γ x o Γ') : Larger Γ Γ' := by
  cases h with
  | type h => exact OkType.grows h
  | record _ _ h _ => exact OkFields.grows h
  | variant _ _ h1 _ h2 _ h3 _ => exact ((OkFixedFields.grows h1).trans (OkTag.grows h2)).trans (OkVariants.grows h3)
  | cls _ _ h _ => exact OkMembers.grows h
  | rooted _ _ _ h _ => exact OkMembers.grows h
  | _ => exact .refl _

theorem OkName.grows {n : Str} {o : NameSort} (h : OkName u Γ n o Γ') : Larger Γ Γ' := by
  cases h with
  | new => exact .declareType _ _ _
  | complete => exact .completeType _ _ _

theorem OkTypes.grows (h : OkTypes u Γ x Γ') : Larger Γ Γ' := by
  induction h with
  | one _ _ h d => exact (OkTypeDef.grows h).trans (OkName.grows d)
  | cons _ _ h d _ _ ih => exact ((OkTypeDef.grows h).trans (OkName.grows d)).trans ih

theorem OkConst.grows (h : OkConst u Γ x Γ') : Larger Γ Γ' := by
  cases h <;> exact .declare _ _

theorem OkConsts.grows (h : OkConsts u Γ x Γ') : Larger Γ Γ' := by
  induction h with
  | one h => exact OkConst.grows h
  | cons h _ _ ih => exact (OkConst.grows h).trans ih

theorem OkVar.grows (h : OkVar u Γ x Γ') : Larger Γ Γ' := by
  cases h with
  | plain _ _ h => exact (OkType.grows h).trans (.declare _ _)
  | init => exact .declare _ _
  | absolute _ _ h => exact (OkType.grows h).trans (.declare _ _)

theorem OkVars.grows (h : OkVars u Γ x Γ') : Larger Γ Γ' := by
  induction h with
  | one h => exact OkVar.grows h
  | cons h _ _ ih => exact (OkVar.grows h).trans ih

theorem OkThreadVars.grows (h : OkThreadVars u Γ x Γ') : Larger Γ Γ' := by
  induction h with
  | one _ _ h => exact (OkType.grows h).trans (.declare _ _)
  | cons _ _ h _ _ _ ih => exact ((OkType.grows h).trans (.declare _ _)).trans ih

theorem OkIntfSect.grows (h : OkIntfSect u Γ x Γ') : Larger Γ Γ' := by
  cases h with
  | const _ h => exact OkConsts.grows h
  | type _ h => exact OkTypes.grows h
  | var _ h => exact OkVars.grows h
  | threadVar _ h => exact OkThreadVars.grows h
  | heading => exact .closed _ _

theorem OkIntf.grows (h : OkIntf u Γ x Γ') : Larger Γ Γ' := by
  induction h with
  | nil => exact .refl _
  | cons h _ ih => exact (OkIntfSect.grows h).trans ih

/-- the names may be declared in the innermost scope, and may stand for this -/
def Shows (u : Uni) (Γ : NameEnv) (w : What) (ns : List Str) : Prop := ∀ n ∈ ns, u.toLower n ∈ Γ.inner ∧ (u.toLower n, w) ∈ Γ.seen

theorem Shows.grows {w : What} {ns : List Str} (h : Shows u Γ w ns) (g : Larger Γ Γ') : Shows u Γ' w ns :=
  fun n hn => ⟨g.inner _ (h n hn).1, g.seen _ (h n hn).2⟩

theorem Shows.declare (Γ : NameEnv) (ns : List Str) : Shows u (Γ.declare u ns) .other ns := fun n hn =>
  ⟨List.mem_append_left _ (List.mem_map_of_mem hn), List.mem_append_left _ (List.mem_map.2 ⟨n, hn, rfl⟩)⟩

theorem Shows.declares {n : Str} {o : NameSort} (h : OkName u Γ n o Γ') : Shows u Γ' .type [n] := by
  intro m hm
  rw [List.mem_singleton] at hm
  subst hm
  cases h <;> exact ⟨List.mem_cons_self, List.mem_cons_self⟩

theorem Shows.closed {w : What} {ns : List Str} (h : Shows u Γ' w ns) : Shows u (Γ.closed Γ') w ns := fun n hn =>
  ⟨List.mem_append_right _ (h n hn).1, List.mem_append_right _ (h n hn).2⟩

end TP
