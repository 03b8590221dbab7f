import Verif.Model.Context
import Verif.Lemmas.DeclMap

/-!
# Lemmas about contexts
-/

namespace TP
namespace Ctxs

theorem obj_lt {cs : Ctxs} {i : Nat} {o : CtxObj} (h : obj cs i = some o) : i < cs.length := by
  induction cs with
  | nil => cases h
  | cons a cs ih =>
    simp only [obj] at h
    split at h
    · rename_i e; rw [e]; simp
    · have := ih h; simp only [List.length_cons]; omega

theorem obj_cons_lt {cs : Ctxs} {i : Nat} (o : CtxObj) (h : i < cs.length) : obj (o :: cs) i = obj cs i := by
  have : ¬ i = cs.length := by omega
  simp [obj, this]

theorem obj_some {cs : Ctxs} {i : Nat} (h : i < cs.length) : ∃ o, obj cs i = some o := by
  induction cs with
  | nil => simp at h
  | cons a cs ih =>
    simp only [obj]
    split
    · exact ⟨a, rfl⟩
    · exact ih (by simp only [List.length_cons] at h; omega)

theorem length_modify (f : CtxObj → CtxObj) (cs : Ctxs) (i : Nat) : (modify f cs i).length = cs.length := by
  induction cs with
  | nil => rfl
  | cons a cs ih => simp only [modify]; split <;> simp [ih]

theorem obj_modify (f : CtxObj → CtxObj) (cs : Ctxs) (i j : Nat) :
    obj (modify f cs i) j = if j = i then (obj cs j).map f else obj cs j := by
  induction cs with
  | nil => simp [modify, obj]
  | cons a cs ih =>
    simp only [modify]
    by_cases hi : i = cs.length
    · subst hi
      rw [if_pos rfl]; simp only [obj]
      by_cases hj : j = cs.length
      · simp [hj]
      · simp [hj]
    · rw [if_neg hi]
      simp only [obj, length_modify]
      by_cases hj : j = cs.length
      · subst hj
        have : ¬ cs.length = i := fun e => hi e.symm
        simp [this]
      · simp only [if_neg hj]; exact ih

variable {ν : Type} [EmbNode ν] (u : Uni)

theorem get_cons_lt {m : Maps ν} {cs : Ctxs} {i : Nat} (o : CtxObj) (h : i < cs.length) (name : Str) :
    get u m (o :: cs) i name = get u m cs i name := by
  have : ¬ i = cs.length := by omega
  simp [get, this]

/-- lookups depend only on the objects and on what the maps of the contexts answer -/
theorem get_congr {m m' : Maps ν} {cs cs' : Ctxs} (hl : cs.length ≤ cs'.length) (name : Str)
    (hobj : ∀ i < cs.length, obj cs' i = obj cs i)
    (hm : ∀ i o, obj cs i = some o → m'.get u o.dm name = m.get u o.dm name)
    (i : Nat) (hi : i < cs.length) : get u m' cs' i name = get u m cs i name := by
  induction cs generalizing cs' i with
  | nil => simp at hi
  | cons a cs ih =>
    -- drop the contexts of cs' that are newer
    have drop : ∀ (k : Nat) (ds : Ctxs), ds.length = (a :: cs).length + k →
        (∀ i < (a :: cs).length, obj ds i = obj (a :: cs) i) →
        ∃ es : Ctxs, es.length = (a :: cs).length ∧ (∀ i < (a :: cs).length, obj es i = obj (a :: cs) i) ∧
          ∀ i < (a :: cs).length, get u m' ds i name = get u m' es i name := by
      intro k
      induction k with
      | zero => intro ds hlen ho; exact ⟨ds, by simpa using hlen, ho, fun _ _ => rfl⟩
      | succ k ihk =>
        intro ds hlen ho
        cases ds with
        | nil => simp at hlen
        | cons d ds =>
          have hlen' : ds.length = (a :: cs).length + k := by simp only [List.length_cons] at hlen ⊢; omega
          obtain ⟨es, e1, e2, e3⟩ := ihk ds hlen' (fun i hi => by
            rw [← ho i hi, obj_cons_lt]; omega)
          exact ⟨es, e1, e2, fun i hi => by rw [get_cons_lt u d (by omega)]; exact e3 i hi⟩
    obtain ⟨es, e1, e2, e3⟩ := drop (cs'.length - (a :: cs).length) cs' (by omega) hobj
    rw [e3 i hi]
    cases es with
    | nil => simp at e1
    | cons b es =>
      have hlen : es.length = cs.length := by simpa using e1
      have hba : b = a := by
        have := e2 cs.length (by simp)
        simpa [obj, hlen] using this
      subst hba
      have hobj' : ∀ i < cs.length, obj es i = obj cs i := fun i hi => by
        have := e2 i (by simp; omega)
        rwa [obj_cons_lt b (by omega), obj_cons_lt b hi] at this
      have hm' : ∀ i o, obj cs i = some o → m'.get u o.dm name = m.get u o.dm name := fun i o ho =>
        hm i o (by rw [obj_cons_lt b (obj_lt ho)]; exact ho)
      have hb : m'.get u b.dm name = m.get u b.dm name := hm cs.length b (by simp [obj])
      simp only [get, hlen]
      by_cases hi' : i = cs.length
      · rw [if_pos hi', if_pos hi']
        cases b with
        | program p us d => exact hb
        | unit p q d => exact hb
        | stackable p q d =>
          simp only [CtxObj.dm] at hb ⊢
          rw [hb]
          cases m.get u d name with
          | some r => rfl
          | none =>
            simp only
            by_cases hq : q < cs.length
            · exact ih (by omega) hobj' hm' q hq
            · have none_of : ∀ (mm : Maps ν) (l : Ctxs), ¬ q < l.length → get u mm l q name = none := by
                intro mm l
                induction l with
                | nil => intro _; rfl
                | cons x l ihl =>
                  intro hn
                  simp only [List.length_cons] at hn
                  simp only [get]
                  rw [if_neg (by omega)]
                  exact ihl (by omega)
              rw [none_of _ _ hq, none_of _ _ (by omega)]
      · rw [if_neg hi', if_neg hi']
        exact ih (by omega) hobj' hm' i (by simp only [List.length_cons] at hi; omega)

end Ctxs

namespace World
variable {ν : Type}

/-- every context refers to an existing map -/
def WF (w : World ν) : Prop := ∀ c o, w.ctxs.obj c = some o → o.dm < w.maps.length

theorem dm_eq {w : World ν} {c d : Nat} : w.dm c = some d ↔ ∃ o, w.ctxs.obj c = some o ∧ o.dm = d := by
  unfold dm; rw [Option.map_eq_some_iff]

theorem dm_setDm (w : World ν) (c d i : Nat) :
    (w.setDm c d).dm i = if i = c then (w.dm i).map (fun _ => d) else w.dm i := by
  unfold dm setDm
  rw [Ctxs.obj_modify]
  split
  · cases w.ctxs.obj i with
    | none => rfl
    | some o => cases o <;> rfl
  · rfl

end World
end TP
