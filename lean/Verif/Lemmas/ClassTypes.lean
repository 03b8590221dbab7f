import Verif.Lemmas.ClassProps
import Verif.Lemmas.TraceGoal

/-!
# The properties of all classes declared in a program

While a program is parsed, types are added, and references are set that led nowhere before.  What a property may use stays so.
-/

namespace TP
open Spec

variable {u : Uni}

/-- types are added, and references set -/
structure Gains (a b : DS) : Prop where
  types : ∀ (i : Nat) t, a.types[i]? = some t → b.types[i]? = some t
  refs : ∀ (i : Nat) d, (a.refs[i]?).join = some d → (b.refs[i]?).join = some d

theorem Gains.parent {a b : DS} (g : Gains a b) {h h' : List (TypeId (Decl Node))} {ms : Sects (Decl Node)} (p : ParentIs a h h' ms) :
    ParentIs b h h' ms := by
  obtain ⟨t, rest, n, c, h1, h2, h3⟩ := p
  refine ⟨t, rest, n, c, h1, ?_, g.types c _ h3⟩
  cases hr : t.ref with
  | later i => rw [hr] at h2; exact g.refs i _ h2
  | _ => rw [hr] at h2; exact h2

theorem Gains.ancestor {a b : DS} (g : Gains a b) {h : List (TypeId (Decl Node))} {d : Decl Node} (o : OfAncestor a h d) : OfAncestor b h d := by
  induction o with
  | here p h => exact .here (g.parent p) h
  | above p _ ih => exact .above (g.parent p) ih

theorem Gains.nearest {a b : DS} (g : Gains a b) {f : List Member' → Option (Decl Node)} {h : List (TypeId (Decl Node))} {d : Decl Node}
    (o : NearestIs a f h d) : NearestIs b f h d := by
  induction o with
  | here p h => exact .here (g.parent p) h
  | above p h _ ih => exact .above (g.parent p) h ih

theorem Gains.accessor {a b : DS} (g : Gains a b) {h : List (TypeId (Decl Node))} {own : List Member'} {r : IdentRef (Decl Node)}
    (o : AccessorOK u a h own r) : AccessorOK u b h own r := by
  obtain ⟨d, h1, h2, h3⟩ := o
  exact ⟨d, h1, h2.imp id g.ancestor, fun ha => (h3 ha).imp id fun x => ⟨x.1, g.nearest x.2⟩⟩

theorem Gains.lead {a b : DS} (g : Gains a b) {h : List (TypeId (Decl Node))} {ms : Sects (Decl Node)} (c : PropertiesLead u a h ms) :
    PropertiesLead u b h ms := fun x hx =>
  ⟨fun r hr => g.accessor ((c x hx).1 r hr), fun d hd => ⟨((c x hx).2 d hd).1.imp id fun y => ⟨y.1, g.nearest y.2⟩, ((c x hx).2 d hd).2⟩⟩

theorem SameTR.gains {a b : DS} (e : SameTR a b) : Gains a b := ⟨fun i t h => by rw [e.1]; exact h, fun i d h => by rw [e.2]; exact h⟩

theorem ClassOK.lead {k : DS} {h : List (TypeId (Decl Node))} {ms : Sects (Decl Node)} (c : ClassOK u k h ms) : PropertiesLead u k h ms :=
  fun x hx => ⟨(c x hx).1, fun d hd => ((c x hx).2 d).1 hd⟩

/-- all declared classes are right -/
def ClassesLead (u : Uni) (k : DS) : Prop := ∀ (i : Nat) h ms, k.types[i]? = some (.cls h ms) → PropertiesLead u k h ms

theorem ClassesLead.same {a b : DS} (e : SameTR a b) (c : ClassesLead u a) : ClassesLead u b := fun i h ms hi =>
  e.gains.lead (c i h ms (by rw [← e.1]; exact hi))

theorem ClassesLead.add {k k' : DS} {ty : PType (Decl Node)} (ht : k'.types = k.types ++ [ty]) (hr : k'.refs = k.refs) (hc : TypeOK u k ty)
    (c : ClassesLead u k) : ClassesLead u k' := by
  have g : Gains k k' := ⟨fun i t h => by
    rw [ht, List.getElem?_append_left (List.getElem?_eq_some_iff.1 h).1]; exact h, fun i d h => by rw [hr]; exact h⟩
  intro i h ms hi
  refine g.lead ?_
  rw [ht] at hi
  by_cases hl : i < k.types.length
  · rw [List.getElem?_append_left hl] at hi
    exact c i h ms hi
  · rw [List.getElem?_append_right (by omega)] at hi
    have : ty = .cls h ms := by
      cases hm : i - k.types.length with
      | zero => rw [hm] at hi; simpa using hi
      | succ m => rw [hm] at hi; cases hi
    exact (hc h ms this).lead

theorem declareType_lead {i : Ident} {ty : PType (Decl Node)} {s s' : PS DS} {a : Unit} (e : declareType (declEnv u) i ty s = .ok a s')
    (hc : TypeOK u s.cx ty) (c : ClassesLead u s.cx) : ClassesLead u s'.cx := by
  unfold declareType at e
  obtain ⟨o, s1, e0, e⟩ := ok_bind e
  cases e0
  cases hg : (declEnv u).get s.cx i.name with
  | none =>
    rw [hg] at e
    change setDecl (declEnv u) [i] (.type ty) s = _ at e
    unfold setDecl at e
    cases e1 : (declEnv u).set s.cx [i] (.type ty) with
    | ok k =>
      rw [e1] at e; cases e
      change s.cx.set u [i] (.type ty) = _ at e1
      have := setR_ok e1
      exact c.add (ty := ty) (by rw [this]; rfl) (by rw [this]; rfl) hc
    | _ => rw [e1] at e; cases e
  | some old =>
    rw [hg] at e
    change (if (declEnv u).isType old then completeType (declEnv u) old i ty else P.fail) s = _ at e
    split at e
    · unfold completeType at e
      cases e1 : (declEnv u).complete s.cx old i ty with
      | ok k =>
        rw [e1] at e; cases e
        change s.cx.complete u old i ty = _ at e1
        unfold DS.complete at e1
        split at e1
        · split at e1
          · have := setR_ok e1
            exact c.add (ty := .cls _ _) (by rw [this]) (by rw [this]) hc
          · cases e1
        · cases e1
      | _ => rw [e1] at e; cases e
    · cases e

theorem typeDecl_lead {n : Nat} {s s' : PS DS} {d : TypeDecl (Decl Node)} (e : parseTypeDecl u (declEnv u) n s = .ok d s') (c : ClassesLead u s.cx) :
    ClassesLead u s'.cx := by
  unfold parseTypeDecl at e
  obtain ⟨s1, s2, e, h1, h2⟩ := traced_ok e
  rw [h2]
  rw [← h1] at c
  obtain ⟨t, s3, e3, e⟩ := ok_bind e
  obtain ⟨_, s4, e4, e⟩ := ok_bind e
  obtain ⟨_, s5, e5, e⟩ := ok_bind e
  obtain ⟨b, s6, e6, e⟩ := ok_bind e
  have q : s6.cx = s1.cx := by
    rw [quiet_is _ _ _ _ e6, quiet_next _ _ _ e5, quiet_nextIs _ _ _ _ e4, quiet_current _ _ _ _ e3]
  rw [← q] at c
  have main : ∀ s : PS DS, ClassesLead u s.cx → (do
      let ty ← parseType u (declEnv u) n
      declareType (declEnv u) (Ident.ofTok t) ty
      let pd ← typeDeclEnd u
      pure ⟨Ident.ofTok t, ty, pd⟩ : P DS (TypeDecl (Decl Node))) s = .ok d s2 → ClassesLead u s2.cx := by
    intro s c e
    obtain ⟨ty, s7, e7, e⟩ := ok_bind e
    obtain ⟨_, s8, e8, e⟩ := ok_bind e
    obtain ⟨pd, s9, e9, e⟩ := ok_bind e
    cases e
    have qe : Quiet (typeDeclEnd u : P DS _) := by unfold typeDeclEnd; quiets
    rw [qe _ _ _ e9]
    have st : SameTR s.cx s7.cx := ((typesTr (sameTRBase u) n).type s trivial (fun _ h => by cases h) _ _ e7).2.1
    exact declareType_lead e8 (type_ok n _ _ _ e7) (c.same st)
  cases b with
  | true =>
    obtain ⟨_, s7, e7, e⟩ := ok_bind e
    exact main s7 (by rw [quiet_next _ _ _ e7]; exact c) e
  | false => exact main s6 c e

theorem typeDecls_lead : ∀ {n : Nat} {s s' : PS DS} {ds : List (TypeDecl (Decl Node))}, parseTypeDecls u (declEnv u) n s = .ok ds s' →
    ClassesLead u s.cx → ClassesLead u s'.cx
  | 0, _, _, _, e, _ => by cases e
  | n + 1, s, s', ds, e, c => by
    unfold parseTypeDecls at e
    obtain ⟨d, s1, e1, e⟩ := ok_bind e
    obtain ⟨b, s2, e2, e⟩ := ok_bind e
    have c1 : ClassesLead u s2.cx := by rw [quiet_is _ _ _ _ e2]; exact typeDecl_lead e1 c
    cases b with
    | true => cases e; exact c1
    | false =>
      obtain ⟨_, s3, e3, e⟩ := ok_bind e
      obtain ⟨_, s4, e4, e⟩ := ok_bind e
      obtain ⟨b, s5, e5, e⟩ := ok_bind e
      have c2 : ClassesLead u s5.cx := by rw [quiet_is _ _ _ _ e5, quiet_next _ _ _ e4, quiet_current _ _ _ _ e3]; exact c1
      cases b with
      | true => cases e; exact c2
      | false =>
        obtain ⟨rest, s6, e6, e⟩ := ok_bind e
        cases e
        exact typeDecls_lead e6 c2

theorem runSection_types (k : DS) : (k.runSection u).types = k.types := by
  unfold DS.runSection
  generalize k.pending = l
  induction l generalizing k with
  | nil => rfl
  | cons r l ih =>
    rw [List.foldl_cons, ih]
    unfold DS.runRef
    split <;> rfl

theorem runSection_gains {k : DS} (hp : Pend k) : Gains k (k.runSection u) := by
  refine ⟨fun i t h => ?_, fun i d h => ?_⟩
  · rw [runSection_types k]; exact h
  · unfold DS.runSection
    rw [runRefs_other u k.pending i k fun p hpp hpi => ?_]
    · exact h
    · have := hp.new p.1 p.2 hpp
      rw [hpi] at this
      rw [this] at h
      cases h

theorem classesSteady (u : Uni) : Steady u (ClassesLead u) where
  same hr ht c := c.same (.same ht hr)
  newRef {k} name c := by
    refine c.same (show SameTR k (k.newRef name).1 from ⟨rfl, fun i => ?_⟩)
    show ((k.refs ++ [none])[i]?).join = _
    rw [List.getElem?_append]
    split
    · rfl
    · rename_i hi
      have : k.refs[i]? = none := List.getElem?_eq_none (by omega)
      rw [this]
      cases i - k.refs.length <;> rfl
  sect {n s s' ds} _ c e := by
    unfold parseTypeSection withSection at e
    have B := sectionBase u { s.cx with pending := [] }
    have main : Tr _ _ _ [] (do P.next; parseTypeDecls u (declEnv u) n : P DS _) idsDecls :=
      Tr.step B quiet_next fun _ => typeDecls_tr B
        (fun h _ e => ⟨h.set e, .same (set_refs e).2⟩) (fun h _ e => ⟨h.complete e, .same (complete_refs e).2⟩) n
    cases e1 : (do P.next; parseTypeDecls u (declEnv u) n : P DS _) { s with cx := (declEnv u).openSection s.cx } with
    | ok a s1 =>
      rw [e1] at e
      cases e
      obtain ⟨h1, -, -⟩ := main _ .start (fun _ h => by cases h) _ _ e1
      have hp : Pend s1.cx := occurs_pend ⟨fun i m h => (by cases h), fun i m m' h => (by cases h)⟩ h1
      obtain ⟨_, s2, e2, e3⟩ := ok_bind e1
      have c1 : ClassesLead u s1.cx := typeDecls_lead e3 (by rw [quiet_next _ _ _ e2]; exact c.same (.same (by rfl) (by rfl)))
      have g : Gains s1.cx (s1.cx.runSection u) := runSection_gains hp
      have c2 : ClassesLead u (s1.cx.runSection u) := fun i h ms hi => g.lead (c1 i h ms (by rw [runSection_types s1.cx] at hi; exact hi))
      exact c2.same (.same (by rfl) (by rfl))
    | _ => rw [e1] at e; cases e

end TP
