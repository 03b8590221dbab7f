import Verif.Lemmas.ExprComplete
import Verif.Props.C25
import Verif.Props.C49
import Verif.Lemmas.Heap

/-!
# C44  Qualified names resolve only in their namespace

False for programs: the map of a program contains the program itself, so that `P.P` is accepted.
-/

namespace TP.Props
open TP Spec

section
variable (u : Uni)

/-- the declarations of the unit or program `d` stands for are those of the map `m` -/
def SpaceMap (k : DS) (d : Decl Node) (m : Nat) : Prop :=
  (∃ j, d.node = .unit j ∧ k.w.unitDm j = some m) ∨
  (∃ i j, d.node = .uses i ∧ k.items[i]? = some (some j) ∧ k.w.unitDm j = some m) ∨
  (d.node = .program ∧ k.program = some m)

theorem member_found {k : DS} {d e : Decl Node} {name : Str} (h : DS.member u k d name = .found e) :
    ∃ m, SpaceMap k d m ∧ k.w.maps.get u m name = some e := by
  have key : ∀ dm, DS.inMap u k dm name = .found e → ∃ m, dm = some m ∧ k.w.maps.get u m name = some e := by
    intro dm h
    unfold DS.inMap at h
    cases dm with
    | none => cases h
    | some m =>
      simp only at h
      cases e2 : k.w.maps.get u m name with
      | none => rw [e2] at h; cases h
      | some x => rw [e2] at h; injection h with h; subst h; exact ⟨m, rfl, e2⟩
  unfold DS.member at h
  cases hd : d.node with
  | uses i =>
    rw [hd] at h
    simp only at h
    cases hi : k.items[i]? with
    | none => rw [hi] at h; cases h
    | some o =>
      rw [hi] at h
      cases o with
      | none => cases h
      | some j =>
        obtain ⟨m, h1, h2⟩ := key _ h
        exact ⟨m, .inr (.inl ⟨i, j, hd, hi, h1⟩), h2⟩
  | unit j =>
    rw [hd] at h
    obtain ⟨m, h1, h2⟩ := key _ h
    exact ⟨m, .inl ⟨j, hd, h1⟩, h2⟩
  | program =>
    rw [hd] at h
    obtain ⟨m, h1, h2⟩ := key _ h
    exact ⟨m, .inr (.inr ⟨hd, h1⟩), h2⟩
  | _ => rw [hd] at h; cases h

theorem member_error {k : DS} {d : Decl Node} {m : Nat} {name : Str} (hm : SpaceMap k d m)
    (h : k.w.maps.get u m name = none) : DS.member u k d name = .error := by
  unfold DS.member
  rcases hm with ⟨j, hd, hj⟩ | ⟨i, j, hd, hi, hj⟩ | ⟨hd, hp⟩
  · simp only [hd, hj, DS.inMap, h]
  · simp only [hd, hi, Option.join_some, hj, DS.inMap, h]
  · simp only [hd, hp, DS.inMap, h]

/-- A qualified name resolves to the declaration of its second part in the map of the namespace its first part stands
for, and to nothing else: neither to declarations of the surrounding scopes nor to those of other units. -/
theorem C44_resolves (s s' : PS DS) (r : IdentRef (Decl Node)) (q : IdentRef (Decl Node))
    (h : parseQualId u (declEnv u).toEnv s = .ok ⟨some r, q⟩ s') :
    ∃ d e m, r.ref = some d ∧ q.ref = some e ∧ s.cx.get u r.ident.name = some d ∧ SpaceMap s.cx d m ∧
      s.cx.w.maps.get u m q.ident.name = some e := by
  have key : wp (parseQualId u (declEnv u).toEnv) s (fun q _ => match q with
      | ⟨some r, q⟩ => ∃ d e m, r.ref = some d ∧ q.ref = some e ∧ s.cx.get u r.ident.name = some d ∧ SpaceMap s.cx d m ∧
        s.cx.w.maps.get u m q.ident.name = some e
      | _ => True) True True := by
    unfold parseQualId
    rw [wp_bind]
    refine wp_current (fun t ht hid => ?_) (fun _ => trivial)
    have hid : t.typ = .ident := by simpa [Pred.some, Pred.typ] using hid
    have hv : t.value u = t.raw := value_of_ne (by rw [hid]; decide)
    rw [hv]
    rw [wp_bind]
    unfold getDecl
    unfold wp
    simp only
    have plain : wp (do
        P.next
        let r ← getDecl (declEnv u).toEnv t.raw
        pure (⟨none, ⟨Ident.ofTok t, r⟩⟩ : QualId (Decl Node))) s (fun q _ => match q with
        | ⟨some r, q⟩ => ∃ d e m, r.ref = some d ∧ q.ref = some e ∧ s.cx.get u r.ident.name = some d ∧ SpaceMap s.cx d m ∧
          s.cx.w.maps.get u m q.ident.name = some e
        | _ => True) True True := by
      rw [wp_bind]
      refine wp_next ?_ (fun _ => trivial)
      rw [wp_bind]
      trivial
    cases hd : (declEnv u).get s.cx t.raw with
    | none => exact plain
    | some d =>
      refine wp_ite (fun _ => ?_) (fun _ => plain)
      rw [wp_bind]
      refine wp_nextIs (fun _ _ _ => ?_) (fun _ => trivial)
      rw [wp_bind]
      refine wp_nextIs (fun t3 ht3 hid3 => ?_) (fun _ => trivial)
      rw [typ_iff] at hid3
      have hv3 : t3.value u = t3.raw := value_of_ne (by rw [hid3]; decide)
      unfold wp
      simp only [hv3]
      cases hm : DS.member u s.cx d t3.raw with
      | error => have : (declEnv u).member s.cx d t3.raw = .error := hm
                 simp only [this]
      | panic => have : (declEnv u).member s.cx d t3.raw = .panic := hm
                 simp only [this]
      | found e =>
        have : (declEnv u).member s.cx d t3.raw = .found e := hm
        simp only [this]
        obtain ⟨m, h1, h2⟩ := member_found u hm
        show wp (P.next >>= fun _ => (pure ⟨some ⟨Ident.ofTok t, some d⟩, ⟨Ident.ofTok t3, some e⟩⟩ : P DS (QualId (Decl Node))))
          _ _ _ _
        rw [wp_bind]
        refine wp_next ?_ (fun _ => trivial)
        exact ⟨d, e, m, rfl, rfl, hd, h1, h2⟩
  unfold wp at key
  rw [h] at key
  exact key

/-- If there is none, it is an error. -/
theorem C44_undefined (s : PS DS) (t1 t2 t3 : Token) (ts : List Token) (d : Decl Node) (m : Nat)
    (hs : s.ts = t1 :: t2 :: t3 :: ts) (h1 : t1.typ = .ident) (h2 : IsSym r!"." t2) (h3 : t3.typ = .ident)
    (hd : s.cx.get u t1.raw = some d) (hm : SpaceMap s.cx d m) (hn : s.cx.w.maps.get u m t3.raw = none) :
    parseQualId u (declEnv u).toEnv s = .err := by
  obtain ⟨_, tl, k⟩ := s
  simp only at hs hd hm hn
  subst hs
  have v1 : t1.value u = t1.raw := value_of_ne (by rw [h1]; decide)
  have v3 : t3.value u = t3.raw := value_of_ne (by rw [h3]; decide)
  have hns : ((declEnv u).isNamespace d || (declEnv u).isUses d) = true := by
    rcases hm with ⟨j, hd, _⟩ | ⟨i, j, hd, _, _⟩ | ⟨hd, _⟩ <;> simp [declEnv, hd]
  have hmem : (declEnv u).member k d t3.raw = .error := member_error u hm hn
  have e1 : P.current (Pred.some [Pred.typ .ident]) (⟨t1 :: t2 :: t3 :: ts, tl, k⟩ : PS DS) = .ok t1 ⟨_, tl, k⟩ :=
    current_run rfl (by simp [Pred.some, Pred.typ, h1])
  have e2 : P.nextIs (sym r!".") (⟨t1 :: t2 :: t3 :: ts, tl, k⟩ : PS DS) = .ok t2 ⟨t2 :: t3 :: ts, tl, k⟩ := by
    unfold P.nextIs
    show P.bind _ _ _ = _
    unfold P.bind
    rw [next_run rfl ⟨t2, rfl, trivial⟩]
    exact current_run rfl (symbol_iff.2 h2)
  have e3 : P.nextIs (Pred.typ .ident) (⟨t2 :: t3 :: ts, tl, k⟩ : PS DS) = .ok t3 ⟨t3 :: ts, tl, k⟩ := by
    unfold P.nextIs
    show P.bind _ _ _ = _
    unfold P.bind
    rw [next_run rfl ⟨t3, rfl, trivial⟩]
    exact current_run rfl (typ_iff.2 h3)
  unfold parseQualId
  show P.bind _ _ _ = _
  unfold P.bind
  rw [e1]
  show P.bind _ _ _ = _
  unfold P.bind getDecl
  have hd' : (declEnv u).get k t1.raw = some d := hd
  simp only [v1, hd', hns, if_true]
  show P.bind _ _ _ = _
  unfold P.bind
  rw [e2]
  show P.bind _ _ _ = _
  unfold P.bind
  rw [e3]
  simp only [v3, hmem]

/-- The map of a unit whose interface has been parsed contains only the declarations of the interface: not the unit, nor
the units it uses, nor what they declare. -/
theorem C44_unit_own (k : DS) (j : Nat) (ds : List (IntfDecl (Decl Node))) (m : Nat) (name : Str) (e : Decl Node)
    (hj : j < k.w.units.length) (hm : (k.finishIntf u j ds).w.unitDm j = some m)
    (he : (k.finishIntf u j ds).w.maps.get u m name = some e) :
    ∃ d ∈ ds, ∃ es ∈ DS.declNodes d, e ∈ es ∧ u.toLower e.name = u.toLower name := by
  have hu : k.w.units[j]? = some k.w.units[j] := List.getElem?_eq_getElem hj
  have e1 : m = k.w.maps.length := by
    unfold DS.finishIntf World.finishIntf World.unitDm World.setUnitDm World.newMap at hm
    simp only [hu] at hm
    rw [List.getElem?_set_self hj] at hm
    injection hm with hm
    exact hm.symm
  have e2 : (k.finishIntf u j ds).w.maps = .impl (World.intfTable u (ds.flatMap DS.declNodes) []) :: k.w.maps := by
    unfold DS.finishIntf World.finishIntf World.setUnitDm World.newMap
    simp only [hu]
  rw [e1, e2] at he
  simp only [Maps.get, if_true] at he
  rcases intfTable_mem u _ _ _ (find_mem he) with h | ⟨h, h'⟩
  · cases h
  · obtain ⟨es, h1, h2⟩ := List.mem_flatten.1 h
    obtain ⟨d, h3, h4⟩ := List.mem_flatMap.1 h1
    exact ⟨d, h3, es, h4, h2, h'.symm⟩

end

/-- a program with one unit -/
def exOne (intf stmt : Str) : List (Str × Str) :=
  [(r!"p", r!"program P; uses A in 'a', B in 'b'; var v: Integer; begin " ++ stmt ++ r!"; end."),
   (r!"a", r!"unit A; interface uses B; " ++ intf ++ r!" implementation const z = 1; end."),
   (r!"b", r!"unit B; interface const y = 1; implementation end.")]

example : unitsRead (exProgram (exOne r!"const x = 1;" r!"A.x := B.y")) = some [(r!"A", [r!"B"]), (r!"B", [])] := by krfl
example : unitsRead (exProgram (exOne r!"const x = 1;" r!"P.v := 1")) = some [(r!"A", [r!"B"]), (r!"B", [])] := by krfl
/-- names of the used unit, of the unit itself, of the implementation, of the used units, of built-in types -/
example : exProgram (exOne r!"const x = 1;" r!"A.y := 1") matches .err := by krfl
example : exProgram (exOne r!"const x = 1;" r!"A.A := 1") matches .err := by krfl
example : exProgram (exOne r!"const x = 1;" r!"A.z := 1") matches .err := by krfl
example : exProgram (exOne r!"const x = 1;" r!"P.A := 1") matches .err := by krfl
example : exProgram (exOne r!"const x = 1;" r!"P.Integer := 1") matches .err := by krfl

/-- A program contains itself. -/
theorem C44_refuted : unitsRead (exProgram (exOne r!"const x = 1;" r!"P.P := 1")) =
    some [(r!"A", [r!"B"]), (r!"B", [])] := by krfl

end TP.Props
