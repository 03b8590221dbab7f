import Verif.Lemmas.Named

/-!
# Parsing with ranked types
-/

namespace TP
open Spec Maps

/-- all assembler blocks are closed, and types lead to types of smaller rank -/
def Orderly (u : Uni) (rank : Str → Nat) (ts : List Token) : Prop := AsmClosed u ts ∧ Ranked u rank ts

variable {u : Uni} {rank : Str → Nat}

theorem Spec.Ranked.mono {ts ts' : List Token} (h : Ranked u rank ts) (hs : ts' <:+ ts) : Ranked u rank ts' :=
  fun prev x eq rest h1 => h prev x eq rest (h1.trans hs)

theorem Orderly.tail {t : Token} {ts : List Token} (h : Orderly u rank (t :: ts)) : Orderly u rank ts :=
  ⟨asmClosed_tail u h.1, h.2.mono (List.suffix_cons _ _)⟩

variable (u rank) in
/-- the names are known, those in `a` and `b` are among them -/
def NamedBy (a b : List Str) (k : DS) : Prop := ∃ nm rn, a <+: nm ∧ b <+: rn ∧ Named u rank nm rn k

/-- types with the names `l` have been declared -/
def SoFar (u : Uni) (rank : Str → Nat) (nm rn : List Str) (l : List Ident) (k : DS) : Prop :=
  Stays u rank (nm ++ l.map fun i => u.toLower i.name) rn k

theorem SoFar.by {nm rn : List Str} {l : List Ident} {k : DS} (h : SoFar u rank nm rn l k) : NamedBy u rank nm rn k := by
  obtain ⟨rn', h1, h2⟩ := h
  exact ⟨_, rn', List.prefix_append _ _, h1, h2⟩

/-- a type that has been parsed may be declared -/
theorem SoFar.came {nm rn : List Str} {l : List Ident} {c : DS} {i : Ident} {ty : PType (Decl Node)}
    (h : Came u (declEnv u) (SoFar u rank nm rn l) (Orderly u rank) c i ty) :
    ∃ rn', rn <+: rn' ∧ Named u rank (nm ++ l.map fun i => u.toLower i.name) rn' c ∧
      Named.Fits u rank (nm ++ l.map fun i => u.toLower i.name) rn' (u.toLower i.name) ty := by
  obtain ⟨t, eq, rest, n, s, s', ⟨prev, h1, h2⟩, h3, rfl, h4, h5, ⟨rn1, p1, h6⟩, h7, rfl, h8⟩ := h
  obtain ⟨rn2, p2, h9⟩ := h6.parsed h7 h8 (key := u.toLower t.raw) (by
    have := h1.2 prev t eq rest List.suffix_rfl h2 h3 h4
    rcases h5 with rfl | ⟨w, rfl, hw⟩
    · exact this
    · exact fun name hn => this name (follows_word (by rw [hw.2]; decide) hn))
  exact ⟨rn2, p1.trans p2, h9⟩

theorem soFar_types (nm rn : List Str) : DTypes u (declEnv u) (NamedBy u rank nm rn) (SoFar u rank nm rn) (Orderly u rank) True where
  set l c _ i ty hc := by
    obtain ⟨rn', h1, h2, h3⟩ := SoFar.came hc
    rw [show (declEnv u).set c [i] (.type ty) = c.set u [i] (.type ty) from rfl]
    cases e : c.set u [i] (.type ty) with
    | ok c' =>
      have : SoFar u rank nm rn (l ++ [i]) c' := ⟨rn', h1, by simpa using h2.setType h3 e⟩
      exact ⟨this.by, this⟩
    | _ => trivial
  complete l c _ d i ty hc := by
    obtain ⟨rn', h1, h2, h3⟩ := SoFar.came hc
    rw [show (declEnv u).complete c d i ty = c.complete u d i ty from rfl]
    cases e : c.complete u d i ty with
    | ok c' =>
      have : SoFar u rank nm rn (l ++ [i]) c' := ⟨rn', h1, by simpa using h2.complete h3 e⟩
      exact ⟨this.by, this⟩
    | _ => trivial

/-- the end of a section -/
theorem Named.close {nm nm' rn rn' : List Str} {k0 k : DS} (h0 : Named u rank nm rn k0) (hr : rn <+: rn')
    (h : Named u rank nm' rn' k) : Named u rank nm' rn' { k.runSection u with pending := k0.pending } :=
  h.runSection.pending rfl rfl rfl fun p hp => getElem?_pre hr (h0.pend p hp)

theorem namedBase (a b : List Str) {tl : Tail} (htl : tl ≠ .hang) :
    DBase u (declEnv u) (NamedBy u rank a b) (Orderly u rank) tl True False := by
  refine .of (F := fun J => ∃ a b, J = NamedBy u rank a b) ?_ ⟨a, b, rfl⟩
  rintro J ⟨a, b, rfl⟩
  refine ⟨{
    roll := fun c ⟨nm, rn, h1, h2, h⟩ => ⟨nm, rn, h1, h2, h.rollback⟩
    nil := fun _ => trivial
    hang := htl
    ns := fun _ _ _ _ _ _ _ _ _ _ _ _ => trivial
    set := fun c ⟨nm, rn, h1, h2, h⟩ is k hk => by
      rw [show (declEnv u).set c is k = c.set u is k from rfl]
      cases e : c.set u is k with
      | ok k' => exact ⟨nm, rn, h1, h2, h.set hk e⟩
      | _ => trivial
    newRef := fun c name ⟨nm, rn, h1, h2, h⟩ => ⟨nm, _, h1, h2.trans (List.prefix_append _ _), h.newRef name⟩
    ordinal := fun c ⟨_, _, _, _, h⟩ ty => h.acyclic.ordinal ty
    findMember := fun c ⟨_, _, _, _, h⟩ => h.acyclic.findMember u
    findProp := fun c ⟨_, _, _, _, h⟩ => h.acyclic.findProp u
    good := fun _ _ h => h.tail
    asm := fun t ts h ht hn => by
      obtain ⟨x, h1, h2⟩ := h.1 t ts List.suffix_rfl ht
      exact hn x h1 h2 }, ?_, ?_⟩
  · rintro c ⟨nm, rn, h1, h2, h⟩
    exact ⟨NamedBy u rank a b, ⟨a, b, rfl⟩, ⟨nm, rn, h1, h2, h.stack⟩, fun c' ⟨nm, rn, h1, h2, h⟩ => ⟨nm, rn, h1, h2, h.restore c⟩⟩
  · rintro t ts hg ht c ⟨nm, rn, h1, h2, h⟩
    have first : SoFar u rank nm rn [] ((declEnv u).openSection c) :=
      ⟨rn, List.prefix_rfl, by
        rw [List.map_nil, List.append_nil]
        exact h.pending rfl rfl rfl (fun _ h => by cases h)⟩
    refine ⟨NamedBy u rank nm rn, SoFar u rank nm rn, ⟨nm, rn, rfl⟩, ⟨first.by, first, ?_⟩, soFar_types nm rn⟩
    rintro c' ⟨nm', rn', h3, h4, h'⟩
    exact ⟨nm', rn', h1.trans h3, h2.trans h4, h.close h4 h'⟩

theorem named_init (path : Str) : Named u rank [] [] (DS.init path) where
  types := rfl
  lens := rfl
  stored := by
    intro j p hp
    match j with
    | 0 => cases hp
    | 1 => cases hp
    | j + 2 => cases hp
  chain _ _ _ h := by cases h
  refs _ _ h := by cases h
  pend _ h := by cases h

end TP
