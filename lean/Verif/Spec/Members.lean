import Verif.Model.DeclEnv

/-!
# The members of classes, and where the properties of a class find theirs

Everything is said about the tree of a class: its heritage and its sections.  The node of a field is known by the first name
of its group, those of methods and properties by their own.
-/

namespace TP.Spec
open TP

/-- a member of a class with the visibility of its section -/
abbrev Member' := Visibility × Decl Node

/-- the fields, in order -/
def fieldDecls : Fields (Decl Node) → List (Decl Node)
  | .nil => []
  | .cons [] _ rest => fieldDecls rest
  | .cons (i :: is) _ rest => (i :: is).map (fun j => ⟨j.name, .decl .field i⟩) ++ fieldDecls rest

/-- the methods, in order -/
def methodDecls : Methods (Decl Node) → List (Decl Node)
  | .nil => []
  | .cons (.func _ i _ _) _ rest => ⟨i.name, .decl .method i⟩ :: methodDecls rest
  | .cons (.ctor i _) _ rest => ⟨i.name, .decl .method i⟩ :: methodDecls rest
  | .cons (.dtor i) _ rest => ⟨i.name, .decl .method i⟩ :: methodDecls rest

/-- which of the type, `INDEX`, `READ` and `WRITE` a property has from its parents -/
def fromParent : Option (Decl Node) → Bool × Bool × Bool × Bool
  | some ⟨_, .prop _ a b c d⟩ => (a, b, c, d)
  | _ => (false, false, false, false)

/-- a property has a type of its own -/
def typed : OptIntf (Decl Node) → Bool
  | .some _ _ => true
  | .none => false

/-- the declaration of a property: what it does not have itself it has from its parents -/
def propDeclOf : ClassProp (Decl Node) → Decl Node
  | .mk i intf ix rd wr _ _ _ parent =>
    let p := fromParent parent
    ⟨i.name, .prop i (typed intf || p.1) (ix.isSome || p.2.1) (rd.isSome || p.2.2.1) (wr.isSome || p.2.2.2)⟩

def propList : Props (Decl Node) → List (ClassProp (Decl Node))
  | .nil => []
  | .cons p rest => p :: propList rest

/-- the members of all sections, in order: in each section fields, methods, properties -/
def classMembers : Sects (Decl Node) → List Member'
  | .nil => []
  | .cons v fs ms ps rest => (fieldDecls fs ++ methodDecls ms ++ (propList ps).map propDeclOf).map (fun d => (v, d)) ++ classMembers rest

/-- the properties of a class, each with the members that stand before it in the text and are no properties of its own section -/
def propsIn (before : List Member') : Sects (Decl Node) → List (List Member' × ClassProp (Decl Node))
  | .nil => []
  | .cons v fs ms ps rest =>
    (propList ps).map (fun p => (before ++ (fieldDecls fs ++ methodDecls ms).map (fun d => (v, d)), p)) ++
      propsIn (before ++ (fieldDecls fs ++ methodDecls ms ++ (propList ps).map propDeclOf).map (fun d => (v, d))) rest

/-- all of them -/
def everyMember (l : List Member') : List (Decl Node) := l.map (·.2)
/-- those that are not private -/
def openMember (l : List Member') : List (Decl Node) := (l.filter (fun m => m.1 != .priv)).map (·.2)
/-- those that are properties -/
def propMember (l : List Member') : List (Decl Node) :=
  (l.map (·.2)).filter (fun d => match d.node with | .prop .. => true | _ => false)

/-- the first of that name, in any case of letters -/
def firstNamed (u : Uni) (name : Str) (l : List (Decl Node)) : Option (Decl Node) :=
  l.find? (fun d => u.toLower d.name = u.toLower name)

/-- The parent of a class with this heritage: its first item leads to a class. -/
def ParentIs (k : DS) (heritage : List (TypeId (Decl Node))) (h : List (TypeId (Decl Node))) (ms : Sects (Decl Node)) : Prop :=
  ∃ t rest name c, heritage = t :: rest ∧ k.ref t.ref = some ⟨name, .type c⟩ ∧ k.types[c]? = some (.cls h ms)

/-- `f` gives nothing for the nearer ancestors, and `d` for the next -/
inductive NearestIs (k : DS) (f : List Member' → Option (Decl Node)) : List (TypeId (Decl Node)) → Decl Node → Prop
  | here {heritage h ms d} : ParentIs k heritage h ms → f (classMembers ms) = some d → NearestIs k f heritage d
  | above {heritage h ms d} : ParentIs k heritage h ms → f (classMembers ms) = none → NearestIs k f h d → NearestIs k f heritage d

/-- `d` is a member of an ancestor and not private -/
inductive OfAncestor (k : DS) : List (TypeId (Decl Node)) → Decl Node → Prop
  | here {heritage h ms d} : ParentIs k heritage h ms → d ∈ openMember (classMembers ms) → OfAncestor k heritage d
  | above {heritage h ms d} : ParentIs k heritage h ms → OfAncestor k h d → OfAncestor k heritage d

/-- What a name stands for in a class with these members: a member of its own, or else the nearest one of an ancestor that
is not private. -/
def StandsFor (u : Uni) (k : DS) (h : List (TypeId (Decl Node))) (own : List Member') (name : Str) (d : Decl Node) : Prop :=
  firstNamed u name (everyMember own) = some d ∨
  firstNamed u name (everyMember own) = none ∧ NearestIs k (fun l => firstNamed u name (openMember l)) h d

/-- The same for properties; private ones of ancestors are found too. -/
def PropertyIs (u : Uni) (k : DS) (h : List (TypeId (Decl Node))) (own : List Member') (name : Str) (d : Decl Node) : Prop :=
  firstNamed u name (propMember own) = some d ∨
  firstNamed u name (propMember own) = none ∧ NearestIs k (fun l => firstNamed u name (propMember l)) h d

/-- `d` is a member of the class or of an ancestor and may be used in the class -/
def Usable (k : DS) (h : List (TypeId (Decl Node))) (own : List Member') (d : Decl Node) : Prop :=
  d ∈ everyMember own ∨ OfAncestor k h d

/-- the identifiers of `READ`, `WRITE` and `STORED` -/
def accessors : ClassProp (Decl Node) → List (IdentRef (Decl Node))
  | .mk _ _ _ rd wr st _ _ _ => rd.toList ++ wr.toList ++ (match st with | some (.ref r) => [r] | _ => [])

def propIdent : ClassProp (Decl Node) → Ident
  | .mk i _ _ _ _ _ _ _ _ => i

def propParent : ClassProp (Decl Node) → Option (Decl Node)
  | .mk _ _ _ _ _ _ _ _ p => p

/-- the property lacks something that the other has -/
def Lacks : ClassProp (Decl Node) → Decl Node → Prop
  | .mk _ intf ix rd wr _ _ _ _, ⟨_, .prop _ a b c d⟩ =>
    (a = true ∧ typed intf = false) ∨ (b = true ∧ ix = none) ∨ (c = true ∧ rd = none) ∨ (d = true ∧ wr = none)
  | _, _ => False

/-- only characters of ASCII -/
def Ascii (name : Str) : Prop := ∀ c ∈ name, c.toNat < 128

/-- An accessor leads to a member that may be used in the class; if its name is plain, to the one that the name stands for. -/
def AccessorOK (u : Uni) (k : DS) (h : List (TypeId (Decl Node))) (own : List Member') (r : IdentRef (Decl Node)) : Prop :=
  ∃ d, r.ref = some d ∧ Usable k h own d ∧ (Ascii r.ident.name → StandsFor u k h own r.ident.name d)

/-- The accessors of a property are right, and its parent is the property of that name, if that has something it lacks. -/
def PropertyOK (u : Uni) (k : DS) (h : List (TypeId (Decl Node))) (own : List Member') (p : ClassProp (Decl Node)) : Prop :=
  (∀ r ∈ accessors p, AccessorOK u k h own r) ∧
  ∀ d, propParent p = some d ↔ PropertyIs u k h own (propIdent p).name d ∧ Lacks p d

/-- What stays true of the properties of a class when references are set later: the class may get a parent then, but its
properties do not. -/
def PropertiesLead (u : Uni) (k : DS) (h : List (TypeId (Decl Node))) (ms : Sects (Decl Node)) : Prop :=
  ∀ x ∈ propsIn [] ms, (∀ r ∈ accessors x.2, AccessorOK u k h x.1 r) ∧
    ∀ d, propParent x.2 = some d → PropertyIs u k h x.1 (propIdent x.2).name d ∧ Lacks x.2 d

end TP.Spec
