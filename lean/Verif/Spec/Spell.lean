import Verif.Spec.Canon
import Verif.Model.Goal

/-!
# Units and programs up to spelling

`Spell` says how names, texts and positions are replaced.  What a declaration refers to is kept; the declarations of embedded
types do not come from the source, so their names are kept too.
-/

namespace TP.Spec
open TP

/-- how names, texts and positions are replaced -/
structure Spell where
  nm : Str → Str
  str : Str → Str
  pos : Pos → Pos

namespace Spell
variable (c : Spell)

def id (i : Ident) : Ident := ⟨c.nm i.name, c.pos i.start, c.pos i.stop⟩

def node : Node → Node
  | .prop i a b d e => .prop (c.id i) a b d e
  | .decl t i => .decl t (c.id i)
  | n => n

def decl (d : Decl Node) : Decl Node :=
  match d.node with
  | .embedded _ _ => d
  | n => ⟨c.nm d.name, c.node n⟩

/-- the replacement of leaves in trees -/
def tr : Tr (Decl Node) (Decl Node) := ⟨fun _ => c.decl, fun i => i, c.id, c.str⟩

/-- nothing is replaced -/
def same : Spell := ⟨fun a => a, fun a => a, fun p => p⟩

/-- ASCII letters in upper case, except in string literals -/
def caseless : Spell where
  nm s := s.map asciiUp
  str s := if s.head? = some '\'' ∨ s.head? = some '#' then s else s.map asciiUp
  pos p := p

/-- ASCII letters in upper case, except in string literals, and no positions -/
def plain : Spell := { caseless with pos := fun _ => ⟨0, 0, 0⟩ }

end Spell
end TP.Spec

namespace TP
open Spec
variable {δ ε : Type} (m : Tr δ ε)

def UsesEntry.tr (e : UsesEntry) : UsesEntry := ⟨m.id e.ident, e.path, e.no⟩

def IntfDecl.tr : IntfDecl δ → IntfDecl ε
  | .const ds => .const (ds.map (·.tr m))
  | .type first ds => .type first (ds.map (·.tr m))
  | .var ds => .var (ds.map (·.tr m))
  | .threadVar ds => .threadVar (ds.map (·.tr m))
  | .heading h o => .heading (h.tr m) (o.tr m.str)

def InitSection.tr (s : InitSection δ) : InitSection ε :=
  ⟨s.initialization.tr m (·.tr m), s.finalization.map (·.tr m (·.tr m))⟩

def UnitHead.tr (h : UnitHead) : UnitHead := ⟨m.id h.ident, h.portability.map m.str, h.no⟩

def UnitBody.tr (b : UnitBody δ) : UnitBody ε :=
  ⟨b.decls.tr m, b.exports.map (fun is => is.map (·.tr m)), b.init.map (·.tr m)⟩

def UnitTree.tr (t : UnitTree δ) : UnitTree ε :=
  ⟨t.head.tr m, t.intfUses.map (·.tr m), t.intf.map (·.tr m), t.implUses.map (·.tr m), t.body.tr m⟩

def ProgramTree.tr (t : ProgramTree δ) : ProgramTree ε :=
  ⟨m.id t.ident, t.uses.map (·.tr m), t.units.map (·.tr m), t.block.tr m⟩

end TP
