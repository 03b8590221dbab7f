import Verif.Spec.Declared

/-!
# What an interface offers

The names that the interface of a unit declares at its outermost level: constants, types, variables and routines.  Elements of
enumerations, parameters and what the implementation declares are not among them.
-/

namespace TP.Spec
variable {δ : Type}

/-- the declarations of a section of an interface -/
def offered : IntfDecl δ → List (Dcl δ)
  | .const ds => ds.map fun d => .named .const d.ident
  | .type _ ds => ds.map fun d => .type d.ident.name d.type
  | .var ds => ds.flatMap fun d => d.idents.map (.named .var)
  | .threadVar ds => ds.flatMap fun d => d.idents.map (.named .threadVar)
  | .heading h _ => [.named .heading h.ident]

/-- what the block of a program can refer to: the program itself, the items of its uses clause, what the interfaces of the
units offer, and the declarations of the block -/
def reachable (t : ProgramTree δ) : List (Dcl δ) :=
  .program t.ident.name :: dclUses t.uses ++ t.units.flatMap (fun x => x.intf.flatMap offered) ++ dclBlock t.block

end TP.Spec
