import Verif.Model.Decls

/-!
# The type identifiers of a type

All `TypeId` nodes inside a type, except the operand of `CLASS OF`.
-/

namespace TP.Spec

variable {δ : Type}

mutual
def idsType : PType δ → List (TypeId δ)
  | .nil => []
  | .id t => [t]
  | .enum _ => []
  | .subrange _ _ => []
  | .pointer t => [t]
  | .fixedString _ _ => []
  | .array _ ix base => idsOptTypes ix ++ idsType base
  | .set _ elem => idsType elem
  | .file _ t => [t]
  | .record _ fl => idsFieldList fl
  | .proc _ ps r _ => idsOptParams ps ++ r.toList
  | .forward => []
  | .classRef _ => []
  | .cls h ms => h ++ idsSects ms
def idsOptTypes : OptPTypes δ → List (TypeId δ)
  | .none => []
  | .some ts => idsTypes ts
def idsTypes : PTypes δ → List (TypeId δ)
  | .one t => idsType t
  | .cons t rest => idsType t ++ idsTypes rest
def idsFieldList : FieldList δ → List (TypeId δ)
  | .mk fs v => idsFields fs ++ idsOptVariant v
def idsFields : Fields δ → List (TypeId δ)
  | .nil => []
  | .cons _ t rest => idsType t ++ idsFields rest
def idsOptVariant : OptVariant δ → List (TypeId δ)
  | .none => []
  | .some _ t vs => idsType t ++ idsVariants vs
def idsVariants : Variants δ → List (TypeId δ)
  | .nil => []
  | .cons _ fl rest => idsFieldList fl ++ idsVariants rest
def idsOptParams : OptParams δ → List (TypeId δ)
  | .none => []
  | .some ps => idsParams ps
def idsParams : Params δ → List (TypeId δ)
  | .one _ _ t _ => idsParamTy t
  | .cons _ _ t _ rest => idsParamTy t ++ idsParams rest
def idsParamTy : ParamTy δ → List (TypeId δ)
  | .none => []
  | .some _ t => idsType t
def idsSects : Sects δ → List (TypeId δ)
  | .nil => []
  | .cons _ fs ms ps rest => idsFields fs ++ idsMethods ms ++ idsProps ps ++ idsSects rest
def idsMethods : Methods δ → List (TypeId δ)
  | .nil => []
  | .cons h _ rest => idsHeading h ++ idsMethods rest
def idsHeading : Heading δ → List (TypeId δ)
  | .func _ _ ps r => idsOptParams ps ++ r.toList
  | .ctor _ ps => idsOptParams ps
  | .dtor _ => []
def idsProps : Props δ → List (TypeId δ)
  | .nil => []
  | .cons p rest => idsProp p ++ idsProps rest
def idsProp : ClassProp δ → List (TypeId δ)
  | .mk _ intf _ _ _ _ _ impl _ => idsOptIntf intf ++ impl.toList
def idsOptIntf : OptIntf δ → List (TypeId δ)
  | .none => []
  | .some ps t => idsOptParams ps ++ [t]
end

/-- all type identifiers of a type section -/
def idsDecls (ds : List (TypeDecl δ)) : List (TypeId δ) := ds.flatMap fun d => idsType d.type

end TP.Spec
