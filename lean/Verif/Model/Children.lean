import Verif.Model.Goal
import Verif.Model.Walk

/-!
# Model of the methods `Children` of the nodes in `ast/*.go` and `ast/astcore/ident*.go`

The trees of the parser as trees of nodes (`Verif/Model/Walk.lean`): every node with the nodes returned by its method
`Children`.  Where the code leaves out a list that is nil, a list without elements is left out: the parser sets these fields
only to lists with elements (`parser/type_class.go:47-58, 135-153`, `parser/block.go:64-68, 107-111`,
`parser/unit_parser.go:268-272`).

The references from names to declarations are not children.  `Program.Units` is not part of `ast.Program`
(`parser/program.go:15-18`), so the units of a program are trees of their own.
-/

namespace TP

/-- A node as far as a visitor of `WalkDown` is told about it here. -/
inductive NodeVal
  /-- `*astcore.Ident` -/
  | ident (i : Ident)
  /-- `*VarDeclAbsoluteIdent`, `ast/var.go:73` -/
  | absolute (i : Ident)
  /-- `*ValueFactor`, `ast/expression.go:446-448` -/
  | value (v : Str)
  /-- `*NumberFactor`, `ast/expression.go:421-423` -/
  | number (v : Str)
  /-- `*StringFactor`, `ast/expression.go:434-436` -/
  | string (v : Str)
  /-- another Go type -/
  | other (name : String)
  deriving DecidableEq, Repr

/-- a list of children; `none` is a nil interface -/
def Forest.ofList : List (Option (Tree NodeVal)) → Forest NodeVal
  | [] => .nil
  | none :: r => .skip (Forest.ofList r)
  | some t :: r => .cons t (Forest.ofList r)

/-- a node of the given type with these children -/
def Tree.mk (name : String) (cs : List (Option (Tree NodeVal))) : Tree NodeVal := .node (.other name) (.ofList cs)

/-- `Ident.Children`, `ast/astcore/ident.go:59-61` -/
def identNode (i : Ident) : Tree NodeVal := .node (.ident i) .nil
/-- `IdentList.Children`, `ast/astcore/ident.go:124-130` -/
def identsNode (is : List Ident) : Tree NodeVal := .mk "IdentList" (is.map fun i => some (identNode i))

/-- a list, left out if it is nil -/
def listNode (name : String) : List (Option (Tree NodeVal)) → List (Option (Tree NodeVal))
  | [] => []
  | c :: cs => [some (.mk name (c :: cs))]

/-- a child that may be missing -/
def optNode {α : Type} (f : α → Tree NodeVal) : Option α → List (Option (Tree NodeVal))
  | none => []
  | some a => [some (f a)]

variable {δ : Type}

/-- `IdentRef.Children`, `ast/astcore/ident_ref.go:16-21` -/
def identRefNode (r : IdentRef δ) : Tree NodeVal := .mk "IdentRef" [some (identNode r.ident)]
/-- `QualId.Children`, `ast/unit.go:236-243` -/
def qualNode (q : QualId δ) : Tree NodeVal :=
  .mk "QualId" (optNode identRefNode q.ns ++ [some (identRefNode q.ident)])

/-! ## Expressions -/

mutual
/-- `Expression.Children`, `ast/expression.go:30-36` -/
def exprNode : Expr δ → Tree NodeVal
  | .mk se rest => .mk "Expression" (some (sexprNode se) :: listNode "RelOpSimpleExpressions" (relNodes rest))
/-- `RelOpSimpleExpressions.Children`, `RelOpSimpleExpression.Children`, `ast/expression.go:86-100` -/
def relNodes : RelTail δ → List (Option (Tree NodeVal))
  | .nil => []
  | .cons _ se rest => some (.mk "RelOpSimpleExpression" [some (sexprNode se)]) :: relNodes rest
/-- `SimpleExpression.Children`, `ast/expression.go:125-131` -/
def sexprNode : SExpr δ → Tree NodeVal
  | .mk _ t rest => .mk "SimpleExpression" (some (termNode t) :: listNode "AddOpTerms" (addNodes rest))
/-- `AddOpTerms.Children`, `AddOpTerm.Children`, `ast/expression.go:153-165` -/
def addNodes : AddTail δ → List (Option (Tree NodeVal))
  | .nil => []
  | .cons _ t rest => some (.mk "AddOpTerm" [some (termNode t)]) :: addNodes rest
/-- `Term.Children`, `ast/expression.go:189-195` -/
def termNode : Term δ → Tree NodeVal
  | .mk f rest => .mk "Term" (some (factorNode f) :: listNode "MulOpFactors" (mulNodes rest))
/-- `MulOpFactors.Children`, `MulOpFactor.Children`, `ast/expression.go:230-242` -/
def mulNodes : MulTail δ → List (Option (Tree NodeVal))
  | .nil => []
  | .cons _ f rest => some (.mk "MulOpFactor" [some (factorNode f)]) :: mulNodes rest
/-- the factors, `ast/expression.go:296-312, 421-543`; the type of a `TypeCast` is a `TypeId` without unit
(`parser/expression.go:201`), `ast/type_id.go:49-56` -/
def factorNode : Factor δ → Tree NodeVal
  | .desig d => .mk "DesignatorFactor" [some (desigNode d)]
  | .call d args => .mk "DesignatorFactor" [some (desigNode d), some (.mk "ExprList" (exprsNodes args))]
  | .addr d => .mk "Address" [some (desigNode d)]
  | .value v => .node (.value v) .nil
  | .str v => .node (.string v) .nil
  | .num v => .node (.number v) .nil
  | .nil => .mk "Nil" []
  | .paren e => .mk "Parentheses" [some (exprNode e)]
  | .not f => .mk "Not" [some (factorNode f)]
  | .set es => .mk "SetConstructor" (elemsNodes es)
  | .cast t e => .mk "TypeCast" [some (.mk "TypeId" [some (identNode t.ident)]), some (exprNode e)]
/-- `Designator.Children`, `ast/expression.go:349-355` -/
def desigNode : Desig δ → Tree NodeVal
  | .mk q items => .mk "Designator" (some (qualNode q) :: listNode "DesignatorItems" (itemNodes items))
/-- `DesignatorItems.Children` and the items, `ast/expression.go:361-414` -/
def itemNodes : Items δ → List (Option (Tree NodeVal))
  | .nil => []
  | .ident i rest => some (.mk "DesignatorItemIdent" [some (identNode i)]) :: itemNodes rest
  | .index es rest => some (.mk "DesignatorItemExprList" (exprsNodes es)) :: itemNodes rest
  | .deref rest => some (.mk "DesignatorItemDereference" []) :: itemNodes rest
/-- `ExprList.Children`, `ast/expression.go:46-52` -/
def exprsNodes : Exprs δ → List (Option (Tree NodeVal))
  | .one e => [some (exprNode e)]
  | .cons e rest => some (exprNode e) :: exprsNodes rest
/-- `SetConstructor.Children`, `ast/expression.go:501-507` -/
def elemsNodes : SetElems δ → List (Option (Tree NodeVal))
  | .one e => [some (elemNode e)]
  | .cons e rest => some (elemNode e) :: elemsNodes rest
/-- `SetElement.Children`, `ast/expression.go:524-530` -/
def elemNode : SetElem δ → Tree NodeVal
  | .single e => .mk "SetElement" [some (exprNode e)]
  | .range lo hi => .mk "SetElement" [some (exprNode lo), some (exprNode hi)]
end

/-! ## Statements; `ty` gives the node of a type, or a nil interface -/

section
variable {τ : Type} (ty : τ → Option (Tree NodeVal))

/-- `CaseLabel.Children`, `ast/statement.go:315-321` -/
def caseLabelNode : CaseLabel δ → Tree NodeVal
  | .single e => .mk "CaseLabel" [some (exprNode e)]
  | .range lo hi => .mk "CaseLabel" [some (exprNode lo), some (exprNode hi)]
/-- `CaseLabels.Children`, `ast/statement.go:284-290` -/
def caseLabelNodes : CaseLabels δ → List (Option (Tree NodeVal))
  | .one l => [some (caseLabelNode l)]
  | .cons l rest => some (caseLabelNode l) :: caseLabelNodes rest
/-- `QualIds.Children`, `ast/unit.go:250-256` -/
def qualNodes : QualIds δ → List (Option (Tree NodeVal))
  | .one q => [some (qualNode q)]
  | .cons q rest => some (qualNode q) :: qualNodes rest

mutual
/-- `Statement.Children`, `ast/statement.go:48-55` -/
def stmtNode : Stmt δ τ → Tree NodeVal
  | .mk l b => .mk "Statement" (optNode identNode l ++ [some (bodyNode b)])
/-- the statements, `ast/statement.go:19, 135-565` -/
def bodyNode : Body δ τ → Tree NodeVal
  | .assign d e => .mk "AssignStatement" [some (desigNode d), some (exprNode e)]
  | .call d => .mk "CallStatement" [some (desigNode d)]
  | .callArgs d args => .mk "CallStatement" [some (desigNode d), some (.mk "ExprList" (exprsNodes args))]
  | .inherited => .mk "InheritedStatement" []
  | .goto i _ => .mk "GotoStatement" [some (identNode i)]
  | .compound l => .mk "CompoundStmt" [some (.mk "StmtList" (stmtNodes l))]
  | .ifThen c s => .mk "IfStmt" [some (exprNode c), some (stmtNode s)]
  | .ifElse c s1 s2 => .mk "IfStmt" [some (exprNode c), some (stmtNode s1), some (stmtNode s2)]
  | .case e sels els => .mk "CaseStmt" ([some (exprNode e), some (.mk "CaseSelectors" (selNodes sels))] ++ elseNode els)
  | .repeat l c => .mk "RepeatStmt" [some (.mk "StmtList" (stmtNodes l)), some (exprNode c)]
  | .while c s => .mk "WhileStmt" [some (exprNode c), some (stmtNode s)]
  | .for q _ lo hi s => .mk "ForStmt" [some (qualNode q), some (exprNode lo), some (exprNode hi), some (stmtNode s)]
  | .with qs s => .mk "WithStmt" [some (.mk "QualIds" (qualNodes qs)), some (stmtNode s)]
  | .tryExcept l b => .mk "TryExceptStmt" [some (.mk "StmtList" (stmtNodes l)), some (excNode b)]
  | .tryFinally l1 l2 => .mk "TryFinallyStmt" [some (.mk "StmtList" (stmtNodes l1)), some (.mk "StmtList" (stmtNodes l2))]
  | .raise obj addr => .mk "RaiseStmt" (optNode exprNode obj ++ optNode exprNode addr)
  | .asm => .mk "AssemblerStatement" []
/-- `StmtList.Children`, `ast/statement.go:29-35` -/
def stmtNodes : Stmts δ τ → List (Option (Tree NodeVal))
  | .one s => [some (stmtNode s)]
  | .cons s rest => some (stmtNode s) :: stmtNodes rest
/-- the field `Else` of `CaseStmt`, `ast/statement.go:247-249` -/
def elseNode : OptStmts δ τ → List (Option (Tree NodeVal))
  | .none => []
  | .some l => [some (.mk "StmtList" (stmtNodes l))]
/-- `CaseSelectors.Children`, `CaseSelector.Children`, `ast/statement.go:257-278` -/
def selNodes : Sels δ τ → List (Option (Tree NodeVal))
  | .one ls s => [some (.mk "CaseSelector" [some (.mk "CaseLabels" (caseLabelNodes ls)), some (stmtNode s)])]
  | .cons ls s rest =>
    some (.mk "CaseSelector" [some (.mk "CaseLabels" (caseLabelNodes ls)), some (stmtNode s)]) :: selNodes rest
/-- `ExceptionBlock.Children`, `ast/statement.go:456-458`: both lists, even if one of them is nil -/
def excNode : ExcBlock δ τ → Tree NodeVal
  | .plain l => .mk "ExceptionBlock" [some (.mk "ExceptionBlockHandlers" []), some (.mk "StmtList" (stmtNodes l))]
  | .handlers hs .none =>
    .mk "ExceptionBlock" [some (.mk "ExceptionBlockHandlers" (handlerNodes hs)), some (.mk "StmtList" [])]
  | .handlers hs (.some l) =>
    .mk "ExceptionBlock" [some (.mk "ExceptionBlockHandlers" (handlerNodes hs)), some (.mk "StmtList" (stmtNodes l))]
/-- `ExceptionBlockHandlers.Children`, `ast/statement.go:464-470` -/
def handlerNodes : Handlers δ τ → List (Option (Tree NodeVal))
  | .one h => [some (handlerNode h)]
  | .cons h rest => some (handlerNode h) :: handlerNodes rest
/-- `ExceptionBlockHandler.Children`, `ExceptionBlockHandlerDecl.Children`, `ast/statement.go:479-497` -/
def handlerNode : Handler δ τ → Tree NodeVal
  | .mk i t s => .mk "ExceptionBlockHandler"
      [some (.mk "ExceptionBlockHandlerDecl" (optNode identNode i ++ [ty t])), some (stmtNode s)]
end
end

/-! ## Types -/

/-- `TypeId.Children`, `ast/type_id.go:49-56` -/
def typeIdNode (t : TypeId δ) : Tree NodeVal := .mk "TypeId" (optNode identNode t.unit ++ [some (identNode t.ident)])
/-- `EnumeratedTypeElement.Children`, `ast/type_simple.go:142-148` -/
def enumElemNode (e : EnumElem δ) : Tree NodeVal :=
  .mk "EnumeratedTypeElement" (some (identNode e.ident) :: optNode exprNode e.expr)
/-- `PropertyStoredSpecifier.Children`, `ast/type_class.go:566-572` -/
def storedNode : Stored δ → Tree NodeVal
  | .const _ => .mk "PropertyStoredSpecifier" []
  | .ref r => .mk "PropertyStoredSpecifier" [some (identRefNode r)]
/-- `PropertyDefaultSpecifier.Children`, `ast/type_class.go:581-587` -/
def propDefaultNode : PropDefault δ → Tree NodeVal
  | .value e => .mk "PropertyDefaultSpecifier" [some (exprNode e)]
  | .noDefault => .mk "PropertyDefaultSpecifier" []

mutual
/-- the types; a nil `Type` is a nil interface -/
def typeNode : PType δ → Option (Tree NodeVal)
  | .nil => none
  | .id t => some (typeIdNode t)
  /- `ast/type_simple.go:126-132` -/
  | .enum es => some (.mk "EnumeratedType" (es.map fun e => some (enumElemNode e)))
  /- `ast/type_simple.go:168` -/
  | .subrange lo hi => some (.mk "SubrangeType" [some (exprNode lo), some (exprNode hi)])
  /- `ast/type_pointer.go:40-42` -/
  | .pointer t => some (.mk "CustomPointerType" [some (typeIdNode t)])
  /- `ast/type_string.go:18-24, 42-44`: the string type is a `TypeId` -/
  | .fixedString i e => some (.mk "FixedStringType" [some (.mk "TypeId" [some (identNode i)]), some (exprNode e)])
  /- `ast/type_struc.go:33-40` -/
  | .array _ ix base => some (.mk "ArrayType" (indexNodes ix ++ [typeNode base]))
  /- `ast/type_struc.go:56-58` -/
  | .set _ t => some (.mk "SetType" [typeNode t])
  /- `ast/type_struc.go:74-76` -/
  | .file _ t => some (.mk "FileType" [some (typeIdNode t)])
  /- `ast/type_struc.go:92-94` -/
  | .record _ fl => some (.mk "RecType" [some (fieldListNode fl)])
  /- `ast/type_procedure.go:24-33` -/
  | .proc _ ps ret _ => some (.mk "ProcedureType" (optParamsNode ps ++ optNode typeIdNode ret))
  /- `ast/type_class.go:43-45` -/
  | .forward => some (.mk "ForwardDeclaredClassType" [])
  /- `ast/type_class_ref.go:20-22` -/
  | .classRef t => some (.mk "CustomClassRefType" [some (typeIdNode t)])
  /- `ast/type_class.go:62-71, 177-183` -/
  | .cls h ms => some (.mk "CustomClassType" (listNode "ClassHeritage" (h.map fun t => some (typeIdNode t)) ++
      listNode "ClassMemberSections" (sectNodes ms)))
/-- `IndexTypes` in `ast/type_struc.go:34-37` -/
def indexNodes : OptPTypes δ → List (Option (Tree NodeVal))
  | .none => []
  | .some ts => typeNodes ts
def typeNodes : PTypes δ → List (Option (Tree NodeVal))
  | .one t => [typeNode t]
  | .cons t rest => typeNode t :: typeNodes rest
/-- `FieldList.Children`, `ast/type_struc.go:107-113` -/
def fieldListNode : FieldList δ → Tree NodeVal
  | .mk fs v => .mk "FieldList" (some (.mk "FieldDecls" (fieldNodes fs)) :: variantNode v)
/-- `FieldDecls.Children`, `FieldDecl.Children`, `ast/type_struc.go:119-125, 139-141`, and `ClassFieldList.Children`,
`ClassField.Children`, `ast/type_class.go:253-259, 272-274` -/
def fieldNodes : Fields δ → List (Option (Tree NodeVal))
  | .nil => []
  | .cons is t rest => some (.mk "FieldDecl" [some (identsNode is), typeNode t]) :: fieldNodes rest
/-- `VariantSection.Children`, `ast/type_struc.go:159-168`: the type comes before the name -/
def variantNode : OptVariant δ → List (Option (Tree NodeVal))
  | .none => []
  | .some i t vs => [some (.mk "VariantSection"
      (typeNode t :: (optNode identNode i ++ [some (.mk "RecVariants" (variantNodes vs))])))]
/-- `RecVariants.Children`, `RecVariant.Children`, `ast/type_struc.go:174-180, 193-195` -/
def variantNodes : Variants δ → List (Option (Tree NodeVal))
  | .nil => []
  | .cons es fl rest =>
    some (.mk "RecVariant" [some (.mk "ExprList" (exprsNodes es)), some (fieldListNode fl)]) :: variantNodes rest
/-- a field `FormalParameters` that may be nil -/
def optParamsNode : OptParams δ → List (Option (Tree NodeVal))
  | .none => []
  | .some ps => [some (.mk "FormalParameters" (paramNodes ps))]
/-- `FormalParameters.Children`, `FormalParm.Children`, `Parameter.Children`,
`ast/function_heading.go:86-92, 113-115, 208-217` -/
def paramNodes : Params δ → List (Option (Tree NodeVal))
  | .one _ is t e =>
    [some (.mk "FormalParm" [some (.mk "Parameter" (some (identsNode is) :: (paramTyNode t ++ optNode exprNode e)))])]
  | .cons _ is t e rest =>
    some (.mk "FormalParm" [some (.mk "Parameter" (some (identsNode is) :: (paramTyNode t ++ optNode exprNode e)))]) ::
      paramNodes rest
/-- `ParameterType.Children`, `ast/function_heading.go:175-177`: the type is nil for `ARRAY OF CONST` -/
def paramTyNode : ParamTy δ → List (Option (Tree NodeVal))
  | .none => []
  | .some _ t => [some (.mk "ParameterType" [typeNode t])]
/-- `ClassMemberSections.Children`, `ClassMemberSection.Children`, `ast/type_class.go:193-199, 217-229` -/
def sectNodes : Sects δ → List (Option (Tree NodeVal))
  | .nil => []
  | .cons _ fs ms ps rest => some (.mk "ClassMemberSection"
      (listNode "ClassFieldList" (fieldNodes fs) ++ (listNode "ClassMethodList" (methodNodes ms) ++
        listNode "ClassPropertyList" (propNodes ps)))) :: sectNodes rest
/-- `ClassMethodList.Children`, `ClassMethod.Children`, `ast/type_class.go:291-297, 315-317` -/
def methodNodes : Methods δ → List (Option (Tree NodeVal))
  | .nil => []
  | .cons h _ rest => some (.mk "ClassMethod" [some (headingNode h)]) :: methodNodes rest
/-- `FunctionHeading.Children`, `ast/function_heading.go:69-78`, `ConstructorHeading.Children`,
`DestructorHeading.Children`, `ast/type_class.go:398-404, 418-420` -/
def headingNode : Heading δ → Tree NodeVal
  | .func _ i ps ret => .mk "FunctionHeading" (some (identNode i) :: (optParamsNode ps ++ optNode typeIdNode ret))
  | .ctor i ps => .mk "ConstructorHeading" (some (identNode i) :: optParamsNode ps)
  | .dtor i => .mk "DestructorHeading" [some (identNode i)]
/-- `ClassPropertyList.Children`, `ast/type_class.go:430-436` -/
def propNodes : Props δ → List (Option (Tree NodeVal))
  | .nil => []
  | .cons p rest => some (propNode p) :: propNodes rest
/-- `ClassProperty.Children`, `ast/type_class.go:469-493` -/
def propNode : ClassProp δ → Tree NodeVal
  | .mk i intf ix rd wr st df im _ => .mk "ClassProperty" (some (identNode i) :: (intfNode intf ++ (optNode exprNode ix ++
      (optNode identRefNode rd ++ (optNode identRefNode wr ++ (optNode storedNode st ++ (optNode propDefaultNode df ++
      optNode typeIdNode im)))))))
/-- `PropertyInterface.Children`, `ast/type_class.go:548-557` -/
def intfNode : OptIntf δ → List (Option (Tree NodeVal))
  | .none => []
  | .some ps t => [some (.mk "PropertyInterface" (optParamsNode ps ++ [some (typeIdNode t)]))]
end

/-! ## Declarations -/

/-- `ConstantDecl.Children`, `ast/const.go:47-54` -/
def constDeclNode (d : ConstDecl δ) : Tree NodeVal :=
  .mk "ConstantDecl" (some (identNode d.ident) :: ((match d.type with | none => [] | some t => [typeNode t]) ++
    [some (exprNode d.expr)]))
/-- `TypeDecl.Children`, `ast/type.go:48-50` -/
def typeDeclNode (d : TypeDecl δ) : Tree NodeVal := .mk "TypeDecl" [some (identNode d.ident), typeNode d.type]
/-- `VarDecl.Children`, `ast/var.go:50-62`, `VarDeclAbsoluteIdent.Children`, `ast/var.go:91-93` -/
def varDeclNode (d : VarDecl δ) : Tree NodeVal :=
  .mk "VarDecl" (some (identsNode d.idents) :: typeNode d.type ::
    (optNode (fun i => .node (.absolute i) .nil) d.absolute ++ optNode exprNode d.expr))
/-- `ThreadVarDecl.Children`, `ast/var.go:135-141` -/
def threadVarDeclNode (d : ThreadVarDecl δ) : Tree NodeVal :=
  .mk "ThreadVarDecl" [some (identsNode d.idents), typeNode d.type]
/-- `ConstSection.Children`, `ast/const.go:16-22` -/
def constsNode (ds : List (ConstDecl δ)) : Tree NodeVal := .mk "ConstSection" (ds.map fun d => some (constDeclNode d))
/-- `TypeSection.Children`, `ast/type.go:18-24` -/
def typesNode (ds : List (TypeDecl δ)) : Tree NodeVal := .mk "TypeSection" (ds.map fun d => some (typeDeclNode d))
/-- `VarSection.Children`, `ast/var.go:16-22` -/
def varsNode (ds : List (VarDecl δ)) : Tree NodeVal := .mk "VarSection" (ds.map fun d => some (varDeclNode d))
/-- `ThreadVarSection.Children`, `ast/var.go:113-119` -/
def threadVarsNode (ds : List (ThreadVarDecl δ)) : Tree NodeVal :=
  .mk "ThreadVarSection" (ds.map fun d => some (threadVarDeclNode d))
/-- `ExportsItem.Children`, `ast/block.go:92-101` -/
def exportsItemNode (i : ExportsItem δ) : Tree NodeVal :=
  .mk "ExportsItem" (some (identNode i.ident) :: (optNode exprNode i.name ++ optNode exprNode i.index))
/-- `ExportsStmts.Children`, `ExportsStmt.Children`, `ast/block.go:47-53, 71-77` -/
def exportsNode (ex : List (List (ExportsItem δ))) : List (Option (Tree NodeVal)) :=
  listNode "ExportsStmts" (ex.map fun is => some (.mk "ExportsStmt" (is.map fun i => some (exportsItemNode i))))

mutual
/-- `Block.Children`, `ast/block.go:28-41` -/
def blockNode : Block δ → Tree NodeVal
  | .mk ds ex b => .mk "Block" (listNode "DeclSections" (declSectNodes ds) ++ (exportsNode ex ++ [b.map (bodyNode typeNode)]))
/-- `DeclSections.Children`, `ast/block.go:128-134` -/
def declSectNodes : DeclSects δ → List (Option (Tree NodeVal))
  | .nil => []
  | .cons s rest => some (declSectNode s) :: declSectNodes rest
/-- `LabelDeclSection.Children`, `ast/block.go:148`, `FunctionDecl.Children`, `ast/function.go:41-43`, and the sections -/
def declSectNode : DeclSect δ → Tree NodeVal
  | .label i => .mk "LabelDeclSection" [some (identNode i)]
  | .const ds => constsNode ds
  | .type ds => typesNode ds
  | .var ds => varsNode ds
  | .threadVar ds => threadVarsNode ds
  | .func h _ b => .mk "FunctionDecl" [some (headingNode h), some (blockNode b)]
end

/-! ## Units and programs -/

/-- `UsesClause.Children`, `UsesClauseItem.Children`, `ast/uses_clause.go:32-38, 90-92` -/
def usesNode (es : List UsesEntry) : List (Option (Tree NodeVal)) :=
  listNode "UsesClause" (es.map fun e => some (.mk "UsesClauseItem" [some (identNode e.ident)]))
/-- the implementations of `InterfaceDecl`; `ExportedHeading.Children`, `ast/function_heading.go:27` -/
def intfDeclNode : IntfDecl δ → Tree NodeVal
  | .const ds => constsNode ds
  | .type _ ds => typesNode ds
  | .var ds => varsNode ds
  | .threadVar ds => threadVarsNode ds
  | .heading h _ => .mk "ExportedHeading" [some (headingNode h)]
/-- `InterfaceSection.Children`, `InterfaceDecls.Children`, `ast/unit.go:101-110, 135-141` -/
def intfNodes (us : List UsesEntry) (ds : List (IntfDecl δ)) : Tree NodeVal :=
  .mk "InterfaceSection" (usesNode us ++ listNode "InterfaceDecls" (ds.map fun d => some (intfDeclNode d)))
/-- `InitSection.Children`, `ast/unit.go:190-196` -/
def initNode (i : InitSection δ) : Tree NodeVal :=
  .mk "InitSection" (some (.mk "StmtList" (stmtNodes typeNode i.initialization)) ::
    optNode (fun l => .mk "StmtList" (stmtNodes typeNode l)) i.finalization)
/-- `Unit.Children`, `ImplementationSection.Children`, `ast/unit.go:34-46, 159-171` -/
def unitNode (t : UnitTree δ) : Tree NodeVal :=
  .mk "Unit" ([some (identNode t.head.ident), some (intfNodes t.intfUses t.intf),
    some (.mk "ImplementationSection" (usesNode t.implUses ++ (listNode "DeclSections" (declSectNodes t.body.decls) ++ exportsNode t.body.exports)))] ++
    optNode initNode t.body.init)
/-- `Program.Children`, `ProgramBlock.Children`, `ast/program.go:29-36, 61-68` -/
def programNode (t : ProgramTree δ) : Tree NodeVal :=
  .mk "Program" [some (identNode t.ident), some (.mk "ProgramBlock" (usesNode t.uses ++ [some (blockNode t.block)]))]

end TP
