import Verif.Spec.Visit
import Verif.Lemmas.StmtPieces

/-!
# Walks over the trees of the parser: basic lemmas, expressions
-/

set_option linter.unusedSectionVars false

namespace TP
open TP.Spec

/-! ## The nodes of a tree in the order of the walk -/

mutual
def Tree.vals : Tree NodeVal → List NodeVal
  | .node a cs => a :: cs.vals
  | .nilptr a => [a]
def Forest.vals : Forest NodeVal → List NodeVal
  | .nil => []
  | .skip ts => ts.vals
  | .cons t ts => t.vals ++ ts.vals
end

mutual
/-- no nil pointers -/
def Tree.Clean : Tree NodeVal → Prop
  | .node _ cs => cs.Clean
  | .nilptr _ => False
def Forest.Clean : Forest NodeVal → Prop
  | .nil => True
  | .skip ts => ts.Clean
  | .cons t ts => t.Clean ∧ ts.Clean
end

mutual
theorem Tree.walk_vals : ∀ (t : Tree NodeVal) (s : List NodeVal), t.Clean → walkDown recorder t s = (s ++ t.vals, .ok)
  | .node a cs, s, h => by
    rw [Tree.Clean] at h
    simp [walkDown, recorder, Tree.vals, Forest.walk_vals cs _ h]
  | .nilptr a, s, h => by rw [Tree.Clean] at h; exact h.elim
theorem Forest.walk_vals : ∀ (ts : Forest NodeVal) (s : List NodeVal), ts.Clean →
    walkChildren recorder ts s = (s ++ ts.vals, .ok)
  | .nil, s, h => by simp [walkChildren, Forest.vals]
  | .skip ts, s, h => by
    rw [Forest.Clean] at h
    simp [walkChildren, Forest.vals, Forest.walk_vals ts _ h]
  | .cons t ts, s, h => by
    rw [Forest.Clean] at h
    simp [walkChildren, Forest.vals, Tree.walk_vals t _ h.1, Forest.walk_vals ts _ h.2]
end

/-- the names and literals of a tree in the order of the walk -/
def Tree.items (t : Tree NodeVal) : List Item := t.vals.filterMap itemOf

/-- the same for a list of children -/
def itemsL : List (Option (Tree NodeVal)) → List Item
  | [] => []
  | none :: r => itemsL r
  | some t :: r => t.items ++ itemsL r

/-- no nil pointers in a list of children -/
def CleanL : List (Option (Tree NodeVal)) → Prop
  | [] => True
  | none :: r => CleanL r
  | some t :: r => t.Clean ∧ CleanL r

theorem ofList_vals : ∀ cs : List (Option (Tree NodeVal)), (Forest.ofList cs).vals.filterMap itemOf = itemsL cs
  | [] => rfl
  | none :: r => by simpa [Forest.ofList, Forest.vals, itemsL] using ofList_vals r
  | some t :: r => by simp [Forest.ofList, Forest.vals, itemsL, Tree.items, ofList_vals r]
theorem ofList_clean : ∀ cs : List (Option (Tree NodeVal)), (Forest.ofList cs).Clean ↔ CleanL cs
  | [] => by simp [Forest.ofList, Forest.Clean, CleanL]
  | none :: r => by simp [Forest.ofList, Forest.Clean, CleanL, ofList_clean r]
  | some t :: r => by simp [Forest.ofList, Forest.Clean, CleanL, ofList_clean r]

@[simp] theorem items_mk (name : String) (cs : List (Option (Tree NodeVal))) : (Tree.mk name cs).items = itemsL cs := by
  simp [Tree.mk, Tree.items, Tree.vals, itemOf, ofList_vals, List.filterMap_cons]
@[simp] theorem items_ident (i : Ident) : (identNode i).items = [.name i] := rfl
@[simp] theorem itemsL_nil : itemsL [] = [] := rfl
@[simp] theorem itemsL_none (r : List (Option (Tree NodeVal))) : itemsL (none :: r) = itemsL r := rfl
@[simp] theorem itemsL_some (t : Tree NodeVal) (r : List (Option (Tree NodeVal))) : itemsL (some t :: r) = t.items ++ itemsL r := rfl
@[simp] theorem itemsL_append : ∀ a b : List (Option (Tree NodeVal)), itemsL (a ++ b) = itemsL a ++ itemsL b
  | [], _ => rfl
  | none :: r, b => by simp [itemsL_append r b]
  | some t :: r, b => by simp [itemsL_append r b]
@[simp] theorem itemsL_listNode (name : String) : ∀ cs, itemsL (listNode name cs) = itemsL cs
  | [] => rfl
  | c :: cs => by simp [listNode]
@[simp] theorem itemsL_opt_none {α : Type} (f : α → Tree NodeVal) : itemsL (optNode f none) = [] := rfl
@[simp] theorem itemsL_opt_some {α : Type} (f : α → Tree NodeVal) (a : α) : itemsL (optNode f (some a)) = (f a).items := by
  simp [optNode]
theorem itemsL_cons (c : Option (Tree NodeVal)) (r : List (Option (Tree NodeVal))) : itemsL (c :: r) = itemsL [c] ++ itemsL r := by
  cases c <;> simp
theorem itemsL_map {α : Type} (f : α → Tree NodeVal) (l : List α) :
    itemsL (l.map fun a => some (f a)) = l.flatMap fun a => (f a).items := by
  induction l with
  | nil => rfl
  | cons a l ih => simp [ih]
@[simp] theorem items_idents (is : List Ident) : (identsNode is).items = is.map .name := by
  induction is with
  | nil => rfl
  | cons i is ih => simp_all [identsNode]
@[simp] theorem items_identRef {δ : Type} (r : IdentRef δ) : (identRefNode r).items = [.name r.ident] := by simp [identRefNode]

@[simp] theorem clean_mk (name : String) (cs : List (Option (Tree NodeVal))) : (Tree.mk name cs).Clean ↔ CleanL cs := by
  simp [Tree.mk, Tree.Clean, ofList_clean]
@[simp] theorem clean_ident (i : Ident) : (identNode i).Clean := by simp [identNode, Tree.Clean, Forest.Clean]
@[simp] theorem cleanL_nil : CleanL [] := by trivial
@[simp] theorem cleanL_none (r : List (Option (Tree NodeVal))) : CleanL (none :: r) ↔ CleanL r := Iff.rfl
@[simp] theorem cleanL_some (t : Tree NodeVal) (r : List (Option (Tree NodeVal))) : CleanL (some t :: r) ↔ t.Clean ∧ CleanL r := Iff.rfl
theorem cleanL_cons (c : Option (Tree NodeVal)) (r : List (Option (Tree NodeVal))) : CleanL (c :: r) ↔ CleanL [c] ∧ CleanL r := by
  cases c <;> simp
@[simp] theorem cleanL_append : ∀ a b : List (Option (Tree NodeVal)), CleanL (a ++ b) ↔ CleanL a ∧ CleanL b
  | [], _ => by simp
  | none :: r, b => by simp [cleanL_append r b]
  | some t :: r, b => by simp [cleanL_append r b, and_assoc]
@[simp] theorem cleanL_listNode (name : String) : ∀ cs, CleanL (listNode name cs) ↔ CleanL cs
  | [] => by simp [listNode]
  | c :: cs => by simp [listNode]
theorem cleanL_opt {α : Type} {f : α → Tree NodeVal} (h : ∀ a, (f a).Clean) (o : Option α) : CleanL (optNode f o) := by
  cases o <;> simp [optNode, h]
theorem cleanL_map {α : Type} {f : α → Tree NodeVal} (h : ∀ a, (f a).Clean) (l : List α) : CleanL (l.map fun a => some (f a)) := by
  induction l with
  | nil => simp
  | cons a l ih => simp [ih, h]
@[simp] theorem clean_idents (is : List Ident) : (identsNode is).Clean := by
  simp [identsNode, cleanL_map clean_ident is]
@[simp] theorem clean_identRef {δ : Type} (r : IdentRef δ) : (identRefNode r).Clean := by simp [identRefNode]

theorem visits_vals {t : Tree NodeVal} (h : t.Clean) : Visits t t.vals := by
  simp [Visits, Tree.walk_vals t [] h]

/-! ## Expressions -/

/-- the item of a leaf -/
def leafItem : Leaf → Option Item
  | .ident i => some (.name i)
  | .at i => some (.name i)
  | .word v => some (.value v)
  | .num v => some (.number v)
  | .str v => some (.string v)
  | _ => none

@[simp] theorem leafItem_op (op : Str) : leafItem (opLeaf op) = none := by
  unfold opLeaf
  split <;> rfl

variable {δ : Type}

@[simp] theorem items_qual (q : QualId δ) : (qualNode q).items = (flatQual q).filterMap leafItem := by
  cases q with
  | mk ns i => cases ns <;> simp [qualNode, flatQual, leafItem, List.filterMap_cons]
@[simp] theorem clean_qual (q : QualId δ) : (qualNode q).Clean := by
  cases q with
  | mk ns i => cases ns <;> simp [qualNode, optNode]

mutual
theorem items_expr : ∀ e : Expr δ, (exprNode e).items = (flatExpr e).filterMap leafItem
  | .mk se rest => by simp [exprNode, flatExpr, items_sexpr se, items_rel rest]
theorem items_rel : ∀ e : RelTail δ, itemsL (relNodes e) = (flatRel e).filterMap leafItem
  | .nil => by simp [relNodes, flatRel]
  | .cons op se rest => by simp [relNodes, flatRel, items_sexpr se, items_rel rest]
theorem items_sexpr : ∀ e : SExpr δ, (sexprNode e).items = (flatSExpr e).filterMap leafItem
  | .mk none t rest => by simp [sexprNode, flatSExpr, items_term t, items_add rest]
  | .mk (some op) t rest => by simp [sexprNode, flatSExpr, items_term t, items_add rest, leafItem, List.filterMap_cons]
theorem items_add : ∀ e : AddTail δ, itemsL (addNodes e) = (flatAdd e).filterMap leafItem
  | .nil => by simp [addNodes, flatAdd]
  | .cons op t rest => by simp [addNodes, flatAdd, items_term t, items_add rest]
theorem items_term : ∀ e : Term δ, (termNode e).items = (flatTerm e).filterMap leafItem
  | .mk f rest => by simp [termNode, flatTerm, items_factor f, items_mul rest]
theorem items_mul : ∀ e : MulTail δ, itemsL (mulNodes e) = (flatMul e).filterMap leafItem
  | .nil => by simp [mulNodes, flatMul]
  | .cons op f rest => by simp [mulNodes, flatMul, items_factor f, items_mul rest]
theorem items_factor : ∀ e : Factor δ, (factorNode e).items = (flatFactor e).filterMap leafItem
  | .desig d => by simp [factorNode, flatFactor, items_desig d]
  | .call d args => by simp [factorNode, flatFactor, items_desig d, items_exprs args, leafItem, List.filterMap_cons]
  | .addr d => by simp [factorNode, flatFactor, items_desig d, leafItem, List.filterMap_cons]
  | .value v => by simp [factorNode, flatFactor, leafItem, Tree.items, Tree.vals, Forest.vals, itemOf]
  | .str v => by simp [factorNode, flatFactor, leafItem, Tree.items, Tree.vals, Forest.vals, itemOf]
  | .num v => by simp [factorNode, flatFactor, leafItem, Tree.items, Tree.vals, Forest.vals, itemOf]
  | .nil => by simp [factorNode, flatFactor, leafItem, List.filterMap_cons]
  | .paren e => by simp [factorNode, flatFactor, items_expr e, leafItem, List.filterMap_cons]
  | .not f => by simp [factorNode, flatFactor, items_factor f, leafItem, List.filterMap_cons]
  | .set es => by simp [factorNode, flatFactor, items_elems es, leafItem, List.filterMap_cons]
  | .cast t e => by simp [factorNode, flatFactor, items_expr e, leafItem, List.filterMap_cons]
theorem items_desig : ∀ e : Desig δ, (desigNode e).items = (flatDesig e).filterMap leafItem
  | .mk q items => by simp [desigNode, flatDesig, items_items items]
theorem items_items : ∀ e : Items δ, itemsL (itemNodes e) = (flatItems e).filterMap leafItem
  | .nil => by simp [itemNodes, flatItems]
  | .ident i rest => by simp [itemNodes, flatItems, items_items rest, leafItem, List.filterMap_cons]
  | .index es rest => by simp [itemNodes, flatItems, items_exprs es, items_items rest, leafItem, List.filterMap_cons]
  | .deref rest => by simp [itemNodes, flatItems, items_items rest, leafItem, List.filterMap_cons]
theorem items_exprs : ∀ e : Exprs δ, itemsL (exprsNodes e) = (flatExprs e).filterMap leafItem
  | .one e => by simp [exprsNodes, flatExprs, items_expr e]
  | .cons e rest => by simp [exprsNodes, flatExprs, items_expr e, items_exprs rest, leafItem, List.filterMap_cons]
theorem items_elems : ∀ e : SetElems δ, itemsL (elemsNodes e) = (flatElems e).filterMap leafItem
  | .one e => by simp [elemsNodes, flatElems, items_elem e]
  | .cons e rest => by simp [elemsNodes, flatElems, items_elem e, items_elems rest, leafItem, List.filterMap_cons]
theorem items_elem : ∀ e : SetElem δ, (elemNode e).items = (flatElem e).filterMap leafItem
  | .single e => by simp [elemNode, flatElem, items_expr e]
  | .range lo hi => by simp [elemNode, flatElem, items_expr lo, items_expr hi, leafItem, List.filterMap_cons]
end

mutual
theorem clean_expr : ∀ e : Expr δ, (exprNode e).Clean
  | .mk se rest => by simp [exprNode, clean_sexpr se, clean_rel rest]
theorem clean_rel : ∀ e : RelTail δ, CleanL (relNodes e)
  | .nil => by simp [relNodes]
  | .cons op se rest => by simp [relNodes, clean_sexpr se, clean_rel rest]
theorem clean_sexpr : ∀ e : SExpr δ, (sexprNode e).Clean
  | .mk _ t rest => by simp [sexprNode, clean_term t, clean_add rest]
theorem clean_add : ∀ e : AddTail δ, CleanL (addNodes e)
  | .nil => by simp [addNodes]
  | .cons op t rest => by simp [addNodes, clean_term t, clean_add rest]
theorem clean_term : ∀ e : Term δ, (termNode e).Clean
  | .mk f rest => by simp [termNode, clean_factor f, clean_mul rest]
theorem clean_mul : ∀ e : MulTail δ, CleanL (mulNodes e)
  | .nil => by simp [mulNodes]
  | .cons op f rest => by simp [mulNodes, clean_factor f, clean_mul rest]
theorem clean_factor : ∀ e : Factor δ, (factorNode e).Clean
  | .desig d => by simp [factorNode, clean_desig d]
  | .call d args => by simp [factorNode, clean_desig d, clean_exprs args]
  | .addr d => by simp [factorNode, clean_desig d]
  | .value v => by simp [factorNode, Tree.Clean, Forest.Clean]
  | .str v => by simp [factorNode, Tree.Clean, Forest.Clean]
  | .num v => by simp [factorNode, Tree.Clean, Forest.Clean]
  | .nil => by simp [factorNode]
  | .paren e => by simp [factorNode, clean_expr e]
  | .not f => by simp [factorNode, clean_factor f]
  | .set es => by simp [factorNode, clean_elems es]
  | .cast t e => by simp [factorNode, clean_expr e]
theorem clean_desig : ∀ e : Desig δ, (desigNode e).Clean
  | .mk q items => by simp [desigNode, clean_items items]
theorem clean_items : ∀ e : Items δ, CleanL (itemNodes e)
  | .nil => by simp [itemNodes]
  | .ident i rest => by simp [itemNodes, clean_items rest]
  | .index es rest => by simp [itemNodes, clean_exprs es, clean_items rest]
  | .deref rest => by simp [itemNodes, clean_items rest]
theorem clean_exprs : ∀ e : Exprs δ, CleanL (exprsNodes e)
  | .one e => by simp [exprsNodes, clean_expr e]
  | .cons e rest => by simp [exprsNodes, clean_expr e, clean_exprs rest]
theorem clean_elems : ∀ e : SetElems δ, CleanL (elemsNodes e)
  | .one e => by simp [elemsNodes, clean_elem e]
  | .cons e rest => by simp [elemsNodes, clean_elem e, clean_elems rest]
theorem clean_elem : ∀ e : SetElem δ, (elemNode e).Clean
  | .single e => by simp [elemNode, clean_expr e]
  | .range lo hi => by simp [elemNode, clean_expr lo, clean_expr hi]
end

/-! ## Reading -/

namespace Spec.Reads
variable {ok : Token → Prop} {n m : Nat} {a b : List Item} {x y : List Token}

theorem mono (h : Reads ok n a x) : ∀ {m}, n ≤ m → Reads ok m a x := by
  induction h with
  | nil n => exact fun _ => .nil _
  | hit h _ ih => exact fun l => .hit h (ih l)
  | skip h _ ih => exact fun l => .skip h (ih l)
  | lose _ ih =>
    intro m l
    cases m with
    | zero => omega
    | succ m => exact .lose (ih (by omega))

theorem append (h : Reads ok n a x) (h' : Reads ok m b y) : Reads ok (n + m) (a ++ b) (x ++ y) := by
  induction h with
  | nil n => exact h'.mono (by omega)
  | hit h _ ih => exact .hit h ih
  | skip h _ ih => exact .skip h ih
  | lose _ ih => exact (Reads.lose ih).mono (by omega)

theorem app0 (h : Reads ok 0 a x) (h' : Reads ok 0 b y) : Reads ok 0 (a ++ b) (x ++ y) := h.append h'

theorem cast (h : Reads ok n a x) (e : a = b) : Reads ok n b x := e ▸ h

end Spec.Reads

/-- what may be passed over -/
structure Passes (u : Uni) (ok : Token → Prop) : Prop where
  noName : ∀ t, NoName u t → ok t

section
variable {u : Uni} {ok : Token → Prop} (K : Passes u ok)
include K

theorem Passes.typ {t : Token} (h : t.typ ≠ .ident ∧ t.typ ≠ .numInt ∧ t.typ ≠ .numReal) : ok t := K.noName t (.inl h)
theorem Passes.sym {s : Str} {t : Token} (h : IsSym s t) : ok t := K.typ (by simp [h.1])
theorem Passes.kw {s : Str} {t : Token} (h : IsKw u s t) : ok t := K.typ (by simp [h.1])
theorem Passes.word {t : Token} (h : u.toUpper t.raw ∈ roleWords) : ok t := K.noName t (.inr (.inl h))
theorem Passes.val {t : Token} (h : t.value u ∈ roleWords) : ok t := by
  by_cases c : t.typ = .reserved
  · exact K.typ (by simp [c])
  · refine K.noName t (.inr (.inr (.inl ?_)))
    rw [Token.value] at h
    split at h
    · contradiction
    · exact h
theorem Passes.up {t : Token} (h : u.toUpper (t.value u) ∈ roleWords) : ok t := by
  by_cases c : t.typ = .reserved
  · exact K.typ (by simp [c])
  · refine K.word ?_
    rw [Token.value] at h
    split at h
    · contradiction
    · exact h
theorem Passes.bool {t : Token} (h : u.toLower (t.value u) ∈ [r!"true", r!"false"]) : ok t := by
  by_cases c : t.typ = .reserved
  · exact K.typ (by simp [c])
  · refine K.noName t (.inr (.inr (.inr (.inr ?_))))
    rw [Token.value] at h
    split at h
    · contradiction
    · exact h
theorem Passes.upup {t : Token} (h : u.toUpper (u.toUpper (t.value u)) ∈ roleWords) : ok t := by
  by_cases c : t.typ = .reserved
  · exact K.typ (by simp [c])
  · refine K.noName t (.inr (.inr (.inr (.inl ?_))))
    rw [Token.value] at h
    split at h
    · contradiction
    · exact h

/-- leaves of expressions -/
def ExprLeaf : Leaf → Prop
  | .any => False
  | .val s => s ∈ roleWords
  | .upper s => s ∈ roleWords
  | _ => True

theorem reads_leaf {l : Leaf} {t : Token} (hl : ExprLeaf l) (h : l.Is u t) : Reads ok 0 (leafItem l).toList [t] := by
  cases l with
  | ident i => exact .hit h.2 (.nil 0)
  | «at» i => exact .hit h (.nil 0)
  | word v => exact .hit h.2.2 (.nil 0)
  | num v => exact .hit h.2 (.nil 0)
  | str v => exact .hit h.2 (.nil 0)
  | sym s => exact .skip (K.sym h) (.nil 0)
  | kw s => exact .skip (K.kw h) (.nil 0)
  | any => exact hl.elim
  | val s => exact .skip (K.val (h ▸ hl : t.value u ∈ roleWords)) (.nil 0)
  | upper s => exact .skip (K.up (h ▸ hl : u.toUpper (t.value u) ∈ roleWords)) (.nil 0)

theorem reads_leaves : ∀ {ls : List Leaf} {ts : List Token}, (∀ l ∈ ls, ExprLeaf l) → Leaves u ls ts →
    Reads ok 0 (ls.filterMap leafItem) ts
  | [], [], _, _ => .nil 0
  | l :: ls, t :: ts, hl, h => by
    have := (reads_leaf K (hl l List.mem_cons_self) h.1).app0
      (reads_leaves (fun l' h' => hl l' (List.mem_cons_of_mem _ h')) h.2)
    refine this.cast ?_
    cases e : leafItem l <;> simp [e]
  | [], _ :: _, _, h => h.elim
  | _ :: _, [], _, h => h.elim

end

@[simp] theorem exprLeaf_op (op : Str) : ExprLeaf (opLeaf op) := by
  unfold opLeaf
  split <;> trivial
@[simp] theorem exprLeaf_sym (s : Str) : ExprLeaf (.sym s) := trivial
@[simp] theorem exprLeaf_kw (s : Str) : ExprLeaf (.kw s) := trivial
@[simp] theorem exprLeaf_ident (i : Ident) : ExprLeaf (.ident i) := trivial
@[simp] theorem exprLeaf_word (s : Str) : ExprLeaf (.word s) := trivial
@[simp] theorem exprLeaf_num (s : Str) : ExprLeaf (.num s) := trivial
@[simp] theorem exprLeaf_str (s : Str) : ExprLeaf (.str s) := trivial

/-- all leaves are leaves of expressions -/
def AllExpr (ls : List Leaf) : Prop := ∀ l ∈ ls, ExprLeaf l
@[simp] theorem allExpr_nil : AllExpr [] := by simp [AllExpr]
@[simp] theorem allExpr_cons (l : Leaf) (ls : List Leaf) : AllExpr (l :: ls) ↔ ExprLeaf l ∧ AllExpr ls := by simp [AllExpr]
@[simp] theorem allExpr_append (a b : List Leaf) : AllExpr (a ++ b) ↔ AllExpr a ∧ AllExpr b := by
  simp [AllExpr, or_imp, forall_and]

@[simp] theorem allExpr_qual (q : QualId δ) : AllExpr (flatQual q) := by
  unfold flatQual
  split <;> simp

mutual
theorem allExpr_expr : ∀ e : Expr δ, AllExpr (flatExpr e)
  | .mk se rest => by simp [flatExpr, allExpr_sexpr se, allExpr_rel rest]
theorem allExpr_rel : ∀ e : RelTail δ, AllExpr (flatRel e)
  | .nil => by simp [flatRel]
  | .cons op se rest => by simp [flatRel, allExpr_sexpr se, allExpr_rel rest]
theorem allExpr_sexpr : ∀ e : SExpr δ, AllExpr (flatSExpr e)
  | .mk none t rest => by simp [flatSExpr, allExpr_term t, allExpr_add rest]
  | .mk (some op) t rest => by simp [flatSExpr, allExpr_term t, allExpr_add rest]
theorem allExpr_add : ∀ e : AddTail δ, AllExpr (flatAdd e)
  | .nil => by simp [flatAdd]
  | .cons op t rest => by simp [flatAdd, allExpr_term t, allExpr_add rest]
theorem allExpr_term : ∀ e : Term δ, AllExpr (flatTerm e)
  | .mk f rest => by simp [flatTerm, allExpr_factor f, allExpr_mul rest]
theorem allExpr_mul : ∀ e : MulTail δ, AllExpr (flatMul e)
  | .nil => by simp [flatMul]
  | .cons op f rest => by simp [flatMul, allExpr_factor f, allExpr_mul rest]
theorem allExpr_factor : ∀ e : Factor δ, AllExpr (flatFactor e)
  | .desig d => by simp [flatFactor, allExpr_desig d]
  | .call d args => by simp [flatFactor, allExpr_desig d, allExpr_exprs args]
  | .addr d => by simp [flatFactor, allExpr_desig d]
  | .value v => by simp [flatFactor]
  | .str v => by simp [flatFactor]
  | .num v => by simp [flatFactor]
  | .nil => by simp [flatFactor]
  | .paren e => by simp [flatFactor, allExpr_expr e]
  | .not f => by simp [flatFactor, allExpr_factor f]
  | .set es => by simp [flatFactor, allExpr_elems es]
  | .cast t e => by simp [flatFactor, allExpr_expr e]
theorem allExpr_desig : ∀ e : Desig δ, AllExpr (flatDesig e)
  | .mk q items => by simp [flatDesig, allExpr_items items]
theorem allExpr_items : ∀ e : Items δ, AllExpr (flatItems e)
  | .nil => by simp [flatItems]
  | .ident i rest => by simp [flatItems, allExpr_items rest]
  | .index es rest => by simp [flatItems, allExpr_exprs es, allExpr_items rest]
  | .deref rest => by simp [flatItems, allExpr_items rest]
theorem allExpr_exprs : ∀ e : Exprs δ, AllExpr (flatExprs e)
  | .one e => by simp [flatExprs, allExpr_expr e]
  | .cons e rest => by simp [flatExprs, allExpr_expr e, allExpr_exprs rest]
theorem allExpr_elems : ∀ e : SetElems δ, AllExpr (flatElems e)
  | .one e => by simp [flatElems, allExpr_elem e]
  | .cons e rest => by simp [flatElems, allExpr_elem e, allExpr_elems rest]
theorem allExpr_elem : ∀ e : SetElem δ, AllExpr (flatElem e)
  | .single e => by simp [flatElem, allExpr_expr e]
  | .range lo hi => by simp [flatElem, allExpr_expr lo, allExpr_expr hi]
end

section
variable {u : Uni} {ok : Token → Prop} (K : Passes u ok) {ts : List Token}
include K

theorem reads_expr {e : Expr δ} (h : Leaves u (flatExpr e) ts) : Reads ok 0 (exprNode e).items ts :=
  (reads_leaves K (allExpr_expr e) h).cast (items_expr e).symm
theorem reads_exprs {e : Exprs δ} (h : Leaves u (flatExprs e) ts) : Reads ok 0 (itemsL (exprsNodes e)) ts :=
  (reads_leaves K (allExpr_exprs e) h).cast (items_exprs e).symm
theorem reads_desig {e : Desig δ} (h : Leaves u (flatDesig e) ts) : Reads ok 0 (desigNode e).items ts :=
  (reads_leaves K (allExpr_desig e) h).cast (items_desig e).symm
theorem reads_qual {e : QualId δ} (h : Leaves u (flatQual e) ts) : Reads ok 0 (qualNode e).items ts :=
  (reads_leaves K (allExpr_qual e) h).cast (items_qual e).symm

end

end TP
