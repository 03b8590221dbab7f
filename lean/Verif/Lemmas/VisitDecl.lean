import Verif.Lemmas.VisitType

/-!
# Walks over the trees of the parser: declarations, blocks, units and programs
-/

set_option linter.unusedSectionVars false

namespace TP
open TP.Spec

/-! ## No nil pointers -/

section
variable {δ : Type}

theorem clean_constDecl (d : ConstDecl δ) : (constDeclNode d).Clean := by
  simp only [constDeclNode, clean_mk, cleanL_some, clean_ident, true_and, cleanL_append, cleanL_nil, and_true, clean_expr]
  split
  · simp
  · exact clean_type _
theorem clean_typeDecl (d : TypeDecl δ) : (typeDeclNode d).Clean := by
  simp [typeDeclNode, clean_type d.type]
theorem clean_varDecl (d : VarDecl δ) : (varDeclNode d).Clean := by
  simp only [varDeclNode, clean_mk, cleanL_some, clean_idents, true_and]
  rw [cleanL_cons]
  refine ⟨clean_type _, ?_⟩
  simp only [cleanL_append, cleanL_opt clean_expr, and_true]
  exact cleanL_opt (fun i => by simp [Tree.Clean, Forest.Clean]) _
theorem clean_threadVarDecl (d : ThreadVarDecl δ) : (threadVarDeclNode d).Clean := by
  simp [threadVarDeclNode, clean_type d.type]
@[simp] theorem clean_consts (ds : List (ConstDecl δ)) : (constsNode ds).Clean := by simp [constsNode, cleanL_map clean_constDecl]
@[simp] theorem clean_typeDecls (ds : List (TypeDecl δ)) : (typesNode ds).Clean := by simp [typesNode, cleanL_map clean_typeDecl]
@[simp] theorem clean_vars (ds : List (VarDecl δ)) : (varsNode ds).Clean := by simp [varsNode, cleanL_map clean_varDecl]
@[simp] theorem clean_threadVars (ds : List (ThreadVarDecl δ)) : (threadVarsNode ds).Clean := by
  simp [threadVarsNode, cleanL_map clean_threadVarDecl]
theorem clean_exportsItem (i : ExportsItem δ) : (exportsItemNode i).Clean := by
  simp [exportsItemNode, cleanL_opt clean_expr]
theorem clean_exports (ex : List (List (ExportsItem δ))) : CleanL (exportsNode ex) := by
  rw [exportsNode, cleanL_listNode]
  exact cleanL_map (fun is => by simp [cleanL_map clean_exportsItem]) ex

mutual
theorem clean_block : ∀ b : Block δ, (blockNode b).Clean
  | .mk ds ex none => by simp [blockNode, clean_declSects ds, clean_exports]
  | .mk ds ex (some b) => by simp [blockNode, clean_declSects ds, clean_exports, clean_body clean_type b]
theorem clean_declSects : ∀ b : DeclSects δ, CleanL (declSectNodes b)
  | .nil => by simp [declSectNodes]
  | .cons s rest => by simp [declSectNodes, clean_declSect s, clean_declSects rest]
theorem clean_declSect : ∀ b : DeclSect δ, (declSectNode b).Clean
  | .label i => by simp [declSectNode]
  | .const ds => by simp [declSectNode]
  | .type ds => by simp [declSectNode]
  | .var ds => by simp [declSectNode]
  | .threadVar ds => by simp [declSectNode]
  | .func h _ b => by simp [declSectNode, clean_heading, clean_block b]
end

theorem clean_uses (es : List UsesEntry) : CleanL (usesNode es) := by
  rw [usesNode, cleanL_listNode]
  exact cleanL_map (fun e => by simp) es
theorem clean_intfDecl : ∀ d : IntfDecl δ, (intfDeclNode d).Clean
  | .const ds => by simp [intfDeclNode]
  | .type _ ds => by simp [intfDeclNode]
  | .var ds => by simp [intfDeclNode]
  | .threadVar ds => by simp [intfDeclNode]
  | .heading h _ => by simp [intfDeclNode, clean_heading]
theorem clean_init (i : InitSection δ) : (initNode i).Clean := by
  simp only [initNode, clean_mk, cleanL_some, clean_stmts clean_type, true_and]
  exact cleanL_opt (fun l => by simp [clean_stmts clean_type]) _
theorem clean_unit (t : UnitTree δ) : (unitNode t).Clean := by
  simp [unitNode, intfNodes, clean_uses, cleanL_map clean_intfDecl, clean_declSects, clean_exports, cleanL_opt clean_init]
theorem clean_program (t : ProgramTree δ) : (programNode t).Clean := by
  simp [programNode, clean_uses, clean_block]
end

/-! ## Names and literals -/

section
variable {κ δ : Type} {u : Uni} {ok : Token → Prop} (K : Passes u ok)
include K

theorem V.endsSection {s : Bool} : V ok s false 0 [] endsSection := by
  rintro m r x y z st ⟨rfl, h⟩ hz
  rw [List.append_nil]
  rcases st with st | ⟨-, w, b, i, t', z', rfl, rfl, rfl, hi, h', hw⟩
  · exact .inl st
  · rcases h t' rfl with h | h <;> rw [h] at h' <;> cases h'

theorem V.lost {s : Bool} : V ok s false 1 [] lost := by
  rintro m r x y z st ⟨rfl, -⟩ hz
  cases y with
  | nil => exact (hz rfl).elim
  | cons t y =>
    rw [List.append_nil]
    rcases st with ⟨w, rfl, hw⟩ | ⟨-, w, b, i, t', z', rfl, e, rfl, hi, -, hw⟩
    · exact .inl ⟨w ++ [t], by simp, (hw.append (.lose (.nil 0))).cast (List.append_nil _)⟩
    · cases e
      exact .inl ⟨w ++ [t], by simp, hw.append ((Reads.hit hi (.nil 0)).mono (by omega))⟩

theorem V.str {s : Bool} {v : Str} : V ok s false 0 [] (gStr u v) := .tkP fun t h => K.typ (by
  have : t.typ = .charString := h.1
  simp [this])

theorem v_init {s : Bool} (o : Option (Expr δ)) : V ok s s 0 (itemsL (optNode exprNode o)) (gInit u o) := by
  unfold gInit
  split
  · exact .eps
  · exact (V.weakE ((V.sym K).then' (V.expr K))).cast (by simp)

theorem v_constDecl (d : ConstDecl δ) (r : ∀ t, d.type = some t → RegType t) :
    V ok false false 0 (constDeclNode d).items (gConstDecl u d) := by
  obtain ⟨i, ty, e⟩ := d
  cases ty with
  | none =>
    exact ((V.hit (i := .name i) fun t ht => ht.1).seq0 ((V.eps (s := false)).seq0 ((V.sym K).then' (V.expr K)))).cast (by
      simp [constDeclNode])
  | some t =>
    exact ((V.hit (i := .name i) fun t ht => ht.1).seq0 (((V.sym K).then' (v_type K t (r t rfl))).seq0 ((V.sym K).then' (V.expr K)))).cast
      (by simpa [constDeclNode] using (itemsL_cons (typeNode t) [some (exprNode e)]).symm)

theorem v_constDecls : ∀ ds : List (ConstDecl δ), (∀ d ∈ ds, ∀ t, d.type = some t → RegType t) →
    V ok false false 0 (itemsL (ds.map fun d => some (constDeclNode d))) (gConstDecls u ds)
  | [], _ => .never
  | d :: rest, r => ((v_constDecl K d (r d List.mem_cons_self)).seq0 ((V.sym K).then' (V.alt
      (.given fun e => by rw [e]; exact V.endsSection K)
      (v_constDecls rest fun d h => r d (List.mem_cons_of_mem _ h))))).cast (by simp)

theorem v_absolute (o : Option Ident) :
    V ok true true 0 (itemsL (optNode (fun i => (.node (.absolute i) .nil : Tree NodeVal)) o)) (gAbsolute u o) := by
  cases o with
  | none => exact .eps
  | some i => exact (V.weakE ((V.up (w := r!"ABSOLUTE") K (by decide)).then' (V.ident K))).cast (by
      simp [Tree.items, Tree.vals, Forest.vals, itemOf])

theorem v_varDecl (d : VarDecl δ) (r : RegType d.type) : V ok false true 0 (varDeclNode d).items (gVarDecl u d) :=
  ((v_idents K d.idents).seq0 ((V.sym K).then' ((v_type K d.type r).seq0 ((v_absolute K d.absolute).seq0 (v_init K d.expr))))).cast
    (by
      simp only [varDeclNode, items_mk, itemsL_some]
      rw [itemsL_cons (typeNode d.type) (_ ++ _), itemsL_append])

theorem v_varDecls : ∀ ds : List (VarDecl δ), (∀ d ∈ ds, RegType d.type) →
    V ok false false 0 (itemsL (ds.map fun d => some (varDeclNode d))) (gVarDecls u ds)
  | [], _ => .never
  | d :: rest, r => ((v_varDecl K d (r d List.mem_cons_self)).seq0 (V.alt
      (.given fun e => by rw [e]; exact V.endsSection K)
      ((V.sym K).then' (V.alt (.given fun e => by rw [e]; exact V.endsSection K)
        (v_varDecls rest fun d h => r d (List.mem_cons_of_mem _ h)))))).cast (by simp)

theorem v_threadVarDecl (d : ThreadVarDecl δ) (r : RegType d.type) :
    V ok false true 0 (threadVarDeclNode d).items (gThreadVarDecl u d) :=
  ((v_idents K d.idents).seq0 ((V.sym K).then' (v_type K d.type r))).cast (by simp [threadVarDeclNode])

theorem v_threadVarDecls : ∀ ds : List (ThreadVarDecl δ), (∀ d ∈ ds, RegType d.type) →
    V ok false false 0 (itemsL (ds.map fun d => some (threadVarDeclNode d))) (gThreadVarDecls u ds)
  | [], _ => .never
  | d :: rest, r => ((v_threadVarDecl K d (r d List.mem_cons_self)).seq0 ((V.sym K).then' (V.alt
      (.given fun e => by rw [e]; exact V.endsSection K)
      (v_threadVarDecls rest fun d h => r d (List.mem_cons_of_mem _ h))))).cast (by simp)

theorem port_ok {t : Token} (h : IsWordOf u portabilityNames t) : ok t :=
  K.word (List.mem_append_left _ (List.mem_append_left _ (List.mem_append_right _ h)))
theorem dir_ok {t : Token} (h : IsWordOf u directiveNames t) : ok t :=
  K.word (List.mem_append_left _ (List.mem_append_left _ (List.mem_append_left _ h)))

theorem v_typeEnd (p : Option Str) : V ok true false 1 [] (gTypeEnd u p) := by
  cases p with
  | none => exact .alt ((V.lookSym K).mono (by omega)) (V.lost K)
  | some p => exact (V.lost K).seq (k := 0) (c := []) (.tkP fun t h => port_ok K h.1)

theorem v_typeDecl (d : TypeDecl δ) (r : RegType d.type) : V ok false false 1 (typeDeclNode d).items (gTypeDecl u d) :=
  ((V.ident K).seqn ((V.sym K).then' ((V.alt (V.kw K) .eps).then' ((v_type K d.type r).seqn (v_typeEnd K d.portability))))).cast
    (by simp [typeDeclNode])

theorem v_typeDecls : ∀ ds : List (TypeDecl δ), (∀ d ∈ ds, RegType d.type) →
    V ok false false ds.length (itemsL (ds.map fun d => some (typeDeclNode d))) (gTypeDecls u ds)
  | [], _ => .never
  | d :: rest, r => ((v_typeDecl K d (r d List.mem_cons_self)).seq (V.alt
      (.given fun e => by rw [e]; exact V.endsSection K)
      ((V.sym K).then' (V.alt (.given fun e => by rw [e]; exact V.endsSection K)
        (v_typeDecls rest fun d h => r d (List.mem_cons_of_mem _ h)))))).cast (by simp) |>.castN (by simp; omega)

theorem v_exportsItem (i : ExportsItem δ) : V ok false false 0 (exportsItemNode i).items (gExportsItem u i) := by
  obtain ⟨i, nm, ix⟩ := i
  refine ((V.ident K).seq0 (c := itemsL (optNode exprNode nm) ++ itemsL (optNode exprNode ix)) ?_).cast (by simp [exportsItemNode])
  cases nm <;> cases ix
  · exact .eps
  · exact ((V.word K (by decide)).then' (V.expr K)).cast (by simp)
  · exact ((V.word K (by decide)).then' (V.expr K)).cast (by simp)
  · exact .never

theorem v_exportsItems : ∀ is : List (ExportsItem δ), V ok false false 0 (itemsL (is.map fun i => some (exportsItemNode i)))
    (gExportsItems u is)
  | [] => .never
  | i :: rest => ((v_exportsItem K i).seq0 (V.alt (.given fun e => by rw [e]; exact V.sym K)
      ((V.sym K).then' (v_exportsItems rest)))).cast (by simp)

theorem v_exports : ∀ ex : List (List (ExportsItem δ)), V ok false false 0 (itemsL (exportsNode ex)) (gExports u ex)
  | [] => V.eps.cast (by simp [exportsNode])
  | is :: rest => ((V.kw K).then' ((v_exportsItems K is).seq0 (v_exports rest))).cast (by simp [exportsNode])

theorem v_external (o : Option ExternalOptions) : V ok false false 0 [] (gExternal u o) := by
  unfold gExternal
  split
  · exact (V.word K (by decide)).then' (V.lookSym (s := false) K)
  · exact (V.word K (by decide)).then' ((V.str (s := false) K).then' (V.lookSym (s := false) K))
  · exact (V.word K (by decide)).then' ((V.str (s := false) K).then' ((V.word K (by decide)).then' (V.str (s := false) K)))
  · exact (V.word K (by decide)).then' ((V.str (s := false) K).then' ((V.word K (by decide)).then' (.tkP (s := false) fun t h =>
      K.typ (by simp [h.1]))))
  · exact .never

theorem v_routineDirs : ∀ (ds : List Str) (e e' : Option ExternalOptions), V ok false false 0 [] (gRoutineDirs u ds e e')
  | [], _, _ => .given fun _ => .eps
  | d :: ds, e, e' => by
    rintro m r x y z st ⟨e1, h⟩ hz
    exact (V.alt (.given fun _ => v_external K e1) (.given fun _ => .tkP fun t h => dir_ok K h.1)).then'
      ((V.sym K).then' (v_routineDirs ds e1 e')) _ _ _ _ _ st h hz

variable {A : Prop} (hA : A → ∀ t, ok t) {S : SEnv κ δ (PType δ)}
include hA

theorem v_body (b : Body δ (PType δ)) (r : RegBody A b) : V ok false false 0 (bodyNode typeNode b).items (gBody u S b) :=
  (V.leaves (p := fun used => ∃ k k', DBody u S False (fun _ ty used _ => typeTokens u ty used) k b used k')
    fun w ⟨k, k', h⟩ => reads_body K hA b k w k' r h).of_imp fun _ _ ⟨w, k, k', e, h⟩ => ⟨w, e, k, k', h⟩

mutual
theorem v_block : ∀ b : Block δ, RegBlock A b → V ok false false (typesBlock b) (blockNode b).items (gBlock u S b)
  | .mk ds ex b, r => by
    rw [RegBlock] at r
    obtain ⟨r1, rfl, r2⟩ := r
    rw [gBlock, typesBlock]
    have h : V ok false false 0 (itemsL [b.map (bodyNode typeNode)]) (gExportsBody u S [] b) := by
      rintro m r x y z st ⟨ex1, ex2, e, h⟩ hz
      have : ex1 = [] ∧ ex2 = [] := by
        split at e
        · rename_i e2; exact ⟨e.symm, e2⟩
        · rename_i e2; exact (e2 e.symm).elim
      obtain ⟨rfl, rfl⟩ := this
      have hb : V ok false false 0 (itemsL [b.map (bodyNode typeNode)]) (gOptBody u S b) := by
        cases b with
        | none => exact V.eps.cast (by simp)
        | some c => exact (v_body K hA c (r2 c rfl)).cast (by simp)
      exact ((V.eps.then' (hb.seq0 V.eps)).cast (by simp)) _ _ _ _ _ st h hz
    exact ((v_declSects ds r1).seq h).cast (by simp [blockNode, exportsNode]) |>.castN (by simp)
theorem v_declSects : ∀ b : DeclSects δ, RegDecls A b →
    V ok false false (typesDecls b) (itemsL (declSectNodes b)) (gDeclSects u S b)
  | .nil, _ => by rw [gDeclSects, typesDecls]; exact V.eps.cast (by simp [declSectNodes])
  | .cons s rest, r => by
    rw [RegDecls] at r
    rw [gDeclSects, typesDecls]
    exact ((v_declSect s r.1).seq ((V.semi K).then' (v_declSects rest r.2))).cast (by simp [declSectNodes])
theorem v_declSect : ∀ b : DeclSect δ, RegDecl A b → V ok false false (typesDecl b) (declSectNode b).items (gDeclSect u S b)
  | .label i, _ => by
    rw [gDeclSect, typesDecl]
    · exact ((V.kw K).then' ((V.ident K).seq0 (V.sym K))).cast (by simp [declSectNode])
    all_goals simp
  | .const ds, r => by
    rw [RegDecl] at r
    rw [gDeclSect, typesDecl]
    · exact ((V.kw K).then' (v_constDecls K ds r)).cast (by simp [declSectNode, constsNode])
    all_goals simp
  | .type ds, r => by
    rw [RegDecl] at r
    rw [gDeclSect, typesDecl]
    exact ((V.kw K).then' (v_typeDecls K ds r)).cast (by simp [declSectNode, typesNode])
  | .var ds, r => by
    rw [RegDecl] at r
    rw [gDeclSect, typesDecl]
    · exact ((V.kw K).then' (v_varDecls K ds r)).cast (by simp [declSectNode, varsNode])
    all_goals simp
  | .threadVar ds, r => by
    rw [RegDecl] at r
    rw [gDeclSect, typesDecl]
    · exact ((V.kw K).then' (v_threadVarDecls K ds r)).cast (by simp [declSectNode, threadVarsNode])
    all_goals simp
  | .func h o b, r => by
    rw [RegDecl] at r
    rw [gDeclSect, typesDecl]
    exact ((v_heading K h r.1).weakS.seqn ((V.sym K).then' ((v_routineDirs K _ _ _).then' (v_block b r.2)))).cast
      (by simp [declSectNode])
end

end

/-! ## Units and programs -/

section
variable {u : Uni} {ok : Token → Prop} (K : Passes u ok)
include K

theorem v_usesEntry (e : UsesEntry) : V ok false false 0 [.name e.ident] (gUsesEntry u e) := by
  unfold gUsesEntry
  refine ((V.ident K).seq0 (c := []) ?_)
  split
  · exact .eps
  · exact (V.kw K).then' (V.str (s := false) K)
theorem v_usesEntries : ∀ es : List UsesEntry, V ok false false 0 (es.map fun e => .name e.ident) (gUsesEntries u es)
  | [] => .never
  | e :: rest => ((v_usesEntry K e).seq0 (V.alt (.given fun e => by rw [e]; exact V.sym K)
      ((V.sym K).then' (v_usesEntries rest)))).cast (by simp)
omit K in
theorem items_uses (es : List UsesEntry) : itemsL (usesNode es) = es.map fun e => .name e.ident := by
  rw [usesNode, itemsL_listNode, itemsL_map]
  induction es with
  | nil => rfl
  | cons e es ih => simp_all
theorem v_optUses (es : List UsesEntry) : V ok false false 0 (itemsL (usesNode es)) (gOptUses u es) := by
  rw [items_uses]
  cases es with
  | nil => exact .eps
  | cons e es => exact (V.kw K).then' (v_usesEntries K (e :: es))

theorem v_unitName (h : UnitHead) : V ok false false 0 [.name h.ident] (gUnitName u h) := by
  refine (V.kw K).then' ((V.ident K).seq0 (c := []) ?_)
  cases h.portability with
  | none => exact .eps
  | some p => exact .tkP fun t h => port_ok K h.1

theorem v_intfDecl : ∀ d : IntfDecl (Decl Node), RegIntfDecl d → V ok false false (typesIntf [d]) (intfDeclNode d).items (gIntfDecl u d)
  | .const ds, r => ((V.kw K).then' (v_constDecls K ds r)).cast (by simp [intfDeclNode, constsNode])
  | .type _ ds, r => ((V.kw K).then' (v_typeDecls K ds r)).cast (by simp [intfDeclNode, typesNode])
  | .var ds, r => ((V.kw K).then' (v_varDecls K ds r)).cast (by simp [intfDeclNode, varsNode])
  | .threadVar ds, r => ((V.kw K).then' (v_threadVarDecls K ds r)).cast (by simp [intfDeclNode, threadVarsNode])
  | .heading h o, r => ((v_heading K h r).weakS.seq0 ((V.sym K).then' (v_routineDirs K _ _ _))).cast (by simp [intfDeclNode])

omit K in
theorem typesIntf_cons (d : IntfDecl (Decl Node)) (ds : List (IntfDecl (Decl Node))) :
    typesIntf (d :: ds) = typesIntf [d] + typesIntf ds := by
  cases d <;> simp [typesIntf]

theorem v_intfDecls : ∀ ds : List (IntfDecl (Decl Node)), (∀ d ∈ ds, RegIntfDecl d) →
    V ok false false (typesIntf ds) (itemsL (ds.map fun d => some (intfDeclNode d))) (gIntfDecls u ds)
  | [], _ => .eps
  | d :: rest, r => ((v_intfDecl K d (r d List.mem_cons_self)).seq
      (v_intfDecls rest fun d h => r d (List.mem_cons_of_mem _ h))).cast (by simp) |>.castN (typesIntf_cons d rest).symm

variable {A : Prop} (hA : A → ∀ t, ok t)
include hA

theorem v_stmts (l : Stmts (Decl Node) (PType (Decl Node))) (r : RegStmts A l) :
    V ok false false 0 (itemsL (stmtNodes typeNode l)) (gStmts u l) :=
  (V.leaves (p := fun used => ∃ k k', DStmts u ((declEnv u).senv u) False (fun _ ty used _ => typeTokens u ty used) k l used k')
    fun w ⟨k, k', h⟩ => reads_stmts K hA l k w k' r h).of_imp fun _ _ ⟨w, k, k', e, h⟩ => ⟨w, e, k, k', h⟩

theorem v_initSection (i : InitSection (Decl Node)) (r : RegStmts A i.initialization)
    (r' : ∀ l, i.finalization = some l → RegStmts A l) : V ok false false 0 (initNode i).items (gInitSection u i) := by
  obtain ⟨i, f⟩ := i
  refine ((V.kw K).then' ((v_stmts K hA i r).seq0 (c := itemsL (optNode (fun l => .mk "StmtList" (stmtNodes typeNode l)) f)) ?_)).cast
    (by simp [initNode])
  cases f with
  | none => exact .eps
  | some l => exact ((V.kw K).then' (v_stmts K hA l (r' l rfl))).cast (by simp)

theorem v_unitBody (b : UnitBody (Decl Node)) (r1 : RegDecls A b.decls)
    (r2 : ∀ i, b.init = some i → RegStmts A i.initialization ∧ ∀ l, i.finalization = some l → RegStmts A l) :
    V ok false false (typesDecls b.decls) (itemsL (declSectNodes b.decls) ++ (itemsL (exportsNode b.exports) ++ itemsL (optNode initNode b.init)))
      (gUnitBody u b) := by
  obtain ⟨ds, ex, i⟩ := b
  have f : ∀ (a : List Item) (d : Rd), V ok false false 0 a d → V ok false false (typesDecls ds)
      (itemsL (declSectNodes ds) ++ (itemsL (exportsNode ex) ++ a))
      (gDeclSects u ((declEnv u).senv u) ds ▹ gExports u ex ▹ optSemiR u ▹ d ▹ kwR u r!"END" ▹ Spec.look (IsSym r!".")) :=
    fun a d h => ((v_declSects K hA ds r1).seq ((v_exports K ex).seq0 ((V.semi K).then' (h.seq0 ((V.kw K).then'
      (V.lookSym (s := false) K)))))).cast (by simp) |>.castN (by simp)
  cases i with
  | none => exact f _ _ V.eps
  | some i => exact (f _ _ (v_initSection K hA i (r2 i rfl).1 (r2 i rfl).2)).cast (by simp)

omit K hA in
theorem items_unit (t : UnitTree (Decl Node)) : (unitNode t).items = .name t.head.ident :: (itemsL (usesNode t.intfUses) ++
    (itemsL (t.intf.map fun d => some (intfDeclNode d)) ++ (itemsL (usesNode t.implUses) ++ (itemsL (declSectNodes t.body.decls) ++
    (itemsL (exportsNode t.body.exports) ++ itemsL (optNode initNode t.body.init)))))) := by
  simp [unitNode, intfNodes]

theorem v_unit (t : UnitTree (Decl Node)) (r : RegUnit A t) :
    V ok false false (typesUnit t) (unitNode t).items (gUnit u t) := by
  rw [items_unit]
  exact ((v_unitName K t.head).seqn ((V.sym K).then' ((V.kw K).then' ((v_optUses K t.intfUses).seqn ((v_intfDecls K t.intf r.1).seq
    ((V.kw K).then' ((v_optUses K t.implUses).seqn (v_unitBody K hA t.body r.2.1 r.2.2)))))))).cast (by simp)
theorem v_usedUnit (t : UnitTree (Decl Node)) (r : RegUnit A t) :
    V ok false false (typesUnit t) (unitNode t).items (gUsedUnit u t) := by
  rw [items_unit]
  exact ((v_unitName K t.head).seqn ((V.semi K).then' ((V.kw K).then' ((v_optUses K t.intfUses).seqn ((v_intfDecls K t.intf r.1).seq
    ((V.kw K).then' ((v_optUses K t.implUses).seqn (v_unitBody K hA t.body r.2.1 r.2.2)))))))).cast (by simp)

theorem v_program (t : ProgramTree (Decl Node)) (r : RegProgram A t) :
    V ok false false (typesBlock t.block) (programNode t).items (gProgram u t) :=
  ((V.kw K).then' ((V.ident K).seqn ((V.sym K).then' ((v_optUses K t.uses).seqn ((v_block K hA t.block r).seq (k := 0)
    (V.lookSym K)))))).cast (by simp [programNode])

end

theorem V.reads {ok : Token → Prop} {n : Nat} {a : List Item} {b : Rd} {x z : List Token} (h : V ok false false n a b) (hb : b x z) (hz : z ≠ []) :
    ∃ used, x = used ++ z ∧ Reads ok n a used := by
  rcases h 0 [] x x z (.inl ⟨[], rfl, .nil 0⟩) hb hz with ⟨w, e, h⟩ | ⟨h, -⟩
  · exact ⟨w, e, by simpa using h⟩
  · cases h

end TP
