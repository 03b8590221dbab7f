import Verif.Lemmas.AccClass
import Verif.Props.C42

/-!
# C69  What `class of` refers to
-/

namespace TP.Props
open Spec

/-- the node of a declaration is a `*TypeDecl`: of the text or embedded -/
def IsTypeNode : Node → Prop
  | .type _ => True
  | .embedded _ _ => True
  | _ => False

/-- `class of` and an identifier are accepted in every context, whatever comes next; the parser stops at the identifier and
the context does not change.  The identifier refers to `d` if and only if `d` is what the context returns for the name and
`d` is a type.  The reference does not change later. -/
theorem C69_class_of (u : Uni) (n : Nat) (c o t : Token) (ts : List Token) (tl : Tail) (k : DS) (hc : IsKw u r!"CLASS" c)
    (ho : IsKw u r!"OF" o) (ht : t.typ = .ident) :
    ∃ i, parseType u (declEnv u) (n + 2) ⟨c :: o :: t :: ts, tl, k⟩ = .ok (.classRef i) ⟨t :: ts, tl, k⟩ ∧
      i.unit = none ∧ i.ident = ⟨t.raw, t.start, t.stop⟩ ∧
      ∀ (k' : DS) d, k'.ref i.ref = some d ↔ k.get u t.raw = some d ∧ IsTypeNode d.node := by
  have hv : t.value u = t.raw := by simp [Token.value, ht]
  have hcv : c.value u = r!"CLASS" := by have := hc; rw [← kw_iff] at this; simpa [kw, hc.1] using this
  have h1 : kw u r!"CLASS" c = true := kw_iff.2 hc
  have h2 : kw u r!"OF" o = true := kw_iff.2 ho
  have h3 : sym r!";" o = false := by simpa using symF (not_sym_kw (d := r!";") ho)
  refine ⟨⟨none, Ident.ofTok t, match k.get u t.raw with
    | some d => if (declEnv u).isType d then .now d else .none
    | none => .none⟩, ?_, rfl, ?_, ?_⟩
  · simp [parseType, parseClassOrRef, traced, parseClassRef, getDecl, P.cur, P.cur?, P.current, P.is, P.next, P.nextIs, bind, pure, P.bind, P.pure,
      hc.1, hcv, h1, h2, h3, Pred.typ, ht, hv]
    have hg : (declEnv u).get k t.raw = k.get u t.raw := rfl
    rw [hg]
    cases k.get u t.raw <;> rfl
  · simp [Ident.ofTok]
  · intro k' d
    cases e : k.get u t.raw with
    | none => simp [DS.ref]
    | some d' =>
      obtain ⟨nm, nd⟩ := d'
      cases nd <;> simp [declEnv, DS.ref, IsTypeNode] <;> (rintro rfl; first | trivial | exact fun h => h)

/-- Anything else behind `class of` is an error. -/
theorem C69_error (u : Uni) (n : Nat) (c o t : Token) (ts : List Token) (tl : Tail) (k : DS) (hc : IsKw u r!"CLASS" c)
    (ho : IsKw u r!"OF" o) (ht : t.typ ≠ .ident) :
    parseType u (declEnv u) (n + 2) ⟨c :: o :: t :: ts, tl, k⟩ = .err := by
  have hcv : c.value u = r!"CLASS" := by have := hc; rw [← kw_iff] at this; simpa [kw, hc.1] using this
  have h1 : kw u r!"CLASS" c = true := kw_iff.2 hc
  have h2 : kw u r!"OF" o = true := kw_iff.2 ho
  have h3 : sym r!";" o = false := by simpa using symF (not_sym_kw (d := r!";") ho)
  simp [parseType, parseClassOrRef, traced, parseClassRef, P.cur, P.cur?, P.current, P.is, P.next, P.nextIs, bind, pure, P.bind, P.pure, P.fail,
      hc.1, hcv, h1, h2, h3, Pred.typ, ht]

/-! ## Examples -/

example : classRefs (exSection r!"type B = class end; A = class of b; C = class of Integer; D = class of X;") =
    some [(r!"b", some ⟨r!"B", .type 0⟩), (r!"Integer", some ⟨r!"Integer", .embedded .ordIdent r!"Integer"⟩), (r!"X", none)] := by krfl

/-- A constant is accepted, but there is no reference. -/
example : classRefs (match exBlock r!"const T = 1;" with
    | .ok _ s => parseTypeSection asciiUni (declEnv asciiUni) 400 { exText r!"type A = class of T;" with cx := s.cx }
    | _ => .err) = some [(r!"T", none)] := by krfl

example : classRefs (exSection r!"type A = class of 1;") = none := by krfl

end TP.Props
