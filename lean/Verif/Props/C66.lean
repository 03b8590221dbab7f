import Verif.Lemmas.Reachable
import Verif.Props.C53
import Verif.Props.C64

/-!
# C66  The block of a program refers only to what the interfaces offer and to its own declarations

`reachable` (`Verif/Spec/Offered.lean`) lists what the block of a program may refer to: the program, the items of its uses
clause, the constants, types, variables and routines that the interfaces of its units declare at their outermost level, and
the declarations of the block itself.  What the implementation of a unit declares, the elements of the enumerations of an
interface and the parameters of its routines are not among them.
-/

namespace TP.Props
open TP Spec

section
variable (u : Uni) (sep : Char) (files : Str → FileR) (lib : TopoLib) (it : List UParser → List Str)

/-- Every reference of the block of a program leads to the program, an item of its uses clause, a declaration that the
interface of one of its units offers, a declaration of the block, an embedded type or a member of a class: the references
that are set when the identifier is met, and those that are set at the end of a type section. -/
theorem C66 (path : Str) (n : Nat) (s' : PS DS) (t : ProgramTree (Decl Node))
    (h : parseProgramFile u sep files lib it path n = .ok t s') :
    (∀ r ∈ t.block.refs, Leads (· ∈ reachable t) s'.cx.types r.2) ∧
    ∀ r ∈ laterRefs s'.cx (idsBlock t.block), Leads (· ∈ reachable t) s'.cx.types r.2 := by
  unfold parseProgramFile at h
  split at h
  · cases h
  · cases h
  · rename_i ts tail _
    obtain ⟨_, s0, e0, e⟩ := ok_bind h
    unfold parseProgram at e
    obtain ⟨_, s1, e1, e⟩ := ok_bind e
    obtain ⟨tk, s2, e2, e⟩ := ok_bind e
    obtain ⟨_, s3, e3, e⟩ := ok_bind e
    obtain ⟨_, s4, e4, e⟩ := ok_bind e
    obtain ⟨us, s5, e5, e⟩ := ok_bind e
    obtain ⟨b, s6, e6, e⟩ := ok_bind e
    obtain ⟨_, s7, e7, e⟩ := ok_bind e
    cases e
    have q : s4.cx = DS.init path := by
      rw [quiet_next _ _ _ e4, quiet_nextIs _ _ _ _ e3, quiet_nextIs _ _ _ _ e2, quiet_current _ _ _ _ e1, quiet_cur? _ _ _ e0]
    rw [quiet_current _ _ _ _ e7]
    unfold parseProgramUses at e5
    obtain ⟨c, s8, e8, e5⟩ := ok_bind e5
    rw [← quiet_is _ _ _ _ e8] at q
    cases c with
    | false =>
      cases e5
      have hs : Inn [] [] s5.cx := by rw [q]; exact inn_init path
      have := Fw.block n _ _ _ _ _ hs e6
      have hin : ∀ x ∈ dclBlock b ++ [], x ∈ reachable (⟨Ident.ofTok tk, [], [], b⟩ : ProgramTree (Decl Node)) := fun x hx =>
        List.mem_append_right _ (by simpa using hx)
      exact ⟨fun r hr => (this.refs r (List.mem_append_left _ hr)).mono hin List.prefix_rfl, fun r hr => (inn_later this _ r hr).mono hin List.prefix_rfl⟩
    | true =>
      obtain ⟨es, s9, e9, e5⟩ := ok_bind (p := parseUses u n) e5
      obtain ⟨_, s10, e10, e5⟩ := ok_bind e5
      obtain ⟨ls, s11, e11, e5⟩ := ok_bind e5
      cases e5
      obtain ⟨m, hm, gm⟩ := parseUses_opened (m := []) (by rw [q]; exact opened_init path) e9
      rw [← quiet_next _ _ _ e10] at hm
      have hw := loadUnits_held (u := u) (sep := sep) (files := files) (lib := lib) (it := it) (cp := 0) (n := n) (i := Ident.ofTok tk) (es := es) hm.seal
      change wp _ _ _ _ _ at hw
      unfold wp at hw
      rw [e11] at hw
      obtain ⟨X, -, hc, -, hx⟩ := hw
      obtain ⟨s12, ha, ho, e12⟩ := loadUnits_ap hm.apart e11
      rw [hm.cur] at hc
      obtain ⟨N, hi⟩ := enterP_inside ha (fun p hp => (gm p hp).resolve_left (by exact fun h => by cases h)) ho e12 hx hc
      have hT := (inside_self (u := u) (fun S T => (blocksRe (ledBase u S T) n).block)
        (fun z k0 S T => (blockR (SeenSim.sim u z k0 S T) (Nat.le_refl n)).block) hi e6).2.2
      have sees : ∀ d, (blockZone s5.cx (ls.map Loader.head) N (headDcls (Ident.ofTok tk) es ls)).Sees (· ∈ dclBlock b ++ []) s6.cx.types d →
          Leads (· ∈ reachable (⟨Ident.ofTok tk, es, ls.map Loader.tree, b⟩ : ProgramTree (Decl Node))) s6.cx.types d := by
        rintro d (hd | ⟨hd, -⟩)
        · refine Leads.mono (fun x hx => List.mem_append_left _ ?_) hT hd
          unfold headDcls at hx
          rw [List.flatMap_map]
          exact hx
        · exact hd.mono (fun x hx => List.mem_append_right _ (by simpa using hx)) List.prefix_rfl
      exact ⟨fun r hr => sees _ ((inside_block hi e6).1 r hr), fun r hr => sees _ (inside_later hi e6 r hr)⟩

end

/-! ## Examples -/

/-- the names that the block of a program refers to -/
def blockRefs : R (PS DS) (ProgramTree (Decl Node)) → Option (List Str)
  | .ok t _ => some (t.block.refs.map fun r => r.1.name)
  | _ => none

/-- the names of declarations -/
def dclNames (l : List (Dcl (Decl Node))) : List Str := l.map fun d => match d with
  | .named _ i => i.name
  | .type n _ => n
  | .uses n _ => n
  | .unit n _ => n
  | .program n => n

/-- the names that the block can refer to, and all that are declared -/
def reachNames : R (PS DS) (ProgramTree (Decl Node)) → Option (List Str × List Str)
  | .ok t _ => some (dclNames (reachable t), dclNames (dclProgram t))
  | _ => none

def exReach (block : Str) : List (Str × Str) :=
  [(r!"p", r!"program P; uses A in 'a'; " ++ block),
   (r!"a", r!"unit A; interface type E = (e1, e2); var v: E; procedure h(q: Integer); implementation var w: E;
      initialization w := e1; end.")]

example : blockRefs (exProgram (exReach r!"var x: E; begin x := v; h(A.v); P.x := v; end.")) =
    some [r!"E", r!"x", r!"v", r!"h", r!"A", r!"v", r!"P", r!"x", r!"v"] := by krfl

/-- The elements `e1` and `e2`, the parameter `q` and the variable `w` of the implementation are not reached. -/
example : reachNames (exProgram (exReach r!"var x: E; begin x := v; h(A.v); P.x := v; end.")) =
    some ([r!"P", r!"A", r!"E", r!"v", r!"h", r!"x"],
      [r!"P", r!"A", r!"A", r!"E", r!"e1", r!"e2", r!"v", r!"h", r!"q", r!"w", r!"x"]) := by krfl

/-- They may be written in the block of the program, but they have no reference there; -/
example : blockRefs (exProgram (exReach r!"begin w := v; e1 := v; q := v; v := w; v := e1; end.")) =
    some [r!"v", r!"v", r!"v", r!"v", r!"v"] := by krfl

/-- with the name of the unit in front, they are an error. -/
example : blockRefs (exProgram (exReach r!"begin v := A.w; end.")) = none := by krfl

example : blockRefs (exProgram (exReach r!"begin v := A.v; end.")) = some [r!"v", r!"A", r!"v"] := by krfl

end TP.Props
