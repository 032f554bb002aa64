import Verif.Ts.ReadStubs

/-!
# Reading whole modules (proof helper)
-/

namespace Verif.Ts
open Verif Verif.Js Verif.Spec Verif.Codegen

theorem MTrans.members {o : Options} {ms : List Member} {ls : List (List Item)} (h : All2 (ReadsType o) ms ls) {D : List Ns} {N : Str} {I : List Item}
    {A : MState} (hA : Ready D N I A) :
    ∃ B, MTrans (ms.map (fun d => CodegenSpec.typeTextAs (CodegenSpec.schemaName o d) (CodegenSpec.typeName o d) d)).flatten none A none B ∧ Ready D N (I ++ ls.flatten) B := by
  induction h generalizing I A with
  | nil => exact ⟨A, MTrans.nil _ _, by simpa using hA⟩
  | cons h1 _ ih =>
    obtain ⟨B, hB, hr⟩ := MTrans.member h1 hA
    obtain ⟨C, hC, hr'⟩ := ih hr
    refine ⟨C, hB.append hC, by simpa using hr'⟩

theorem MTrans.stubs {ms : List RpcMember} {fs : List Fn} (h : All2 ReadsStub ms fs) {D : List Ns} {N : Str} {I : List Item}
    {A : MState} (hA : Ready D N I A) :
    ∃ B, MTrans (ms.map RpcMember.decl).flatten none A none B ∧ Ready D N (I ++ fs.map .func) B := by
  induction h generalizing I A with
  | nil => exact ⟨A, MTrans.nil _ _, by simpa using hA⟩
  | cons h1 _ ih =>
    obtain ⟨C, hC, hr'⟩ := ih (ready_item D N _)
    refine ⟨C, (MTrans.stub h1 hA).append hC, by simpa using hr'⟩

/-- What reading a namespace needs and gives. -/
structure ReadsNs (r : Registry) (o : Options) (ns : Str) (N : Ns) : Prop where
  ident : isIdent ns = true
  bindable : bindable ns = true
  items : ∃ ls fs, All2 (ReadsType o) (CodegenSpec.typesOf r ns) ls ∧ All2 ReadsStub (CodegenSpec.rpcOf r ns) fs ∧
    N = ⟨ns, ls.flatten ++ fs.map .func⟩

theorem MTrans.block {r : Registry} {o : Options} {ns : Str} {N : Ns} (h : ReadsNs r o ns N) (D : List Ns) :
    MTrans (CodegenSpec.blockAs r o ns) none ⟨D, [], [], .top⟩ none ⟨D ++ [N], [], [], .top⟩ := by
  obtain ⟨h1, h2, ls, fs, h3, h4, rfl⟩ := h
  obtain ⟨B, hB, hr⟩ := MTrans.members h3 (ready_item D ns [])
  obtain ⟨C, hC, hr'⟩ := MTrans.stubs h4 hr
  have hend : MTrans (lit " }") none C none ⟨D ++ [⟨ns, ls.flatten ++ fs.map .func⟩], [], [], .top⟩ := by
    refine MTrans.const (fun nl => ?_)
    have : (xAfter nl (lit " }")).toks.reverse = [(.p '}', nl)] := by cases nl <;> rfl
    refine ⟨by cases nl <;> rfl, ?_, knows_none _⟩
    rw [this, mRun, hr' _ _ (Or.inr rfl)]
    simp [itemStep, mRun]
  have := (MTrans.const (s := lit "export namespace ") (A := ⟨D, [], [], .top⟩) (B := ⟨D, [], [], .nsName⟩) (n' := some false)
      (fun nl => by cases nl <;> exact ⟨rfl, rfl, fun b hb => (by injection hb)⟩)).append
    (MTrans.ident h1 (B := ⟨D, ns, [], .nsOpen⟩) (fun nl hnl => by rw [hnl false rfl]; simp [mStep, h2])
      (MTrans.any ((MTrans.const (s := lit " { ") (B := ⟨D, ns, [], .item⟩) (n' := none)
        (fun nl => by cases nl <;> exact ⟨rfl, rfl, knows_none _⟩)).append (hB.append (hC.append hend)))) ⟨_, _, rfl, rfl⟩)
  unfold CodegenSpec.blockAs
  simpa only [List.append_assoc] using this

theorem MTrans.blocks {r : Registry} {o : Options} {nss : List Str} {Ns : List Ns} (h : All2 (ReadsNs r o) nss Ns) (D : List Spec.Ns) :
    MTrans (nss.map (CodegenSpec.blockAs r o)).flatten none ⟨D, [], [], .top⟩ none ⟨D ++ Ns, [], [], .top⟩ := by
  induction h generalizing D with
  | nil => rw [List.append_nil]; exact MTrans.nil _ _
  | cons h1 _ ih =>
    have := (MTrans.block h1 D).append (ih _)
    simpa using this

theorem read_of_mtrans {s : Str} {M : List Ns} (h : MTrans s none ⟨[], [], [], .top⟩ none ⟨M, [], [], .top⟩) :
    readModule s = some M := by
  obtain ⟨fs, nl, h1, h2, _⟩ := h [] false (knows_none _)
  have : source s = some fs := by
    unfold source
    rw [xRun_append, h1]
    have : xRun ⟨fs.reverse ++ [], nl, .code .start⟩ (lit "\n") = ⟨fs.reverse, true, .code .start⟩ := by
      rw [List.append_nil]; cases nl <;> rfl
    simp only [this, List.reverse_reverse]
  unfold readModule
  simp only [this, h2]

theorem read_blocks {r : Registry} {o : Options} {nss : List Str} {M : List Ns} (h : All2 (ReadsNs r o) nss M) :
    readModule (nss.map (CodegenSpec.blockAs r o)).flatten = some M :=
  read_of_mtrans (by simpa using MTrans.blocks h [])

end Verif.Ts
