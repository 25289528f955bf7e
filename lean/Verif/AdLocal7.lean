import Verif.AdLocal6

/-!
# All operators of the library at the points where they are differentiable
-/

set_option linter.unusedSectionVars false

namespace Verif
open Res Shape
attribute [local instance] realFlt

variable {p : Profile} {d : Nat} {m : Mem ℝ} {x : Nat → Arr ℝ}

theorem list_one {ss : List Shape} (h : ss.length = 1) : ∃ a, ss = [a] := List.length_eq_one_iff.mp h
theorem list_two {ss : List Shape} (h : ss.length = 2) : ∃ a b, ss = [a, b] := List.length_eq_two.mp h

theorem local_of_smooth (op : NodeOp ℝ) {ss outs : List Shape} (hleaf : op.isLeaf = false) (har : op.Arity ss.length) (hw : ∀ s, s ∈ ss → s.WF)
    (hz : ∀ s, s ∈ ss → s.size ≤ 2 ^ 31) (hzo : ∀ s, s ∈ outs → s.size ≤ 2 ^ 31) (he : op.shapes .debug ss = ok outs) (hsm : op.Smooth ss x outs) :
    LocalAD d (op.oper p d m) (op.real ss) ss outs x := by
  cases op with
  | input v => cases hleaf
  | inputOwner v => cases hleaf
  | parameter v => cases hleaf
  | batchSlice => exact hsm.elim
  | batchSplit => exact hsm.elim
  | batchPick => exact hsm.elim
  | concat dim =>
    simp only [NodeOp.shapes, Res.bind_eq_ok, Res.ok.injEq] at he
    obtain ⟨s, h, rfl⟩ := he
    exact local_concat hw (hzo _ (by simp)) h
  | batchConcat =>
    simp only [NodeOp.shapes, Res.bind_eq_ok, Res.ok.injEq] at he
    obtain ⟨s, h, rfl⟩ := he
    exact local_batchConcat hw (hzo _ (by simp)) h
  | bi o =>
    obtain ⟨a, b, rfl⟩ := list_two har
    simp only [NodeOp.shapes, Graph.at', Res.bind_eq_ok, Res.ok.injEq, List.getElem?_cons_zero, List.getElem?_cons_succ] at he
    obtain ⟨_, rfl, _, rfl, s, h, rfl⟩ := he
    exact local_bi o (hw _ (by simp)) (hw _ (by simp)) h (hzo _ (by simp)) hsm
  | sc o =>
    obtain ⟨a, b, rfl⟩ := list_two har
    simp only [NodeOp.shapes, Graph.at', Res.bind_eq_ok, Res.ok.injEq, List.getElem?_cons_zero, List.getElem?_cons_succ] at he
    obtain ⟨_, rfl, _, rfl, s, h, rfl⟩ := he
    exact local_sc o (hw _ (by simp)) (hw _ (by simp)) h hsm.1 hsm.2.1 (hzo _ (by simp)) hsm.2.2
  | matmul =>
    obtain ⟨a, b, rfl⟩ := list_two har
    simp only [NodeOp.shapes, Graph.at', Res.bind_eq_ok, Res.ok.injEq, List.getElem?_cons_zero, List.getElem?_cons_succ] at he
    obtain ⟨_, rfl, _, rfl, s, h, rfl⟩ := he
    exact local_matmul (hw _ (by simp)) (hw _ (by simp)) (hzo _ (by simp)) h hsm.1 hsm.2
  | softmaxCrossEntropy dim =>
    obtain ⟨a, b, rfl⟩ := list_two har
    simp only [NodeOp.shapes, Graph.at', Res.bind_eq_ok, Res.ok.injEq, List.getElem?_cons_zero, List.getElem?_cons_succ] at he
    obtain ⟨_, rfl, _, rfl, s, h, s', h', rfl⟩ := he
    exact local_sce (hw _ (by simp)) (hw _ (by simp)) (hz _ (by simp)) (hz _ (by simp)) h h' hsm
  | un u =>
    obtain ⟨a, rfl⟩ := list_one har
    simp only [NodeOp.shapes, Graph.at', Res.bind_eq_ok, Res.ok.injEq, List.getElem?_cons_zero] at he
    obtain ⟨_, rfl, rfl⟩ := he
    by_cases hu : u = .softplus
    · subst hu; exact local_softplus (hw _ (by simp))
    · exact local_un u hsm.1 hu (hw _ (by simp)) hsm.2
  | cn o k =>
    obtain ⟨a, rfl⟩ := list_one har
    simp only [NodeOp.shapes, Graph.at', Res.bind_eq_ok, Res.ok.injEq, List.getElem?_cons_zero] at he
    obtain ⟨_, rfl, rfl⟩ := he
    by_cases ho : o = .elu
    · subst ho; exact local_elu k (hw _ (by simp)) hsm
    · refine local_cn o ho k (hw _ (by simp)) ?_
      cases o <;> first | exact absurd rfl ho | exact hsm
  | powi k =>
    obtain ⟨a, rfl⟩ := list_one har
    simp only [NodeOp.shapes, Graph.at', Res.bind_eq_ok, Res.ok.injEq, List.getElem?_cons_zero] at he
    obtain ⟨_, rfl, rfl⟩ := he
    exact local_powi k hsm.1 hsm.2.1 (hw _ (by simp)) hsm.2.2
  | triangularL k =>
    obtain ⟨a, rfl⟩ := list_one har
    simp only [NodeOp.shapes, Graph.at', Res.bind_eq_ok, Res.ok.injEq, List.getElem?_cons_zero] at he
    obtain ⟨_, rfl, rfl⟩ := he
    exact local_triL k (hw _ (by simp)) ⟨hsm.1, hsm.2.1⟩ hsm.2.2
  | triangularU k =>
    obtain ⟨a, rfl⟩ := list_one har
    simp only [NodeOp.shapes, Graph.at', Res.bind_eq_ok, Res.ok.injEq, List.getElem?_cons_zero] at he
    obtain ⟨_, rfl, rfl⟩ := he
    exact local_triU k (hw _ (by simp)) ⟨hsm.1, hsm.2.1⟩ hsm.2.2
  | sum dim =>
    obtain ⟨a, rfl⟩ := list_one har
    simp only [NodeOp.shapes, Graph.at', Res.bind_eq_ok, Res.ok.injEq, List.getElem?_cons_zero] at he
    obtain ⟨_, rfl, s, h, rfl⟩ := he
    exact local_sum (hw _ (by simp)) (hz _ (by simp)) h hsm
  | logsumexp dim =>
    obtain ⟨a, rfl⟩ := list_one har
    simp only [NodeOp.shapes, Graph.at', Res.bind_eq_ok, Res.ok.injEq, List.getElem?_cons_zero] at he
    obtain ⟨_, rfl, s, h, rfl⟩ := he
    exact local_lse (hw _ (by simp)) (hz _ (by simp)) h hsm
  | max dim =>
    obtain ⟨a, rfl⟩ := list_one har
    simp only [NodeOp.shapes, Graph.at', Res.bind_eq_ok, Res.ok.injEq, List.getElem?_cons_zero] at he
    obtain ⟨_, rfl, s, h, rfl⟩ := he
    exact local_max (hw _ (by simp)) (hz _ (by simp)) h hsm
  | min dim =>
    obtain ⟨a, rfl⟩ := list_one har
    simp only [NodeOp.shapes, Graph.at', Res.bind_eq_ok, Res.ok.injEq, List.getElem?_cons_zero] at he
    obtain ⟨_, rfl, s, h, rfl⟩ := he
    exact local_min (hw _ (by simp)) (hz _ (by simp)) h hsm
  | broadcast dim n =>
    obtain ⟨a, rfl⟩ := list_one har
    simp only [NodeOp.shapes, Graph.at', Res.bind_eq_ok, Res.ok.injEq, List.getElem?_cons_zero] at he
    obtain ⟨_, rfl, s, h, rfl⟩ := he
    exact local_broadcast (hw _ (by simp)) (hzo _ (by simp)) h
  | sparseSoftmaxCrossEntropy ids dim =>
    obtain ⟨a, rfl⟩ := list_one har
    simp only [NodeOp.shapes, Graph.at', Res.bind_eq_ok, Res.ok.injEq, List.getElem?_cons_zero] at he
    obtain ⟨_, rfl, s, h, rfl⟩ := he
    exact local_ssce (hw _ (by simp)) (hzo _ (by simp)) h hsm
  | transpose =>
    obtain ⟨a, rfl⟩ := list_one har
    simp only [NodeOp.shapes, Graph.at', Res.bind_eq_ok, Res.ok.injEq, List.getElem?_cons_zero] at he
    obtain ⟨_, rfl, s, h, rfl⟩ := he
    exact local_transpose (hw _ (by simp)) (hzo _ (by simp)) h
  | slice dim lower upper =>
    obtain ⟨a, rfl⟩ := list_one har
    simp only [NodeOp.shapes, Graph.at', Res.bind_eq_ok, Res.ok.injEq, List.getElem?_cons_zero] at he
    obtain ⟨_, rfl, s, h, rfl⟩ := he
    exact local_slice (hw _ (by simp)) (hzo _ (by simp)) h
  | pick ids dim =>
    obtain ⟨a, rfl⟩ := list_one har
    simp only [NodeOp.shapes, Graph.at', Res.bind_eq_ok, Res.ok.injEq, List.getElem?_cons_zero] at he
    obtain ⟨_, rfl, s, h, rfl⟩ := he
    exact local_pick (hw _ (by simp)) (hzo _ (by simp)) h
  | batchSum =>
    obtain ⟨a, rfl⟩ := list_one har
    simp only [NodeOp.shapes, Graph.at', Res.bind_eq_ok, Res.ok.injEq, List.getElem?_cons_zero] at he
    obtain ⟨_, rfl, s, h, rfl⟩ := he
    exact local_batchSum (hw _ (by simp)) (hz _ (by simp)) h
  | reshape s =>
    obtain ⟨a, rfl⟩ := list_one har
    simp only [NodeOp.shapes, Res.ok.injEq] at he
    subst he
    exact local_reshape (hw _ (by simp)) hsm.1 hsm.2
  | split dim n =>
    obtain ⟨a, rfl⟩ := list_one har
    simp only [NodeOp.shapes, Graph.at', Res.bind_eq_ok, Res.ok.injEq, List.getElem?_cons_zero, check_eq_ok] at he
    obtain ⟨_, rfl, _, hn, _, hm, s, h, rfl⟩ := he
    exact local_split (hw _ (by simp)) (hzo s (by simp [hn])) hn rfl hm h

end Verif
