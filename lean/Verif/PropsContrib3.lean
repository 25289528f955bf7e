import Verif.PropsContrib2
import Verif.RealInst
import Verif.PropsCalc2
import Verif.PropsSerde

/-!
# Property C46 over the real numbers, and examples
-/

set_option linter.unusedSectionVars false

namespace Verif
open Res

section Real
attribute [local instance] realFlt

theorem avg_real (n : Nat) (t : Nat → ℝ) : avg n t = (∑ i ∈ Finset.range n, t i) / n := by
  unfold avg
  rw [sumTo_real]
  rfl

theorem standardized_sum {n : Nat} (hn : 0 < n) (t : Nat → ℝ) (w : ℝ) : (∑ i ∈ Finset.range n, (t i - avg n t) / w) = 0 := by
  have hn' : (n : ℝ) ≠ 0 := Nat.cast_ne_zero.mpr (by omega)
  rw [← Finset.sum_div, Finset.sum_sub_distrib, avg_real, Finset.sum_const, Finset.card_range, nsmul_eq_mul, mul_div_cancel₀ _ hn', sub_self, zero_div]

theorem avg_sq_nonneg (n : Nat) (t : Nat → ℝ) : 0 ≤ avg n fun i => t i * t i := by
  rw [avg_real]
  exact div_nonneg (Finset.sum_nonneg fun i _ => mul_self_nonneg _) (Nat.cast_nonneg _)

theorem standardized_sq {n : Nat} (t : Nat → ℝ) {eps v : ℝ} (he : 0 < eps) (e : v = avg n fun i => (t i - avg n t) * (t i - avg n t)) :
    avg n (fun i => standardize (t i) (avg n t) v eps * standardize (t i) (avg n t) v eps) = v / (v + eps) := by
  have hv : 0 ≤ v := e ▸ avg_sq_nonneg n fun i => t i - avg n t
  have hs : Flt.sqrt (v + eps) * Flt.sqrt (v + eps) = v + eps := Real.mul_self_sqrt (by linarith)
  have h : ∀ i, standardize (t i) (avg n t) v eps * standardize (t i) (avg n t) v eps = (t i - avg n t) * (t i - avg n t) / (v + eps) := by
    intro i
    show (t i - avg n t) / Flt.sqrt (v + eps) * ((t i - avg n t) / Flt.sqrt (v + eps)) = _
    rw [div_mul_div_comm, hs]
  simp only [h]
  rw [avg_real, ← Finset.sum_div]
  rw [div_right_comm, ← avg_real, ← e]

/-- C46 over the reals: batch-normalized values (γ = 1, β = 0) have mean 0 over the batches at every position. -/
theorem C46_batch_normed_mean {B : Nat} (hB : 0 < B) (f : Arr ℝ) (eps : ℝ) (c : Nat → Nat) :
    (∑ b ∈ Finset.range B, batchNormed B f eps c b) = 0 :=
  standardized_sum hB (fun b => f c b) _

/-- C46 over the reals: … and mean square `σ² / (σ² + ε)`. -/
theorem C46_batch_normed_square {B : Nat} (f : Arr ℝ) {eps : ℝ} (he : 0 < eps) (c : Nat → Nat) :
    (∑ b ∈ Finset.range B, batchNormed B f eps c b ^ 2) / B = batchVar B f c / (batchVar B f c + eps) := by
  have h := standardized_sq (n := B) (fun b => f c b) he (v := batchVar B f c) rfl
  rw [avg_real] at h
  simp only [pow_two]
  exact h

theorem elemAt_normed {s : Shape} (hs : s.WF) (f : Arr ℝ) (eps : ℝ) {b i : Nat} (hi : i < s.volume) :
    elemAt s (layerNormed s f eps) b i = standardize (elemAt s f b i) (layerMu s f b) (layerVar s f b) eps := by
  have e9 : (i + b * s.volume) / s.volume = b := by
    rw [Nat.add_mul_div_right _ _ hs.volume_pos, Nat.div_eq_of_lt hi, Nat.zero_add]
  unfold elemAt Arr.flat layerNormed
  rw [e9]

/-- C46 over the reals: layer-normalized values (γ = 1, β = 0) have mean 0 over the elements of every batch. -/
theorem C46_layer_normed_mean {s : Shape} (hs : s.WF) (f : Arr ℝ) (eps : ℝ) {b : Nat} :
    (∑ i ∈ Finset.range s.volume, elemAt s (layerNormed s f eps) b i) = 0 := by
  exact Eq.trans (Finset.sum_congr rfl fun i hi => elemAt_normed hs f eps (Finset.mem_range.mp hi))
    (standardized_sum hs.volume_pos (elemAt s f b) (Flt.sqrt (layerVar s f b + eps)))

/-- C46 over the reals: … and mean square `σ² / (σ² + ε)`. -/
theorem C46_layer_normed_square {s : Shape} (hs : s.WF) (f : Arr ℝ) {eps : ℝ} (he : 0 < eps) {b : Nat} :
    (∑ i ∈ Finset.range s.volume, elemAt s (layerNormed s f eps) b i ^ 2) / s.volume = layerVar s f b / (layerVar s f b + eps) := by
  have h := standardized_sq (n := s.volume) (elemAt s f b) he (v := layerVar s f b) rfl
  rw [avg_real] at h
  refine Eq.trans ?_ h
  congr 1
  refine Finset.sum_congr rfl fun i hi => ?_
  rw [pow_two, elemAt_normed hs f eps (Finset.mem_range.mp hi)]
  rfl

/-- Beside the four theorems: the elements 1 and 3 of two batches are normalized to -1 and 1 by `ε = 0`. -/
example : batchNormed 2 (fun _ b => if b = 0 then 1 else 3 : Arr ℝ) 0 czero 0 = -1 ∧ batchNormed 2 (fun _ b => if b = 0 then 1 else 3 : Arr ℝ) 0 czero 1 = 1 := by
  have hmu : batchMu 2 (fun _ b => if b = 0 then 1 else 3 : Arr ℝ) czero = 2 := by
    unfold batchMu; rw [avg_real]; norm_num [Finset.sum_range_succ]
  have hva : batchVar 2 (fun _ b => if b = 0 then 1 else 3 : Arr ℝ) czero = 1 := by
    unfold batchVar; rw [avg_real, hmu]; norm_num [Finset.sum_range_succ]
  have hs : Flt.sqrt ((1 : ℝ) + 0) = 1 := by show Real.sqrt ((1 : ℝ) + 0) = 1; simp
  unfold batchNormed standardize
  rw [hmu, hva, hs]
  constructor <;> norm_num

/-- Beside the theorems on nodes: for every tensor of two batches of three numbers there is a node that evaluates to it; mean, dropout at rate ½ and
batch normalization succeed on it, layer normalization panics (and the tensors meet the hypotheses of the theorems on tensors). -/
example (f : Nat → ℝ) (m0 : Nat → ℝ) (m : Nat → Mem ℝ) (r : Rng ℝ) : ∃ (t : Tensor ℝ) (g : Graph (Tensor ℝ)) (x : NF.Node) (F : Arr ℝ),
    NF.Ready .debug m0 g ∧ t.Holds 0 (vecShape 3 2) F ∧ NF.Evals .debug g x 0 (vecShape 3 2) F ∧
    (∃ s F', NF.NYields .debug m0 g (NF.mean .debug m g x 0) 0 s F') ∧
    (∃ s F', NF.NYields .debug m0 g (NF.dropout .debug m r g x (1 / 2) true) 0 s F') ∧
    (∃ s F', NF.NYields .debug m0 g (NF.dropoutDim .debug m r g x 0 (1 / 2) true) 0 s F') ∧
    (∃ s F', NF.NYields .debug m0 g (NF.sliceSum .debug m g [x, x]) 0 s F') ∧
    (∃ s F', NF.NYields .debug m0 g (NF.batchNormalization .debug m g x x x 1 true) 0 s F') ∧
    NF.layerNormalization .debug m g x x x 1 = panic ∧
    (∃ s F', Yields (TF.dropout .debug (m 0) r t (1 / 2) true) 0 s F') ∧
    (∃ s F', Yields (TF.layerNormalization .debug (m 0) t t t 1) 0 s F') ∧
    (∃ s F', Yields (TF.batchNormalization .debug (m 0) t t t 1 true) 0 s F') := by
  have w : (vecShape 3 2).WF := vecShape_wf (n := 3) (b := 2) rfl
  obtain ⟨t, ht⟩ := exists_holds w (by decide) 0 f
  obtain ⟨g, x, _, hr, ix, _, cx, _⟩ := NF.exists_two .debug m0 (m 0) ht.device ht.host ht.device ht.host
  have hx : NF.Evals .debug g x 0 (vecShape 3 2) _ := ⟨ix, t, cx, ht⟩
  have hmul : ∀ u v : ℝ, u * v = v * u := mul_comm
  have hadd : ∀ u v : ℝ, u + v = v + u := add_comm
  have l1 : Flt.le (1 : ℝ) (1 / 2) = false := by show decide ((1 : ℝ) ≤ 1 / 2) = false; norm_num
  have l2 : Flt.le (0 : ℝ) (1 - 1 / 2) = true := by show decide ((0 : ℝ) ≤ 1 - 1 / 2) = true; norm_num
  have l3 : Flt.le (1 - 1 / 2) (1 : ℝ) = true := by show decide ((1 : ℝ) - 1 / 2 ≤ 1) = true; norm_num
  have jj := Shape.IsJoin.self w
  have ff := OpFits.self (vecShape 3 2)
  obtain ⟨s1, _, h1⟩ := NF.C46_node_mean hr hx (dim := 0) (by decide) m
  obtain ⟨c, _, _, h3⟩ := NF.C46_node_dropout_dim hmul hr hx (dim := 0) (by decide) m r l1 l2 l3
  exact ⟨t, g, x, _, hr, ht, hx, ⟨_, _, h1⟩, ⟨_, _, NF.C46_node_dropout hmul hr hx m r l1 l2 l3⟩, ⟨_, _, h3⟩,
    ⟨_, _, NF.C46_node_slice_sum hadd hr (i0 := (_, _)) (ins := [(_, _)]) hx (.cons hx .nil) (by simp) (.cons ff jj ht.small (.nil _)) m⟩,
    ⟨_, _, NF.C46_node_batch_normalization hadd hmul hr hx hx hx rfl rfl ff jj ht.small ff jj ht.small 1 m⟩,
    NF.C46_node_layer_normalization_panics hr hx rfl x x 1 m,
    ⟨_, _, C46_dropout hmul ht .debug (m 0) r l1 l2 l3⟩,
    ⟨_, _, C46_layer_normalization hadd hmul ht ht ht ff jj ht.small ff jj ht.small 1 .debug (m 0)⟩,
    ⟨_, _, C46_batch_normalization hadd hmul ht ht ht ff jj ht.small ff jj ht.small 1 .debug (m 0)⟩⟩

end Real

/-! ### Examples -/

section Examples
attribute [local instance] intFlt

/-- Make a tensor, apply a function, read the elements. -/
def through (s : Shape) (xs : List ℤ) (k : Tensor ℤ → Res (Tensor ℤ)) : Res (List ℤ) := do
  let x ← Dev.newBySlice .debug 0 (fun _ => 7) s xs
  let y ← k x
  y.toVec .debug

/-- Heads for even positions; the samples of `uniform` and `normal` are the positions. -/
def rng0 : Rng ℤ := ⟨fun _ i => i % 2 == 0, fun _ _ i => i, fun _ _ i => i⟩

/-- The functions on concrete tensors: two batches of three elements (over the integers, `sqrt` standing for the identity). -/
example : through (vecShape 3 2) [1, 2, 3, 5, 6, 10] (TF.mean .debug (fun _ _ => 9) · 0) = ok [2, 7] ∧
    through (vecShape 3 2) [1, 2, 3, 5, 6, 10] (TF.batchMean .debug (fun _ _ => 9)) = ok [3, 4, 6] ∧
    through (vecShape 3 2) [1, 2, 3, 5, 6, 10] (TF.dropout .debug (fun _ _ => 9) rng0 · 0 true) = ok [1, 0, 3, 0, 6, 0] ∧
    through (vecShape 3 2) [1, 2, 3, 5, 6, 10] (TF.dropoutDim .debug (fun _ _ => 9) rng0 · 0 0 true) = ok [1, 2, 3, 0, 0, 0] ∧
    through (vecShape 3 2) [1, 2, 3, 5, 6, 10] (TF.dropout .debug (fun _ _ => 9) rng0 · 1 true) = ok [0, 0, 0, 0, 0, 0] ∧
    through (vecShape 3 2) [1, 2, 3, 5, 6, 10] (TF.dropout .debug (fun _ _ => 9) rng0 · (-1) true) = panic ∧
    through (vecShape 3 2) [1, 2, 3, 5, 6, 10] (fun x => TF.sliceSum .debug (fun _ _ => 9) [x, x, x]) = ok [3, 6, 9, 15, 18, 30] ∧
    through (vecShape 1 2) [1, 5] (fun x => TF.batchNormalization .debug (fun _ _ => 9) x x x (-3) true) = ok [-1, 15] ∧
    through (vecShape 2 2) [1, 5, 10, 20] (fun x => TF.layerNormalization .debug (fun _ _ => 9) x x x (-3)) = ok [-1, 15, 0, 20] := by
  decide +kernel

end Examples

end Verif
