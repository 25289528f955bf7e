import Verif.RealSpec
import Verif.Operators
import Verif.HoldsLemmas

/-!
# Specification for C36: what the nodes compute, as functions on real arrays, and inner products

`NodeOp.real` is the textbook meaning of each operator.  `evalR` evaluates a whole graph for given values of the leaves; nothing of the
algorithms (evaluation order, gradients) is used in it.
-/

namespace Verif
open Res
attribute [local instance] realFlt

open Classical in
/-- All positions (coordinates, batch) of the elements of a tensor of shape `s` (`mem_pos`). -/
noncomputable def Shape.pos (s : Shape) : Finset ((Nat → Nat) × Nat) :=
  (Finset.range s.size).image fun k => (s.coord (k % s.volume), k / s.volume)

theorem Shape.WF.mem_pos {s : Shape} (h : s.WF) {q : (Nat → Nat) × Nat} : q ∈ s.pos ↔ s.Valid q.1 q.2 := by
  classical
  unfold Shape.pos
  rw [Finset.mem_image]
  constructor
  · rintro ⟨k, hk, rfl⟩
    exact (h.offset_coord (Finset.mem_range.mp hk)).1
  · intro hv
    obtain ⟨h1, h2⟩ := h.coord_offset hv
    exact ⟨s.offset q.1 q.2, Finset.mem_range.mpr (h.offset_lt hv), Prod.ext h1 h2⟩

/-- Sum of all elements. -/
noncomputable def total (s : Shape) (f : Arr ℝ) : ℝ := ∑ q ∈ s.pos, f q.1 q.2

/-- Inner product: sum of the products of all elements. -/
noncomputable def dot (s : Shape) (f g : Arr ℝ) : ℝ := ∑ q ∈ s.pos, f q.1 q.2 * g q.1 q.2

/-- `x ∘ k` for scalar operators. -/
noncomputable def Sc.real : Sc → ℝ → ℝ → ℝ
  | .add => fun x k => x + k
  | .subL => fun x k => k - x
  | .subR => fun x k => x - k
  | .mul => fun x k => x * k
  | .divL => fun x k => k / x
  | .divR => fun x k => x / k
  | .powfL => fun x k => k ^ x
  | .powfR => fun x k => x ^ k

/-- Where they are differentiable. -/
def Sc.Dom : Sc → ℝ → ℝ → Prop
  | .divL => fun x _ => x ≠ 0
  | .divR => fun _ k => k ≠ 0
  | .powfL => fun _ k => 0 < k
  | .powfR => fun x _ => 0 < x
  | _ => fun _ _ => True

/-- Shape number `k` in a list. -/
def shp (ss : List Shape) (k : Nat) : Shape := ss.getD k default

/-- `Σ_j e^{f_j}` along axis `dim` of an array of shape `s`. -/
noncomputable def sumExp (s : Shape) (f : Arr ℝ) (dim : Nat) : Arr ℝ := fun c b => ∑ j ∈ Finset.range (s.get dim), Real.exp (f (cset c dim j) b)

/-- Result number `v` of an operator applied to arguments of shapes `ss` with elements `x 0, x 1, …`.  (The leaves have no arguments;
their values are given to `evalR` separately.)  The operator of `elu` computes what `prelu` computes (C38). -/
noncomputable def NodeOp.real (op : NodeOp ℝ) (ss : List Shape) (x : Nat → Arr ℝ) (v : Nat) : Arr ℝ :=
  match op with
  | .input _ => fun _ _ => 0
  | .inputOwner _ => fun _ _ => 0
  | .parameter _ => fun _ _ => 0
  | .un u => fun c b => u.real (x 0 c b)
  | .cn .elu k => fun c b => Cn.prelu.real k (x 0 c b)
  | .cn o k => fun c b => o.real k (x 0 c b)
  | .bi o => fun c b => o.real (x 0 c (bb (shp ss 0) b)) (x 1 c (bb (shp ss 1) b))
  | .sc o => fun c b => o.real (x 0 c (bb (shp ss 0) b)) (x 1 c (bb (shp ss 1) b))
  | .powi k => fun c b => x 0 c b ^ k
  | .sum dim => fun c b => ∑ j ∈ Finset.range ((shp ss 0).get dim), x 0 (cset c dim j) b
  | .max dim => fun c b => ⨆ j : Fin ((shp ss 0).get dim), x 0 (cset c dim j) b
  | .min dim => fun c b => ⨅ j : Fin ((shp ss 0).get dim), x 0 (cset c dim j) b
  | .logsumexp dim => fun c b => Real.log (sumExp (shp ss 0) (x 0) dim c b)
  | .broadcast dim _ => fun c b => x 0 (cset c dim 0) b
  | .softmaxCrossEntropy dim => fun c b => -∑ j ∈ Finset.range ((shp ss 0).get dim), x 1 (cset c dim j) (bb (shp ss 1) b) *
      Real.log (Real.exp (x 0 (cset c dim j) (bb (shp ss 0) b)) / sumExp (shp ss 0) (x 0) dim c (bb (shp ss 0) b))
  | .sparseSoftmaxCrossEntropy ids dim => fun c b =>
      -Real.log (Real.exp (x 0 (cset c dim (ids.getD (if ids.length = 1 then 0 else b) 0)) (bb (shp ss 0) b)) /
        sumExp (shp ss 0) (x 0) dim c (bb (shp ss 0) b))
  | .matmul => fun c b => ∑ j ∈ Finset.range ((shp ss 0).get 1),
      x 0 (mat (c 0) j) (bb (shp ss 0) b) * x 1 (mat j (c 1)) (bb (shp ss 1) b)
  | .transpose => fun c b => x 0 (mat (c 1) (c 0)) b
  | .triangularL k => fun c b => if c 1 + k ≤ c 0 then x 0 c b else 0
  | .triangularU k => fun c b => if c 0 + k ≤ c 1 then x 0 c b else 0
  | .slice dim lower _ => fun c b => x 0 (cset c dim (lower + c dim)) b
  | .split dim n => fun c b => x 0 (cset c dim (v * ((shp ss 0).get dim / n) + c dim)) b
  | .pick ids dim => fun c b => x 0 (cset c dim (ids.getD (if ids.length = 1 then 0 else b) 0)) (bb (shp ss 0) b)
  | .concat dim => catAt dim (ss.zipIdx.map fun sk => (sk.1, x sk.2))
  | .reshape s => fun c b => Arr.flat (shp ss 0) (x 0) (s.offset c b)
  | .batchSum => fun c _ => ∑ b ∈ Finset.range (shp ss 0).batch, x 0 c b
  | .batchSlice lower _ => fun c b => x 0 c (lower + b)
  | .batchSplit n => fun c b => x 0 c (v * ((shp ss 0).batch / n) + b)
  | .batchPick ids => fun c b => x 0 c (ids.getD b 0)
  | .batchConcat => batchCatAt (ss.zipIdx.map fun sk => (sk.1, x sk.2))

/-- The operators without arguments. -/
def NodeOp.isLeaf : NodeOp ℝ → Bool
  | .input _ => true
  | .inputOwner _ => true
  | .parameter _ => true
  | _ => false

/-- The element that a leaf operator was made from. -/
def NodeOp.leafValue : NodeOp ℝ → Option (Tensor ℝ)
  | .input t => some t
  | .inputOwner t => some t
  | .parameter t => some t
  | _ => none

/-- The number of arguments that the functions on nodes give to the operator. -/
def NodeOp.Arity (op : NodeOp ℝ) (n : Nat) : Prop :=
  match op with
  | .input _ => n = 0
  | .inputOwner _ => n = 0
  | .parameter _ => n = 0
  | .concat _ => True
  | .batchConcat => True
  | .bi _ => n = 2
  | .sc _ => n = 2
  | .softmaxCrossEntropy _ => n = 2
  | .matmul => n = 2
  | _ => n = 1

/-- The points where the operator is differentiable, and where its `backward` is meant to be used: arguments of shapes `ss` with elements
`x`, results of shapes `outs`.  Not here: negation, `batch_slice`, `batch_split`, `batch_pick` (C39: no `backward` through them completes),
`sum` and `logsumexp` over an axis beyond the depth (C39), cross entropy with targets that do not sum to 1 (C49), the non-differentiable
points of `abs`, `prelu`, … and ties in `max` and `min`.  The bounds on sizes: temporaries and results must fit in a block of the memory
pool. -/
def NodeOp.Smooth (op : NodeOp ℝ) (ss : List Shape) (x : Nat → Arr ℝ) (outs : List Shape) : Prop :=
  match op with
  | .un u => u ≠ .neg ∧ ∀ c b, (shp ss 0).Valid c b → u.Dom (x 0 c b)
  | .cn .elu k => ∀ c b, (shp ss 0).Valid c b → Cn.prelu.Dom k (x 0 c b)
  | .cn o k => ∀ c b, (shp ss 0).Valid c b → o.Dom k (x 0 c b)
  | .bi o => ∀ c b, (shp outs 0).Valid c b → o.Dom (x 0 c (bb (shp ss 0) b)) (x 1 c (bb (shp ss 1) b))
  | .sc o => (∀ i, (shp ss 0).get i = 1) ∧ (∀ i, (shp ss 1).get i = 1) ∧
      ∀ c b, (shp outs 0).Valid c b → o.Dom (x 0 c (bb (shp ss 0) b)) (x 1 c (bb (shp ss 1) b))
  | .powi k => -2147483648 < k ∧ k ≤ 2147483647 ∧ ∀ c b, (shp ss 0).Valid c b → x 0 c b ≠ 0 ∨ 0 ≤ k
  | .sum dim => dim < (shp ss 0).depth
  | .logsumexp dim => dim < (shp ss 0).depth
  | .max dim => ∀ c b, (shp outs 0).Valid c b → ∃ j, j < (shp ss 0).get dim ∧
      ∀ i, i < (shp ss 0).get dim → i ≠ j → x 0 (cset c dim i) b < x 0 (cset c dim j) b
  | .min dim => ∀ c b, (shp outs 0).Valid c b → ∃ j, j < (shp ss 0).get dim ∧
      ∀ i, i < (shp ss 0).get dim → i ≠ j → x 0 (cset c dim j) b < x 0 (cset c dim i) b
  | .softmaxCrossEntropy dim => ∀ c b, (shp ss 1).Valid c b → ∑ j ∈ Finset.range ((shp ss 1).get dim), x 1 (cset c dim j) b = 1
  | .sparseSoftmaxCrossEntropy _ _ => (shp outs 0).batch * (shp ss 0).volume ≤ 2 ^ 31
  | .matmul => (shp outs 0).batch * (shp ss 0).volume ≤ 2 ^ 31 ∧ (shp outs 0).batch * (shp ss 1).volume ≤ 2 ^ 31
  | .triangularL k => (shp ss 0).isMatrix = true ∧ (shp ss 0).get 0 = (shp ss 0).get 1 ∧ (shp ss 0).get 0 + k ≤ U32
  | .triangularU k => (shp ss 0).isMatrix = true ∧ (shp ss 0).get 0 = (shp ss 0).get 1 ∧ (shp ss 0).get 0 + k ≤ U32
  | .reshape s => s.WF ∧ s.size = (shp ss 0).size
  | .batchSlice _ _ => False
  | .batchSplit _ => False
  | .batchPick _ => False
  | _ => True

namespace Graph

/-- Shape of a node. -/
def nodeShape (g : Graph (Tensor ℝ)) (a : Nat × Nat) : Shape :=
  match g[a.1]? with
  | some o => (o.init.map Tensor.shape).getD a.2 default
  | none => default

/-- Number of results of an operator. -/
def results (g : Graph (Tensor ℝ)) (i : Nat) : Nat :=
  match g[i]? with
  | some o => o.init.length
  | none => 0

/-- The values of the results of operator `i`, when the leaves have the values `θ`. -/
noncomputable def evalR (g : Graph (Tensor ℝ)) (P : Nat → NodeOp ℝ) (θ : Nat × Nat → Arr ℝ) (i : Nat) : Nat → Arr ℝ :=
  if (P i).isLeaf then fun v => θ (i, v)
  else (P i).real ((g.argsOf i).map g.nodeShape) fun k =>
    match (g.argsOf i)[k]? with
    | some a => if _h : a.1 < i then evalR g P θ a.1 a.2 else fun _ _ => 0
    | none => fun _ _ => 0
termination_by i

/-- The value of argument `k` of operator `i`. -/
noncomputable def argVal (g : Graph (Tensor ℝ)) (P : Nat → NodeOp ℝ) (θ : Nat × Nat → Arr ℝ) (i k : Nat) : Arr ℝ :=
  match (g.argsOf i)[k]? with
  | some a => evalR g P θ a.1 a.2
  | none => fun _ _ => 0

/-- The shapes of the arguments of operator `i`. -/
def argShapes (g : Graph (Tensor ℝ)) (i : Nat) : List Shape := (g.argsOf i).map g.nodeShape

/-- The shapes of the results of operator `i`. -/
def outShapes (g : Graph (Tensor ℝ)) (i : Nat) : List Shape :=
  match g[i]? with
  | some o => o.init.map Tensor.shape
  | none => []

end Graph
end Verif
