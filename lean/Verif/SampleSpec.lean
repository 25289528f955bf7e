import Verif.AdMade
import Verif.BatchSpec

/-!
# Specification for C77: the graph of one sample

The same program, run on one sample of the minibatch, makes a graph of the same form.  `NodeOp.forSample` says what changes in an operator;
`SampleOf` and `LossOf` relate the two graphs.
-/

namespace Verif
open Res
attribute [local instance] realFlt

/-- The operator for sample `b`: indices given per sample become the index of the sample, and the target of `reshape` has one batch. -/
def NodeOp.forSample (b : Nat) : NodeOp ℝ → NodeOp ℝ
  | .pick ids dim => .pick (chooseIds [b] ids) dim
  | .sparseSoftmaxCrossEntropy ids dim => .sparseSoftmaxCrossEntropy (chooseIds [b] ids) dim
  | .reshape s => .reshape { s with batch := 1 }
  | op => op

/-- Operators that treat the `B` samples separately, for arguments of shapes `ss`: one index for all samples or one for each, a `reshape` within
the samples, and no operation on batches. -/
def NodeOp.Separate (B : Nat) (ss : List Shape) : NodeOp ℝ → Prop
  | .pick ids _ => ids.length = 1 ∨ ids.length = B
  | .sparseSoftmaxCrossEntropy ids _ => ids.length = 1 ∨ ids.length = B
  | .reshape s => s.WF ∧ s.volume = (shp ss 0).volume ∧ s.batch = (shp ss 0).batch
  | .batchSum => False
  | .batchSlice _ _ => False
  | .batchSplit _ => False
  | .batchPick _ => False
  | .batchConcat => False
  | _ => True

namespace Graph

/-- The part of graph `g'` that `node` needs is made by the same program as that of `g`, for sample `b` of the `B` samples: the operators treat the
samples separately and have the same arguments, and the inputs and parameters of `g'` are those of the sample. -/
structure SampleOf (d B b : Nat) (P : Nat → NodeOp ℝ) (g : Graph (Tensor ℝ)) (P' : Nat → NodeOp ℝ) (g' : Graph (Tensor ℝ)) (node : Nat) : Prop where
  args : ∀ i, Needs g node i → g'.argsOf i = g.argsOf i
  ops : ∀ i, Needs g node i → (P i).isLeaf = false → (P i).Separate B (g.argShapes i) ∧ P' i = (P i).forSample b
  leaf : ∀ i, Needs g node i → (P i).isLeaf = true → (P' i).isLeaf = true ∧
    ∃ x x', (P i).leafValue = some x ∧ (P' i).leafValue = some x' ∧ Samples B [b] d x x'

/-- `root` is a loss for the minibatch in `g` and for every sample `b` in `g' b`: a node with a batch for every sample, or `batch_sum` of such a
node, or `batch_mean` of such a node, that is, `batch_sum` divided by the number of samples.  (`backward` starts from the sum of all elements.)
`k` is the factor of a sample's loss: 1, or `1 / B` for the mean. -/
inductive LossOf (d B : Nat) (P : Nat → NodeOp ℝ) (g : Graph (Tensor ℝ)) (P' : Nat → Nat → NodeOp ℝ) (g' : Nat → Graph (Tensor ℝ)) :
    Nat → ℝ → Prop
  | plain {root : Nat} : (∀ b, b < B → SampleOf d B b P g (P' b) (g' b) root) →
      (∀ v, v < g.results root → (g.nodeShape (root, v)).batch = B) → LossOf d B P g P' g' root 1
  | sum {root : Nat} {a : Nat × Nat} : (∀ b, b < B → SampleOf d B b P g (P' b) (g' b) a.1) → (g.nodeShape a).batch = B →
      P root = .batchSum → g.argsOf root = [a] →
      (∀ b, b < B → P' b root = .batchSum ∧ (g' b).argsOf root = [a]) → LossOf d B P g P' g' root 1
  | mean {root s : Nat} {a : Nat × Nat} : (∀ b, b < B → SampleOf d B b P g (P' b) (g' b) a.1) → (g.nodeShape a).batch = B →
      P s = .batchSum → g.argsOf s = [a] → P root = .cn .divR (B : ℝ) → g.argsOf root = [(s, 0)] →
      (∀ b, b < B → P' b s = .batchSum ∧ (g' b).argsOf s = [a] ∧ P' b root = .cn .divR ((1 : Nat) : ℝ) ∧ (g' b).argsOf root = [(s, 0)]) →
      LossOf d B P g P' g' root (1 / B)

/-- The situation of C36: graph `g`, made by the library's functions on nodes, and an operator `root` of it, such that the inputs and parameters
have the elements `θ`, where the operators are differentiable; sizes that the memory pool accepts; no gradients computed before; each result of
an operator with several results is used; the tensors that get the gradients (of the parameters) are proper. -/
structure Ready (p : Profile) (d : Nat) (m0 : Nat → ℝ) (P : Nat → NodeOp ℝ) (g : Graph (Tensor ℝ)) (root : Nat) (θ : Nat × Nat → Arr ℝ) : Prop where
  made : ∃ tr, Made p d m0 P g tr
  exists_root : root < g.length
  leaf : ∀ i, Needs g root i → (P i).isLeaf = true → ∃ t : Tensor ℝ, (P i).leafValue = some t ∧ t.Holds d (g.nodeShape (i, 0)) (θ (i, 0))
  small : ∀ i v, Needs g root i → v < g.results i → (g.nodeShape (i, v)).size ≤ 2 ^ 31
  smooth : ∀ i, Needs g root i → (P i).isLeaf = false → (P i).Smooth (g.argShapes i) (g.argVal P θ i) (g.outShapes i)
  fresh : ∀ (i : Nat) (o : OpInfo (Tensor ℝ)), Needs g root i → g[i]? = some o → o.grads = o.init
  used : ∀ i v, Needs g root i → i ≠ root → 1 < g.results i → v < g.results i → ∃ j, Needs g root j ∧ (i, v) ∈ g.argsOf j
  sink : ∀ i t, Needs g root i → g.sinkOf i = some t → (P i).isLeaf = true ∧ ∃ S, t.Holds d (g.nodeShape (i, 0)) S

end Graph
end Verif
