import Verif.Contrib
import Verif.TensorSpec2
import Verif.Operators

/-!
# Specification for C76: networks as straight-line programs, and the samples of a minibatch

A network is a list of calls of the functions on tensors; every call takes tensors made before (by their numbers) and its results are
appended.  This is how a user's forward function looks; loops and conditions that do not depend on the elements are unrolled.
-/

namespace Verif
open Res
variable {α : Type} [Flt α]

/-- `x.reshape(Shape::new(dims, x.shape().batch()))`: every sample gets the extents `dims`. -/
def reshapeEach (p : Profile) (m : Nat → α) (x : Tensor α) (dims : List Nat) : Res (Tensor α) := do
  let s ← Shape.new p dims x.shape.batch
  TF.reshape p m x s

/-- The functions of one tensor that treat the samples separately, with their other arguments. -/
inductive Fn (α : Type) where
  | neg | sqrt | abs | sin | cos | tan | exp | ln | tanh | sigmoid | softplus | relu | lrelu
  | prelu (a : α) | elu (a : α)
  | addC (k : α) | cAdd (k : α) | subC (k : α) | cSub (k : α) | mulC (k : α) | cMul (k : α) | divC (k : α) | cDiv (k : α)
  | powf (k : α) | powi (k : Int)
  | sum (dim : Nat) | mean (dim : Nat) | max (dim : Nat) | min (dim : Nat) | logsumexp (dim : Nat)
  | broadcast (dim size : Nat)
  | lnSoftmax (dim : Nat) | softmax (dim : Nat) | sparseSoftmaxCrossEntropy (ids : List Nat) (dim : Nat)
  | transpose | triangularL (k : Nat) | triangularU (k : Nat)
  | slice (dim lower upper : Nat) | pick (ids : List Nat) (dim : Nat)
  | reshape (dims : List Nat) | flatten
  /-- `dropout` and `dropout_dim` with `enabled = false` -/
  | dropoutOff (r : Rng α) (rate : α) | dropoutDimOff (r : Rng α) (dim : Nat) (rate : α)

/-- The call of the function. -/
def Fn.run (p : Profile) (m : Mem α) : Fn α → Tensor α → Res (Tensor α)
  | neg, x => TF.neg p (m 0) x
  | sqrt, x => TF.sqrt p (m 0) x
  | abs, x => TF.abs p (m 0) x
  | sin, x => TF.sin p (m 0) x
  | cos, x => TF.cos p (m 0) x
  | tan, x => TF.tan p (m 0) x
  | exp, x => TF.exp p (m 0) x
  | ln, x => TF.ln p (m 0) x
  | tanh, x => TF.tanh p (m 0) x
  | sigmoid, x => TF.sigmoid p (m 0) x
  | softplus, x => TF.softplus p (m 0) x
  | relu, x => TF.relu p (m 0) x
  | lrelu, x => TF.lrelu p (m 0) x
  | prelu a, x => TF.prelu p (m 0) x a
  | elu a, x => TF.elu p (m 0) x a
  | addC k, x => TF.addC p (m 0) x k
  | cAdd k, x => TF.cAdd p (m 0) k x
  | subC k, x => TF.subC p (m 0) x k
  | cSub k, x => TF.cSub p (m 0) k x
  | mulC k, x => TF.mulC p (m 0) x k
  | cMul k, x => TF.cMul p (m 0) k x
  | divC k, x => TF.divC p (m 0) x k
  | cDiv k, x => TF.cDiv p (m 0) k x
  | powf k, x => TF.powf p (m 0) x k
  | powi k, x => TF.powi p (m 0) x k
  | sum dim, x => TF.sum p (m 0) x dim
  | mean dim, x => TF.mean p m x dim
  | max dim, x => TF.max p (m 0) x dim
  | min dim, x => TF.min p (m 0) x dim
  | logsumexp dim, x => TF.logsumexp p (m 0) x dim
  | broadcast dim size, x => TF.broadcast p (m 0) x dim size
  | lnSoftmax dim, x => TF.lnSoftmax p m x dim
  | softmax dim, x => TF.softmax p m x dim
  | sparseSoftmaxCrossEntropy ids dim, x => TF.sparseSoftmaxCrossEntropy p m x ids dim
  | transpose, x => TF.transpose p (m 0) x
  | triangularL k, x => TF.triangularL p (m 0) x k
  | triangularU k, x => TF.triangularU p (m 0) x k
  | slice dim lower upper, x => TF.slice p (m 0) x dim lower upper
  | pick ids dim, x => TF.pick p (m 0) x ids dim
  | reshape dims, x => reshapeEach p (m 0) x dims
  | flatten, x => TF.flatten p (m 0) x
  | dropoutOff r rate, x => TF.dropout p m r x rate false
  | dropoutDimOff r dim rate, x => TF.dropoutDim p m r x dim rate false

/-- One call. The numbers `i`, `j`, … say which tensors are the arguments. -/
inductive Step (α : Type) where
  | one (f : Fn α) (i : Nat)
  | add (i j : Nat) | sub (i j : Nat) | mul (i j : Nat) | div (i j : Nat) | pow (i j : Nat) | matmul (i j : Nat)
  | softmaxCrossEntropy (i j dim : Nat)
  | concat (is : List Nat) (dim : Nat)
  | sliceSum (is : List Nat)
  | split (i dim n : Nat)
  | layerNormalization (i g b : Nat) (eps : α)
  /-- `batch_normalization` with `enabled = false` -/
  | batchNormalizationOff (i g b : Nat) (eps : α)

/-- Tensors with the given numbers. -/
def args (env : List (Tensor α)) : List Nat → Res (List (Tensor α))
  | [] => ok []
  | i :: is => do
    let x ← Graph.at' env i
    let xs ← args env is
    ok (x :: xs)

/-- The results of the call. -/
def Step.run (p : Profile) (m : Mem α) (env : List (Tensor α)) : Step α → Res (List (Tensor α))
  | one f i => do let x ← Graph.at' env i; let z ← f.run p m x; ok [z]
  | add i j => do let x ← Graph.at' env i; let y ← Graph.at' env j; let z ← TF.add p (m 0) x y; ok [z]
  | sub i j => do let x ← Graph.at' env i; let y ← Graph.at' env j; let z ← TF.sub p (m 0) x y; ok [z]
  | mul i j => do let x ← Graph.at' env i; let y ← Graph.at' env j; let z ← TF.mul p (m 0) x y; ok [z]
  | div i j => do let x ← Graph.at' env i; let y ← Graph.at' env j; let z ← TF.div p (m 0) x y; ok [z]
  | pow i j => do let x ← Graph.at' env i; let y ← Graph.at' env j; let z ← TF.pow p (m 0) x y; ok [z]
  | matmul i j => do let x ← Graph.at' env i; let y ← Graph.at' env j; let z ← TF.matmul p (m 0) x y; ok [z]
  | softmaxCrossEntropy i j dim => do
    let x ← Graph.at' env i; let y ← Graph.at' env j; let z ← TF.softmaxCrossEntropy p m x y dim; ok [z]
  | concat is dim => do let xs ← args env is; let z ← TF.concat p (m 0) xs dim; ok [z]
  | sliceSum is => do let xs ← args env is; let z ← TF.sliceSum p m xs; ok [z]
  | split i dim n => do let x ← Graph.at' env i; TF.split p m x dim n
  | layerNormalization i g b eps => do
    let x ← Graph.at' env i; let g ← Graph.at' env g; let b ← Graph.at' env b
    let z ← TF.layerNormalization p m x g b eps; ok [z]
  | batchNormalizationOff i g b eps => do
    let x ← Graph.at' env i; let g ← Graph.at' env g; let b ← Graph.at' env b
    let z ← TF.batchNormalization p m x g b eps false; ok [z]

/-- The program, from the tensors `env`: these and all results. -/
def runAll (p : Profile) : (m : Nat → Mem α) → List (Step α) → List (Tensor α) → Res (List (Tensor α))
  | _, [], env => ok env
  | m, st :: rest, env => do
    let ys ← st.run p (m 0) env
    runAll p (fun i => m (i + 1)) rest (env ++ ys)

/-- Indices given for every sample are given for the chosen samples; a single index is for all samples. -/
def chooseIds (ids picks : List Nat) : List Nat := if picks.length = 1 then picks else ids.map fun b => picks.getD b 0

/-- The program for the samples `ids`: only per-sample indices change. -/
def Step.choose (ids : List Nat) : Step α → Step α
  | one (.pick picks dim) i => one (.pick (chooseIds ids picks) dim) i
  | one (.sparseSoftmaxCrossEntropy picks dim) i => one (.sparseSoftmaxCrossEntropy (chooseIds ids picks) dim) i
  | st => st

/-- Arguments that make sense for a minibatch of `B` samples: one index for all or one per sample; exponents are i32. -/
def Step.Fit (B : Nat) : Step α → Prop
  | one (.pick picks _) _ => picks.length = 1 ∨ picks.length = B
  | one (.sparseSoftmaxCrossEntropy picks _) _ => picks.length = 1 ∨ picks.length = B
  | one (.powi k) _ => -2147483648 ≤ k ∧ k ≤ 2147483647
  | _ => True

/-- `x` is a tensor for a minibatch of `B` samples and `x'` the tensor for the samples `ids` of it: either `x` has one batch and is shared by
the samples (parameters, constants), then `x'` has the same elements; or `x` has `B` batches, and batch `k` of `x'` is batch `ids[k]` of `x`. -/
def Samples (B : Nat) (ids : List Nat) (d : Nat) (x x' : Tensor α) : Prop :=
  ∃ (s s' : Shape) (f f' : Arr α), x.Holds d s f ∧ x'.Holds d s' f' ∧
    ((s.batch = 1 ∧ s' = s ∧ ∀ c b, s.Valid c b → f' c b = f c b) ∨
      (s.batch = B ∧ s'.Is s.get ids.length ∧ ∀ c k, s'.Valid c k → f' c k = f c (ids.getD k 0)))

end Verif
