import Verif.TensorSpec2
import Verif.HoldsLemmas
import Verif.Scalar
import Verif.Tensor

/-!
# Specification vocabulary for C46: what the functions of `prima_undine_contrib` should compute
-/

namespace Verif
variable {α : Type} [Flt α]

/-- The mean of `n` numbers. -/
def avg (n : Nat) (t : Nat → α) : α := sumTo n t / Flt.ofInt n

/-- `x` shifted and scaled: `(x - μ) / √(σ² + ε)`, where `var = σ²`. -/
def standardize (x mu var eps : α) : α := (x - mu) / Flt.sqrt (var + eps)

/-- The mean of every element over the batches. -/
def batchMu (B : Nat) (f : Arr α) (c : Nat → Nat) : α := avg B fun k => f c k

/-- The variance of every element over the batches. -/
def batchVar (B : Nat) (f : Arr α) (c : Nat → Nat) : α := avg B fun k => (f c k - batchMu B f c) * (f c k - batchMu B f c)

/-- Batch normalization (before scaling with gamma and beta). -/
def batchNormed (B : Nat) (f : Arr α) (eps : α) : Arr α := fun c b => standardize (f c b) (batchMu B f c) (batchVar B f c) eps

/-- The `i`-th element of batch `b` in the order of `to_vec`. -/
def elemAt (s : Shape) (f : Arr α) (b i : Nat) : α := Arr.flat s f (i + b * s.volume)

/-- The mean of all elements of batch `b`. -/
def layerMu (s : Shape) (f : Arr α) (b : Nat) : α := avg s.volume (elemAt s f b)

/-- The variance of the elements of batch `b`. -/
def layerVar (s : Shape) (f : Arr α) (b : Nat) : α :=
  avg s.volume fun i => (elemAt s f b i - layerMu s f b) * (elemAt s f b i - layerMu s f b)

/-- Layer normalization (before scaling with gamma and beta). -/
def layerNormed (s : Shape) (f : Arr α) (eps : α) : Arr α := fun c b => standardize (f c b) (layerMu s f b) (layerVar s f b) eps

/-- `s` is the shape of `a + x₁ + x₂ + …`, none of the sums being too large. -/
inductive SumShape : Shape → List Shape → Shape → Prop
  | nil (a : Shape) : SumShape a [] a
  | cons {a x s t : Shape} {xs : List Shape} : OpFits a x → s.IsJoin a x → s.size ≤ 2 ^ 31 → SumShape s xs t → SumShape a (x :: xs) t

end Verif
