import Verif.Random
import Verif.TensorFn

/-!
# Model of `prima_undine_contrib`: functions/contrib/tensor.rs

`m i`: stale contents of the i-th block a function allocates; `r`: the samples of the random generator.
-/

namespace Verif
open Res
variable {α : Type} [Flt α]

namespace TF

/-- `mean`, contrib/tensor.rs:10-12. -/
def mean (p : Profile) (m : Mem α) (self : Tensor α) (dim : Nat) : Res (Tensor α) := do
  let a ← sum p (m 0) self dim
  divC p (m 1) a (Flt.ofInt (self.shape.get dim))

/-- `batch_mean`, contrib/tensor.rs:14-16. -/
def batchMean (p : Profile) (m : Mem α) (self : Tensor α) : Res (Tensor α) := do
  let a ← batchSum p (m 0) self
  divC p (m 1) a (Flt.ofInt self.shape.batch)

/-- `dropout`, contrib/tensor.rs:18-27 (`rate >= 1.` is `1. <= rate`). -/
def dropout (p : Profile) (m : Mem α) (r : Rng α) (self : Tensor α) (rate : α) (enabled : Bool) : Res (Tensor α) :=
  if enabled = false then cMul p (m 0) 1 self
  else if Flt.le 1 rate then cMul p (m 0) 0 self
  else do
    let q := 1 - rate
    let a ← cMul p (m 0) (1 / q) self
    let d ← self.dev
    let b ← Dev.randomBernoulli p d (m 1) r self.shape q
    mul p (m 2) a b

/-- `dropout_dim`, contrib/tensor.rs:29-40. -/
def dropoutDim (p : Profile) (m : Mem α) (r : Rng α) (self : Tensor α) (dim : Nat) (rate : α) (enabled : Bool) : Res (Tensor α) :=
  if enabled = false then cMul p (m 0) 1 self
  else if Flt.le 1 rate then cMul p (m 0) 0 self
  else do
    let q := 1 - rate
    let s ← self.shape.resizeDim p dim 1
    let d ← self.dev
    let rb ← Dev.randomBernoulli p d (m 0) r s q
    let a ← cMul p (m 1) (1 / q) self
    let b ← broadcast p (m 2) rb dim (self.shape.get dim)
    mul p (m 3) a b

/-- The loop of `slice_sum`. -/
def sumFrom (p : Profile) (m : Mem α) : Nat → Tensor α → List (Tensor α) → Res (Tensor α)
  | _, acc, [] => ok acc
  | i, acc, x :: xs => do
    let acc ← add p (m i) acc x
    sumFrom p m (i + 1) acc xs

/-- `slice_sum`, contrib/tensor.rs:42-49. -/
def sliceSum (p : Profile) (m : Mem α) (xs : List (Tensor α)) : Res (Tensor α) := do
  check (xs.length ≠ 0)
  let x ← ix xs 0
  let d ← x.dev
  let z ← Dev.newByConstant p d (m 0) x.shape 0
  sumFrom p m 1 z xs

/-- The common end of the two normalizations: `let x = (self - m) / v.sqrt(); g * x + b`, contrib/tensor.rs:56-57 and 67-68. -/
def normalized (p : Profile) (m : Mem α) (self mean v g b : Tensor α) : Res (Tensor α) := do
  let a ← sub p (m 0) self mean
  let w ← sqrt p (m 1) v
  let x ← div p (m 2) a w
  let y ← mul p (m 3) g x
  add p (m 4) y b

/-- `batch_normalization`, contrib/tensor.rs:51-61. -/
def batchNormalization (p : Profile) (m : Mem α) (self g b : Tensor α) (eps : α) (enabled : Bool) : Res (Tensor α) :=
  if enabled then do
    let mean ← batchMean p (fun i => m i) self
    let shift ← sub p (m 2) self mean
    let sq ← mul p (m 3) shift shift
    let v ← batchMean p (fun i => m (4 + i)) sq
    let v ← addC p (m 6) v eps
    normalized p (fun i => m (7 + i)) self mean v g b
  else cMul p (m 0) 1 self

/-- `layer_normalization`, contrib/tensor.rs:63-69. -/
def layerNormalization (p : Profile) (m : Mem α) (self g b : Tensor α) (eps : α) : Res (Tensor α) := do
  let fl ← flatten p (m 0) self
  let mean ← TF.mean p (fun i => m (1 + i)) fl 0
  let shift ← sub p (m 3) self mean
  let sq ← mul p (m 4) shift shift
  let fl2 ← flatten p (m 5) sq
  let v ← TF.mean p (fun i => m (6 + i)) fl2 0
  let v ← addC p (m 8) v eps
  normalized p (fun i => m (9 + i)) self mean v g b

end TF
end Verif
