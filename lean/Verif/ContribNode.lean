import Verif.Contrib
import Verif.Operators

/-!
# Model of `prima_undine_contrib`: functions/contrib/node.rs

`m i`: memory of the i-th operator that a function creates (and of the tensors it allocates, at the end of the list).
-/

namespace Verif
open Res
variable {α : Type} [Flt α]

namespace NF

/-- `mean`, contrib/node.rs:10-12. -/
def mean (p : Profile) (m : Nat → Mem α) (g : Graph (Tensor α)) (self : Node) (dim : Nat) : Res (Graph (Tensor α) × Node) := do
  let r ← sum p (m 0) g self dim
  let s ← shape r.1 self
  divC p (m 1) r.1 r.2 (Flt.ofInt (s.get dim))

/-- `batch_mean`, contrib/node.rs:14-16. -/
def batchMean (p : Profile) (m : Nat → Mem α) (g : Graph (Tensor α)) (self : Node) : Res (Graph (Tensor α) × Node) := do
  let r ← batchSum p (m 0) g self
  let s ← shape r.1 self
  divC p (m 1) r.1 r.2 (Flt.ofInt s.batch)

/-- `dropout`, contrib/node.rs:18-27. -/
def dropout (p : Profile) (m : Nat → Mem α) (r : Rng α) (g : Graph (Tensor α)) (self : Node) (rate : α) (enabled : Bool) :
    Res (Graph (Tensor α) × Node) :=
  if enabled = false then cMul p (m 0) g self 1
  else if Flt.le 1 rate then cMul p (m 0) g self 0
  else do
    let q := 1 - rate
    let a ← cMul p (m 0) g self (1 / q)
    let s ← shape a.1 self
    let t ← Dev.randomBernoulli p self.dev (m 3 0) r s q
    let b ← ofOwned p (m 1) a.1 t
    mul p (m 2) b.1 a.2 b.2

/-- `dropout_dim`, contrib/node.rs:29-40. -/
def dropoutDim (p : Profile) (m : Nat → Mem α) (r : Rng α) (g : Graph (Tensor α)) (self : Node) (dim : Nat) (rate : α) (enabled : Bool) :
    Res (Graph (Tensor α) × Node) :=
  if enabled = false then cMul p (m 0) g self 1
  else if Flt.le 1 rate then cMul p (m 0) g self 0
  else do
    let q := 1 - rate
    let s ← shape g self
    let s1 ← s.resizeDim p dim 1
    let rb ← Dev.randomBernoulli p self.dev (m 3 0) r s1 q
    let a ← cMul p (m 0) g self (1 / q)
    let s ← shape a.1 self
    let t ← TF.broadcast p (m 3 1) rb dim (s.get dim)
    let b ← ofOwned p (m 1) a.1 t
    mul p (m 2) b.1 a.2 b.2

/-- The loop of `slice_sum`. -/
def sumFrom (p : Profile) (m : Nat → Mem α) : Nat → Graph (Tensor α) → Node → List Node → Res (Graph (Tensor α) × Node)
  | _, g, acc, [] => ok (g, acc)
  | i, g, acc, x :: xs => do
    let r ← add p (m i) g acc x
    sumFrom p m (i + 1) r.1 r.2 xs

/-- `slice_sum`, contrib/node.rs:42-49. -/
def sliceSum (p : Profile) (m : Nat → Mem α) (g : Graph (Tensor α)) (xs : List Node) : Res (Graph (Tensor α) × Node) := do
  check (xs.length ≠ 0)
  let x ← ix xs 0
  let s ← shape g x
  let z ← Dev.newByConstant p x.dev (m 0 1) s 0
  let r ← ofOwned p (m 0) g z
  sumFrom p m 1 r.1 r.2 xs

/-- The common end of the two normalizations, contrib/node.rs:56-57 and 67-68. -/
def normalized (p : Profile) (m : Nat → Mem α) (g : Graph (Tensor α)) (self mean v gm be : Node) : Res (Graph (Tensor α) × Node) := do
  let a ← sub p (m 0) g self mean
  let w ← sqrt p (m 1) a.1 v
  let x ← div p (m 2) w.1 a.2 w.2
  let y ← mul p (m 3) x.1 gm x.2
  add p (m 4) y.1 y.2 be

/-- `batch_normalization`, contrib/node.rs:51-61. -/
def batchNormalization (p : Profile) (m : Nat → Mem α) (g : Graph (Tensor α)) (self gm be : Node) (eps : α) (enabled : Bool) :
    Res (Graph (Tensor α) × Node) :=
  if enabled then do
    let mu ← batchMean p m g self
    let shift ← sub p (m 2) mu.1 self mu.2
    let sq ← mul p (m 3) shift.1 shift.2 shift.2
    let v ← batchMean p (fun i => m (4 + i)) sq.1 sq.2
    let v ← addC p (m 6) v.1 v.2 eps
    normalized p (fun i => m (7 + i)) v.1 self mu.2 v.2 gm be
  else cMul p (m 0) g self 1

/-- `layer_normalization`, contrib/node.rs:63-69. -/
def layerNormalization (p : Profile) (m : Nat → Mem α) (g : Graph (Tensor α)) (self gm be : Node) (eps : α) :
    Res (Graph (Tensor α) × Node) := do
  let fl ← flatten p (m 0) g self
  let mu ← mean p (fun i => m (1 + i)) fl.1 fl.2 0
  let shift ← sub p (m 3) mu.1 self mu.2
  let sq ← mul p (m 4) shift.1 shift.2 shift.2
  let fl2 ← flatten p (m 5) sq.1 sq.2
  let v ← mean p (fun i => m (6 + i)) fl2.1 fl2.2 0
  let v ← addC p (m 8) v.1 v.2 eps
  normalized p (fun i => m (9 + i)) v.1 self mu.2 v.2 gm be

end NF
end Verif
