import Verif.Device

/-!
# Model of the functions on tensors

`functions/arithmetic/tensor.rs` (operators) and `functions/basic/tensor.rs` (`impl BasicFunctions for Tensor`).  The four variants of an
operator that differ only in borrowing are one function here.  `m i` is the stale content of the i-th buffer that a
function allocates (buffers of temporaries that are dropped on the way included).
-/

namespace Verif
open Res
variable {α : Type} [Flt α]

namespace TF

/-- `x.device().f_fw(args)`. -/
def call (op : FwOp α) (p : Profile) (m : Nat → α) (x : Tensor α) (args : List (Tensor α)) : Res (Tensor α) := do
  let d ← x.dev
  Dev.fw op p d m args

/-- `+=` between tensors, arithmetic/tensor.rs:13-17, 31-35. -/
def addAssign (p : Profile) (self other : Tensor α) : Res (Tensor α) := do
  let d ← self.dev
  Dev.addAssign p d other self

/-- `-=` between tensors, arithmetic/tensor.rs:19-23, 37-41. -/
def subAssign (p : Profile) (self other : Tensor α) : Res (Tensor α) := do
  let d ← self.dev
  Dev.subAssign p d other self

/-- `*= k`, arithmetic/tensor.rs:25-29. -/
def mulAssign (p : Profile) (self : Tensor α) (k : α) : Res (Tensor α) := do
  let d ← self.dev
  Dev.mulAssignConst p d k self

/-- Unary minus, arithmetic/tensor.rs:43-55. -/
def neg (p : Profile) (m : Nat → α) (self : Tensor α) : Res (Tensor α) := call (.un .neg) p m self [self]

/-- `define_ab_op!`, arithmetic/tensor.rs:57-108. -/
def abOp (fw : Bi) (scalarL scalarR : Sc) (p : Profile) (m : Nat → α) (self rhs : Tensor α) : Res (Tensor α) :=
  if self.shape.isScalar then call (.sc scalarL) p m self [rhs, self]
  else if rhs.shape.isScalar then call (.sc scalarR) p m self [self, rhs]
  else call (.bi fw) p m self [self, rhs]

/-- `self + rhs`, arithmetic/tensor.rs:110. -/
def add (p : Profile) (m : Nat → α) (self rhs : Tensor α) : Res (Tensor α) := abOp .add .add .add p m self rhs
/-- `self - rhs`, arithmetic/tensor.rs:111. -/
def sub (p : Profile) (m : Nat → α) (self rhs : Tensor α) : Res (Tensor α) := abOp .sub .subL .subR p m self rhs
/-- `self * rhs`, arithmetic/tensor.rs:112. -/
def mul (p : Profile) (m : Nat → α) (self rhs : Tensor α) : Res (Tensor α) := abOp .mul .mul .mul p m self rhs
/-- `self / rhs`, arithmetic/tensor.rs:113. -/
def div (p : Profile) (m : Nat → α) (self rhs : Tensor α) : Res (Tensor α) := abOp .div .divL .divR p m self rhs

/-- `self ∘ k`, arithmetic/tensor.rs:117-140, 168-171. -/
def addC (p : Profile) (m : Nat → α) (self : Tensor α) (k : α) : Res (Tensor α) := call (.cn .add k) p m self [self]
/-- See `addC`. -/
def subC (p : Profile) (m : Nat → α) (self : Tensor α) (k : α) : Res (Tensor α) := call (.cn .subR k) p m self [self]
/-- See `addC`. -/
def mulC (p : Profile) (m : Nat → α) (self : Tensor α) (k : α) : Res (Tensor α) := call (.cn .mul k) p m self [self]
/-- See `addC`. -/
def divC (p : Profile) (m : Nat → α) (self : Tensor α) (k : α) : Res (Tensor α) := call (.cn .divR k) p m self [self]
/-- `k ∘ self`, arithmetic/tensor.rs:141-164, 168-171. -/
def cAdd (p : Profile) (m : Nat → α) (k : α) (self : Tensor α) : Res (Tensor α) := call (.cn .add k) p m self [self]
/-- See `cAdd`. -/
def cSub (p : Profile) (m : Nat → α) (k : α) (self : Tensor α) : Res (Tensor α) := call (.cn .subL k) p m self [self]
/-- See `cAdd`. -/
def cMul (p : Profile) (m : Nat → α) (k : α) (self : Tensor α) : Res (Tensor α) := call (.cn .mul k) p m self [self]
/-- See `cAdd`. -/
def cDiv (p : Profile) (m : Nat → α) (k : α) (self : Tensor α) : Res (Tensor α) := call (.cn .divL k) p m self [self]

/-- `to_float`, basic/tensor.rs:17-19. -/
def toFloat (p : Profile) (self : Tensor α) : Res α := do
  let _ ← self.dev
  Dev.tensorToFloat p self

/-- `argmax`, basic/tensor.rs:23-25. -/
def argmax (p : Profile) (self : Tensor α) (dim : Nat) : Res (List Nat) := do
  let d ← self.dev
  Dev.argmax p d self dim

/-- `argmin`, basic/tensor.rs:27-29. -/
def argmin (p : Profile) (self : Tensor α) (dim : Nat) : Res (List Nat) := do
  let d ← self.dev
  Dev.argmin p d self dim

/-- `argsort`, basic/tensor.rs:31-33. -/
def argsort (srt : (Nat → Nat → Bool) → List Nat → List Nat) (p : Profile) (self : Tensor α) (dim : Nat) : Res (List Nat) := do
  let d ← self.dev
  Dev.argsort srt p d self dim

/-- `pow`, basic/tensor.rs:37-39. -/
def pow (p : Profile) (m : Nat → α) (self k : Tensor α) : Res (Tensor α) := call (.bi .powf) p m self [self, k]
/-- `powf`, basic/tensor.rs:41-43. -/
def powf (p : Profile) (m : Nat → α) (self : Tensor α) (k : α) : Res (Tensor α) := call (.cn .powfR k) p m self [self]
/-- `powi`, basic/tensor.rs:45-47. -/
def powi (p : Profile) (m : Nat → α) (self : Tensor α) (k : Int) : Res (Tensor α) := call (.powi k) p m self [self]
/-- `sqrt`, basic/tensor.rs:49-51. -/
def sqrt (p : Profile) (m : Nat → α) (self : Tensor α) : Res (Tensor α) := call (.un .sqrt) p m self [self]
/-- `abs`, basic/tensor.rs:53-55. -/
def abs (p : Profile) (m : Nat → α) (self : Tensor α) : Res (Tensor α) := call (.un .abs) p m self [self]
/-- `sin`, basic/tensor.rs:59-61. -/
def sin (p : Profile) (m : Nat → α) (self : Tensor α) : Res (Tensor α) := call (.un .sin) p m self [self]
/-- `cos`, basic/tensor.rs:63-65. -/
def cos (p : Profile) (m : Nat → α) (self : Tensor α) : Res (Tensor α) := call (.un .cos) p m self [self]
/-- `tan`, basic/tensor.rs:67-69. -/
def tan (p : Profile) (m : Nat → α) (self : Tensor α) : Res (Tensor α) := call (.un .tan) p m self [self]
/-- `exp`, basic/tensor.rs:73-75. -/
def exp (p : Profile) (m : Nat → α) (self : Tensor α) : Res (Tensor α) := call (.un .exp) p m self [self]
/-- `ln`, basic/tensor.rs:77-79. -/
def ln (p : Profile) (m : Nat → α) (self : Tensor α) : Res (Tensor α) := call (.un .ln) p m self [self]
/-- `tanh`, basic/tensor.rs:81-83. -/
def tanh (p : Profile) (m : Nat → α) (self : Tensor α) : Res (Tensor α) := call (.un .tanh) p m self [self]
/-- `sigmoid`, basic/tensor.rs:85-87. -/
def sigmoid (p : Profile) (m : Nat → α) (self : Tensor α) : Res (Tensor α) := call (.un .sigmoid) p m self [self]
/-- `softplus`, basic/tensor.rs:89-91. -/
def softplus (p : Profile) (m : Nat → α) (self : Tensor α) : Res (Tensor α) := call (.un .softplus) p m self [self]
/-- `sum`, basic/tensor.rs:95-97. -/
def sum (p : Profile) (m : Nat → α) (self : Tensor α) (dim : Nat) : Res (Tensor α) := call (.sum dim) p m self [self]
/-- `max`, basic/tensor.rs:99-101. -/
def max (p : Profile) (m : Nat → α) (self : Tensor α) (dim : Nat) : Res (Tensor α) := call (.max dim) p m self [self]
/-- `min`, basic/tensor.rs:103-105. -/
def min (p : Profile) (m : Nat → α) (self : Tensor α) (dim : Nat) : Res (Tensor α) := call (.min dim) p m self [self]
/-- `broadcast`, basic/tensor.rs:107-109. -/
def broadcast (p : Profile) (m : Nat → α) (self : Tensor α) (dim size : Nat) : Res (Tensor α) :=
  call (.broadcast dim size) p m self [self]
/-- `logsumexp`, basic/tensor.rs:111-113. -/
def logsumexp (p : Profile) (m : Nat → α) (self : Tensor α) (dim : Nat) : Res (Tensor α) := call (.logsumexp dim) p m self [self]

/-- `ln_softmax`, basic/tensor.rs:115-117. -/
def lnSoftmax (p : Profile) (m : Mem α) (self : Tensor α) (dim : Nat) : Res (Tensor α) := do
  let a ← logsumexp p (m 0) self dim
  let b ← broadcast p (m 1) a dim (self.shape.get dim)
  sub p (m 2) self b

/-- `softmax`, basic/tensor.rs:119-121. -/
def softmax (p : Profile) (m : Mem α) (self : Tensor α) (dim : Nat) : Res (Tensor α) := do
  let a ← lnSoftmax p m self dim
  exp p (m 3) a

/-- `softmax_cross_entropy`, basic/tensor.rs:123-125 (unary minus binds weaker than the method call). -/
def softmaxCrossEntropy (p : Profile) (m : Mem α) (self t : Tensor α) (dim : Nat) : Res (Tensor α) := do
  let a ← lnSoftmax p m self dim
  let b ← mul p (m 3) t a
  let c ← sum p (m 4) b dim
  neg p (m 5) c

/-- `sparse_softmax_cross_entropy`, basic/tensor.rs:127-129. -/
def sparseSoftmaxCrossEntropy (p : Profile) (m : Mem α) (self : Tensor α) (ids : List Nat) (dim : Nat) : Res (Tensor α) := do
  let a ← lnSoftmax p m self dim
  let b ← call (.pick ids dim) p (m 3) a [a]
  neg p (m 4) b

/-- `matmul`, basic/tensor.rs:133-135. -/
def matmul (p : Profile) (m : Nat → α) (self rhs : Tensor α) : Res (Tensor α) := call .matmul p m self [self, rhs]
/-- `transpose`, basic/tensor.rs:137-139. -/
def transpose (p : Profile) (m : Nat → α) (self : Tensor α) : Res (Tensor α) := call .transpose p m self [self]
/-- `triangular_l`, basic/tensor.rs:141-143. -/
def triangularL (p : Profile) (m : Nat → α) (self : Tensor α) (k : Nat) : Res (Tensor α) := call (.triangularL k) p m self [self]
/-- `triangular_u`, basic/tensor.rs:145-147. -/
def triangularU (p : Profile) (m : Nat → α) (self : Tensor α) (k : Nat) : Res (Tensor α) := call (.triangularU k) p m self [self]
/-- `relu`, basic/tensor.rs:151-153. -/
def relu (p : Profile) (m : Nat → α) (self : Tensor α) : Res (Tensor α) := call (.cn .prelu 0) p m self [self]
/-- `lrelu`, basic/tensor.rs:155-157. -/
def lrelu (p : Profile) (m : Nat → α) (self : Tensor α) : Res (Tensor α) := call (.cn .prelu Flt.cent) p m self [self]
/-- `prelu`, basic/tensor.rs:159-161. -/
def prelu (p : Profile) (m : Nat → α) (self : Tensor α) (a : α) : Res (Tensor α) := call (.cn .prelu a) p m self [self]
/-- `elu`, basic/tensor.rs:163-165. -/
def elu (p : Profile) (m : Nat → α) (self : Tensor α) (a : α) : Res (Tensor α) := call (.cn .elu a) p m self [self]
/-- `slice`, basic/tensor.rs:169-171. -/
def slice (p : Profile) (m : Nat → α) (self : Tensor α) (dim lower upper : Nat) : Res (Tensor α) :=
  call (.slice dim lower upper) p m self [self]

/-- `split`, basic/tensor.rs:173-182 (division by `n = 0` panics). -/
def split (p : Profile) (m : Mem α) (self : Tensor α) (dim n : Nat) : Res (List (Tensor α)) := do
  let total := self.shape.get dim
  check (n ≠ 0)
  let skip := total / n
  check (skip * n = total)
  loop n (fun i ret => do
    let t ← slice p (m i) self dim (i * skip) ((i + 1) * skip)
    ok (ret ++ [t])) []

/-- `pick`, basic/tensor.rs:184-186. -/
def pick (p : Profile) (m : Nat → α) (self : Tensor α) (ids : List Nat) (dim : Nat) : Res (Tensor α) :=
  call (.pick ids dim) p m self [self]

/-- `concat`, basic/tensor.rs:188-190. -/
def concat (p : Profile) (m : Nat → α) (xs : List (Tensor α)) (dim : Nat) : Res (Tensor α) := do
  let x ← ix xs 0
  call (.concat dim) p m x xs

/-- `reshape`, basic/tensor.rs:192-196. -/
def reshape (p : Profile) (m : Nat → α) (self : Tensor α) (s : Shape) : Res (Tensor α) := do
  let d ← self.dev
  let t ← Dev.copyTensor p d m self
  t.updateShape p s

/-- `flatten`, basic/tensor.rs:198-201. -/
def flatten (p : Profile) (m : Nat → α) (self : Tensor α) : Res (Tensor α) := do
  let s ← Shape.new p [self.shape.volume] self.shape.batch
  reshape p m self s

/-- `batch_sum`, basic/tensor.rs:205-207. -/
def batchSum (p : Profile) (m : Nat → α) (self : Tensor α) : Res (Tensor α) := call .batchSum p m self [self]
/-- `batch_slice`, basic/tensor.rs:209-211. -/
def batchSlice (p : Profile) (m : Nat → α) (self : Tensor α) (lower upper : Nat) : Res (Tensor α) :=
  call (.batchSlice lower upper) p m self [self]

/-- `batch_split`, basic/tensor.rs:213-222. -/
def batchSplit (p : Profile) (m : Mem α) (self : Tensor α) (n : Nat) : Res (List (Tensor α)) := do
  let total := self.shape.batch
  check (n ≠ 0)
  let skip := total / n
  check (skip * n = total)
  loop n (fun i ret => do
    let t ← batchSlice p (m i) self (i * skip) ((i + 1) * skip)
    ok (ret ++ [t])) []

/-- `batch_pick`, basic/tensor.rs:224-226. -/
def batchPick (p : Profile) (m : Nat → α) (self : Tensor α) (ids : List Nat) : Res (Tensor α) :=
  call (.batchPick ids) p m self [self]

/-- `batch_concat`, basic/tensor.rs:228-231. -/
def batchConcat (p : Profile) (m : Nat → α) (xs : List (Tensor α)) : Res (Tensor α) := do
  check (xs.length ≠ 0)
  let x ← ix xs 0
  call .batchConcat p m x xs

end TF
end Verif
