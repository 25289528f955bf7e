import Verif.GraphSpec
import Verif.TensorFn
import Verif.BwKernels

/-!
# Model of `prima_undine/src/operators/*.rs` and of the functions on nodes

`NodeOp` are the operators of the library; `NodeOp.oper` gives their `forward_shape`, `forward` and `backward`.  Intermediate results that
a `backward` computes once and uses in two updates are computed again in the second update here.  `m` is the stale content of the
buffers that an operator allocates.
-/

namespace Verif
open Res
variable {α : Type}

/-- `Tensor::replace`, tensor.rs:70-78 (ownership of the buffer: `Verif.Lifecycle`). -/
def Tensor.replace (self other : Tensor α) : Res (Tensor α) := do
  check (self.device = other.device)
  check (self.valid = false)
  check (self.shape = other.shape)
  check (self.host.isNone = true)
  ok { self with buf := other.buf }

/-- `Tensor::refer`, tensor.rs:60-68. -/
def Tensor.refer (self other : Tensor α) : Res (Tensor α) := do
  check (self.device = other.device)
  check (self.valid = false)
  check (self.shape = other.shape)
  check (self.host.isNone = true)
  ok { self with buf := other.buf }

variable [Flt α]

/-- The operators, operators.rs:56-110. -/
inductive NodeOp (α : Type) where
  /-- operators/input.rs:5-35 -/
  | input (value : Tensor α)
  /-- operators/input.rs:37-68 -/
  | inputOwner (value : Tensor α)
  /-- operators/parameter.rs -/
  | parameter (value : Tensor α)
  /-- operators/{neg,sqrt,abs,sin,cos,tan,exp,ln,tanh,sigmoid}.rs and softplus.rs -/
  | un (u : Un)
  /-- AddConst, SubConstL, SubConstR, MulConst, DivConstL, DivConstR, PowConstL, PowConstR, PReLU and ELU
  (operators/{add,sub,mul,div,powf,prelu,elu}.rs) -/
  | cn (c : Cn) (k : α)
  /-- Add, Sub, Mul, Div, Pow -/
  | bi (b : Bi)
  /-- AddScalar, SubScalarL, SubScalarR, MulScalar, DivScalarL, DivScalarR, PowScalarL, PowScalarR -/
  | sc (s : Sc)
  | powi (k : Int)
  | sum (dim : Nat)
  | max (dim : Nat)
  | min (dim : Nat)
  | logsumexp (dim : Nat)
  | broadcast (dim size : Nat)
  | softmaxCrossEntropy (dim : Nat)
  | sparseSoftmaxCrossEntropy (ids : List Nat) (dim : Nat)
  | matmul
  | transpose
  | triangularL (k : Nat)
  | triangularU (k : Nat)
  | slice (dim lower upper : Nat)
  | split (dim n : Nat)
  | pick (ids : List Nat) (dim : Nat)
  | concat (dim : Nat)
  | reshape (s : Shape)
  | batchSum
  | batchSlice (lower upper : Nat)
  | batchSplit (n : Nat)
  | batchPick (ids : List Nat)
  | batchConcat

namespace NodeOp

/-- `forward_shape` of each operator: common.rs:36-38, 68-70, input.rs:24-26, 56-58, parameter.rs:28-30, softplus.rs:16-18, powi.rs:16-18,
sum.rs:16-18, max.rs:16-18, min.rs:16-18, logsumexp.rs:16-18, broadcast.rs:21-23, softmax_cross_entropy.rs:16-18, 61-63, matmul.rs:16-18,
transpose.rs:16-18, triangular_l.rs:16-18, slice.rs:23-25, split.rs:16-21, pick.rs:31-33, concat.rs:16-18, reshape.rs:15-17,
batch_sum.rs:16-18, batch_slice.rs:21-23, batch_split.rs:16-21, batch_pick.rs:29-31, batch_concat.rs:16-18. -/
def shapes (p : Profile) : NodeOp α → List Shape → Res (List Shape)
  | input v, _ => ok [v.shape]
  | inputOwner v, _ => ok [v.shape]
  | parameter v, _ => ok [v.shape]
  | un _, xs => do let x ← Graph.at' xs 0; ok [x]
  | cn _ _, xs => do let x ← Graph.at' xs 0; ok [x]
  | bi _, xs => do let a ← Graph.at' xs 0; let b ← Graph.at' xs 1; let s ← ShapeOps.elementwise a b; ok [s]
  | sc _, xs => do let a ← Graph.at' xs 0; let b ← Graph.at' xs 1; let s ← ShapeOps.elementwise a b; ok [s]
  | powi _, xs => do let x ← Graph.at' xs 0; ok [x]
  | sum dim, xs => do let x ← Graph.at' xs 0; let s ← x.resizeDim p dim 1; ok [s]
  | max dim, xs => do let x ← Graph.at' xs 0; let s ← x.resizeDim p dim 1; ok [s]
  | min dim, xs => do let x ← Graph.at' xs 0; let s ← x.resizeDim p dim 1; ok [s]
  | logsumexp dim, xs => do let x ← Graph.at' xs 0; let s ← x.resizeDim p dim 1; ok [s]
  | broadcast dim size, xs => do let x ← Graph.at' xs 0; let s ← ShapeOps.broadcast p x dim size; ok [s]
  | softmaxCrossEntropy dim, xs => do
    let a ← Graph.at' xs 0; let b ← Graph.at' xs 1; let s ← ShapeOps.elementwise a b; let s ← s.resizeDim p dim 1; ok [s]
  | sparseSoftmaxCrossEntropy ids dim, xs => do let x ← Graph.at' xs 0; let s ← ShapeOps.pick p x ids dim; ok [s]
  | matmul, xs => do let a ← Graph.at' xs 0; let b ← Graph.at' xs 1; let s ← ShapeOps.matmul p a b; ok [s]
  | transpose, xs => do let x ← Graph.at' xs 0; let s ← ShapeOps.transpose p x; ok [s]
  | triangularL _, xs => do let x ← Graph.at' xs 0; ok [x]
  | triangularU _, xs => do let x ← Graph.at' xs 0; ok [x]
  | slice dim lower upper, xs => do let x ← Graph.at' xs 0; let s ← ShapeOps.slice p x dim lower upper; ok [s]
  | split dim n, xs => do
    let x ← Graph.at' xs 0
    let total := x.get dim
    check (n ≠ 0)
    let size := total / n
    check (size * n = total)
    let s ← x.resizeDim p dim size
    ok (List.replicate n s)
  | pick ids dim, xs => do let x ← Graph.at' xs 0; let s ← ShapeOps.pick p x ids dim; ok [s]
  | concat dim, xs => do let s ← ShapeOps.concat p xs dim; ok [s]
  | reshape s, _ => ok [s]
  | batchSum, xs => do let x ← Graph.at' xs 0; let s ← x.resizeBatch 1; ok [s]
  | batchSlice lower upper, xs => do let x ← Graph.at' xs 0; let s ← ShapeOps.batchSlice x lower upper; ok [s]
  | batchSplit n, xs => do
    let x ← Graph.at' xs 0
    let total := x.batch
    check (n ≠ 0)
    let size := total / n
    check (size * n = total)
    let s ← x.resizeBatch size
    ok (List.replicate n s)
  | batchPick ids, xs => do let x ← Graph.at' xs 0; let s ← ShapeOps.batchPick x ids; ok [s]
  | batchConcat, xs => do let s ← ShapeOps.batchConcat p xs; ok [s]

/-- The device function or tensor function whose results the operator puts into its results, on device `d`: the lines of `forward` of
each operator (common.rs:39-41, 71-73 and the corresponding lines after `forward_shape` in the other files).  Operators with one
result. -/
def apply1 (p : Profile) (d : Nat) (m : Mem α) : NodeOp α → List (Tensor α) → Res (Tensor α)
  | un u, xs => do let x ← Graph.at' xs 0; Dev.fw (.un u) p d (m 0) [x]
  | cn .elu k, xs => do let x ← Graph.at' xs 0; Dev.fw (.cn .prelu k) p d (m 0) [x]
  | cn c k, xs => do let x ← Graph.at' xs 0; Dev.fw (.cn c k) p d (m 0) [x]
  | bi b, xs => do let x ← Graph.at' xs 0; let y ← Graph.at' xs 1; Dev.fw (.bi b) p d (m 0) [x, y]
  | sc s, xs => do let x ← Graph.at' xs 0; let y ← Graph.at' xs 1; Dev.fw (.sc s) p d (m 0) [x, y]
  | powi k, xs => do let x ← Graph.at' xs 0; Dev.fw (.powi k) p d (m 0) [x]
  | sum dim, xs => do let x ← Graph.at' xs 0; Dev.fw (.sum dim) p d (m 0) [x]
  | max dim, xs => do let x ← Graph.at' xs 0; Dev.fw (.max dim) p d (m 0) [x]
  | min dim, xs => do let x ← Graph.at' xs 0; Dev.fw (.min dim) p d (m 0) [x]
  | logsumexp dim, xs => do let x ← Graph.at' xs 0; Dev.fw (.logsumexp dim) p d (m 0) [x]
  | broadcast dim size, xs => do let x ← Graph.at' xs 0; Dev.fw (.broadcast dim size) p d (m 0) [x]
  | softmaxCrossEntropy dim, xs => do let x ← Graph.at' xs 0; let t ← Graph.at' xs 1; TF.softmaxCrossEntropy p m x t dim
  | sparseSoftmaxCrossEntropy ids dim, xs => do let x ← Graph.at' xs 0; TF.sparseSoftmaxCrossEntropy p m x ids dim
  | matmul, xs => do let x ← Graph.at' xs 0; let y ← Graph.at' xs 1; Dev.fw .matmul p d (m 0) [x, y]
  | transpose, xs => do let x ← Graph.at' xs 0; Dev.fw .transpose p d (m 0) [x]
  | triangularL k, xs => do let x ← Graph.at' xs 0; Dev.fw (.triangularL k) p d (m 0) [x]
  | triangularU k, xs => do let x ← Graph.at' xs 0; Dev.fw (.triangularU k) p d (m 0) [x]
  | slice dim lower upper, xs => do let x ← Graph.at' xs 0; Dev.fw (.slice dim lower upper) p d (m 0) [x]
  | pick ids dim, xs => do let x ← Graph.at' xs 0; TF.pick p (m 0) x ids dim
  | concat dim, xs => Dev.fw (.concat dim) p d (m 0) xs
  | reshape s, xs => do let x ← Graph.at' xs 0; let t ← Dev.copyTensor p d (m 0) x; t.updateShape p s
  | batchSum, xs => do let x ← Graph.at' xs 0; Dev.fw .batchSum p d (m 0) [x]
  | batchSlice lower upper, xs => do let x ← Graph.at' xs 0; Dev.fw (.batchSlice lower upper) p d (m 0) [x]
  | batchPick ids, xs => do let x ← Graph.at' xs 0; TF.batchPick p (m 0) x ids
  | batchConcat, xs => Dev.fw .batchConcat p d (m 0) xs
  | _, _ => panic

/-- `y[i].replace(t)`. -/
def put (ys : List (Tensor α)) (i : Nat) (t : Tensor α) : Res (List (Tensor α)) := do
  let y ← Graph.at' ys i
  let y ← y.replace t
  ok (ys.set i y)

/-- `forward` of each operator (see `apply1`); input.rs:28-30, 60-63, parameter.rs:32-34, split.rs:23-32, batch_split.rs:23-29. -/
def fw (p : Profile) (d : Nat) (m : Mem α) : NodeOp α → List (Tensor α) → List (Tensor α) → Res (List (Tensor α))
  | input v, _, ys => do let y ← Graph.at' ys 0; let y ← y.refer v; ok (ys.set 0 y)
  | inputOwner v, _, ys => do
    let y ← Graph.at' ys 0
    let y ← y.alloc p (m 0)
    let _ ← y.dev
    let y ← Dev.resetTensorByTensor p y v
    ok (ys.set 0 y)
  | parameter v, _, ys => do let y ← Graph.at' ys 0; let y ← y.refer v; ok (ys.set 0 y)
  | split dim n, xs, ys => do
    let x ← Graph.at' xs 0
    check (n ≠ 0)
    let skip := x.shape.get dim / n
    loop n (fun i ys => do
      let t ← Dev.fw (.slice dim (i * skip) ((i + 1) * skip)) p d (m i) [x]
      put ys i t) ys
  | batchSplit n, xs, ys => do
    let x ← Graph.at' xs 0
    check (n ≠ 0)
    let skip := x.shape.batch / n
    loop n (fun i ys => do
      let t ← Dev.fw (.batchSlice (i * skip) ((i + 1) * skip)) p d (m i) [x]
      put ys i t) ys
  | op, xs, ys => do
    let t ← apply1 p d m op xs
    put ys 0 t

/-- The state of a loop when it stops: that before the iteration that panics, if there is one. -/
def loopLeft {S : Type} : Nat → (Nat → S → Res S) → S → S
  | 0, _, s => s
  | n + 1, f, s =>
    match loop n f s with
    | .ok s' =>
      match f n s' with
      | .ok s'' => s''
      | _ => s'
    | _ => loopLeft n f s

/-- What `forward` leaves in its slots when it panics: `InputOwner` allocates before it copies (input.rs:60-63), `Split` and `BatchSplit` write
their results one after the other (split.rs:23-32, batch_split.rs:23-29); all others assign to `y[0]` at the end. -/
def left (p : Profile) (d : Nat) (m : Mem α) : NodeOp α → List (Tensor α) → List (Tensor α) → List (Tensor α)
  | inputOwner _, _, ys =>
    match (do let y ← Graph.at' ys 0; y.alloc p (m 0)) with
    | .ok y => ys.set 0 y
    | _ => ys
  | split dim n, xs, ys =>
    match Graph.at' xs 0 with
    | .ok x => loopLeft n (fun i ys => do
        let t ← Dev.fw (.slice dim (i * (x.shape.get dim / n)) ((i + 1) * (x.shape.get dim / n))) p d (m i) [x]
        put ys i t) ys
    | _ => ys
  | batchSplit n, xs, ys =>
    match Graph.at' xs 0 with
    | .ok x => loopLeft n (fun i ys => do
        let t ← Dev.fw (.batchSlice (i * (x.shape.batch / n)) ((i + 1) * (x.shape.batch / n))) p d (m i) [x]
        put ys i t) ys
    | _ => ys
  | _, _, ys => ys

/-- `t.flatten().sum(0)`. -/
def total (p : Profile) (m : Mem α) (t : Tensor α) : Res (Tensor α) := do
  let f ← TF.flatten p (m 0) t
  TF.sum p (m 1) f 0

/-- `x.shape().dims()[dim]`. -/
def dimOf (x : Tensor α) (dim : Nat) : Res Nat := ix x.shape.dimsSlice dim

/-- `backward` of each operator: common.rs:42-50, 74-76, {add,sub,mul,div,powf}.rs, powi.rs:24-27, sum.rs:24-27, max.rs:24-27, min.rs:24-27,
logsumexp.rs:24-28, broadcast.rs:29-31, softmax_cross_entropy.rs:24-29, 69-75, matmul.rs:24-29, transpose.rs:24-27, triangular_{l,u}.rs:24-27,
slice.rs:34-37, split.rs:34-41, pick.rs:39-43, concat.rs:24-32, reshape.rs:25-30, softplus.rs:24-26, batch_sum.rs:24-26,
batch_slice.rs:29-32, batch_split.rs:31-38, batch_pick.rs:37-41, batch_concat.rs:24-32, input.rs:32-34, 65-67; parameter.rs:36-38 is
in `Graph.bwOne`.  Simplification: the offsets in `concat` and `batch_concat` are added without overflow check (their sum is the size
of the result, computed with a check in `forward_shape`). -/
def bw (p : Profile) (d : Nat) (m : Mem α) : NodeOp α → List (Tensor α) → List (Tensor α) → List (Tensor α) → List Shape →
    List (Nat × (Tensor α → Res (Tensor α)))
  | input _, _, _, _, _ => []
  | inputOwner _, _, _, _, _ => []
  | parameter _, _, _, _, _ => []
  | un .softplus, xs, _, gys, _ => [(0, fun gx => do
      let x ← Graph.at' xs 0; let gy ← Graph.at' gys 0
      let s ← Dev.fw (.un .sigmoid) p d (m 0) [x]
      let t ← TF.mul p (m 1) s gy
      TF.addAssign p gx t)]
  | un u, xs, ys, gys, _ => [(0, fun gx => do
      let x ← Graph.at' xs 0; let y ← Graph.at' ys 0; let gy ← Graph.at' gys 0
      Dev.bw (.un u) p d m [x] [y] gy gx)]
  | cn .elu k, xs, ys, gys, _ => [(0, fun gx => do
      let x ← Graph.at' xs 0; let y ← Graph.at' ys 0; let gy ← Graph.at' gys 0
      Dev.bw (.cn .prelu k) p d m [x] [y] gy gx)]
  | cn c k, xs, ys, gys, _ => [(0, fun gx => do
      let x ← Graph.at' xs 0; let y ← Graph.at' ys 0; let gy ← Graph.at' gys 0
      Dev.bw (.cn c k) p d m [x] [y] gy gx)]
  | bi b, xs, ys, gys, _ =>
    [(0, fun gx => do
      let a ← Graph.at' xs 0; let b' ← Graph.at' xs 1; let y ← Graph.at' ys 0; let gy ← Graph.at' gys 0
      Dev.bw (.biA b) p d m [a, b'] [y] gy gx),
     (1, fun gx => do
      let a ← Graph.at' xs 0; let b' ← Graph.at' xs 1; let y ← Graph.at' ys 0; let gy ← Graph.at' gys 0
      Dev.bw (.biB b) p d m [a, b'] [y] gy gx)]
  | sc .add, _, _, gys, _ =>
    [(0, fun gx => do let gy ← Graph.at' gys 0; TF.addAssign p gx gy),
     (1, fun gx => do let gy ← Graph.at' gys 0; let t ← total p m gy; TF.addAssign p gx t)]
  | sc .subL, _, _, gys, _ =>
    [(0, fun gx => do let gy ← Graph.at' gys 0; TF.subAssign p gx gy),
     (1, fun gx => do let gy ← Graph.at' gys 0; let t ← total p m gy; TF.addAssign p gx t)]
  | sc .subR, _, _, gys, _ =>
    [(0, fun gx => do let gy ← Graph.at' gys 0; TF.addAssign p gx gy),
     (1, fun gx => do let gy ← Graph.at' gys 0; let t ← total p m gy; TF.subAssign p gx t)]
  | sc .mul, xs, _, gys, _ =>
    [(0, fun gx => do let k ← Graph.at' xs 1; let gy ← Graph.at' gys 0; let t ← TF.mul p (m 0) k gy; TF.addAssign p gx t),
     (1, fun gx => do
      let x ← Graph.at' xs 0; let gy ← Graph.at' gys 0
      let t ← TF.mul p (m 0) x gy
      let t ← total p (fun i => m (i + 1)) t
      TF.addAssign p gx t)]
  | sc .divL, xs, ys, gys, _ =>
    [(0, fun gx => do
      let x ← Graph.at' xs 0; let y ← Graph.at' ys 0; let gy ← Graph.at' gys 0
      let a ← TF.div p (m 0) gy x
      let t ← TF.mul p (m 1) a y
      TF.subAssign p gx t),
     (1, fun gx => do
      let x ← Graph.at' xs 0; let gy ← Graph.at' gys 0
      let a ← TF.div p (m 0) gy x
      let t ← total p (fun i => m (i + 2)) a
      TF.addAssign p gx t)]
  | sc .divR, xs, ys, gys, _ =>
    [(0, fun gx => do
      let k ← Graph.at' xs 1; let gy ← Graph.at' gys 0
      let a ← TF.div p (m 0) gy k
      TF.addAssign p gx a),
     (1, fun gx => do
      let k ← Graph.at' xs 1; let y ← Graph.at' ys 0; let gy ← Graph.at' gys 0
      let a ← TF.div p (m 0) gy k
      let t ← TF.mul p (m 1) a y
      let t ← total p (fun i => m (i + 2)) t
      TF.subAssign p gx t)]
  | sc .powfL, xs, ys, gys, _ =>
    [(0, fun gx => do
      let k ← Graph.at' xs 1; let y ← Graph.at' ys 0; let gy ← Graph.at' gys 0
      let a ← TF.mul p (m 0) gy y
      let l ← TF.ln p (m 1) k
      let t ← TF.mul p (m 2) a l
      TF.addAssign p gx t),
     (1, fun gx => do
      let x ← Graph.at' xs 0; let k ← Graph.at' xs 1; let y ← Graph.at' ys 0; let gy ← Graph.at' gys 0
      let a ← TF.mul p (m 0) gy y
      let t ← TF.mul p (m 3) a x
      let t ← TF.div p (m 4) t k
      let t ← total p (fun i => m (i + 5)) t
      TF.addAssign p gx t)]
  | sc .powfR, xs, ys, gys, _ =>
    [(0, fun gx => do
      let x ← Graph.at' xs 0; let k ← Graph.at' xs 1; let y ← Graph.at' ys 0; let gy ← Graph.at' gys 0
      let a ← TF.mul p (m 0) gy y
      let t ← TF.mul p (m 1) a k
      let t ← TF.div p (m 2) t x
      TF.addAssign p gx t),
     (1, fun gx => do
      let x ← Graph.at' xs 0; let y ← Graph.at' ys 0; let gy ← Graph.at' gys 0
      let a ← TF.mul p (m 0) gy y
      let l ← TF.ln p (m 3) x
      let t ← TF.mul p (m 4) a l
      let t ← total p (fun i => m (i + 5)) t
      TF.addAssign p gx t)]
  | powi k, xs, ys, gys, _ => [(0, fun gx => do
      let x ← Graph.at' xs 0; let y ← Graph.at' ys 0; let gy ← Graph.at' gys 0
      Dev.bw (.powi k) p d m [x] [y] gy gx)]
  | sum dim, xs, _, gys, _ => [(0, fun gx => do
      let x ← Graph.at' xs 0; let gy ← Graph.at' gys 0
      let size ← dimOf x dim
      let t ← TF.broadcast p (m 0) gy dim size
      TF.addAssign p gx t)]
  | max dim, xs, ys, gys, _ => [(0, fun gx => do
      let x ← Graph.at' xs 0; let y ← Graph.at' ys 0; let gy ← Graph.at' gys 0
      Dev.bw (.max dim) p d m [x] [y] gy gx)]
  | min dim, xs, ys, gys, _ => [(0, fun gx => do
      let x ← Graph.at' xs 0; let y ← Graph.at' ys 0; let gy ← Graph.at' gys 0
      Dev.bw (.min dim) p d m [x] [y] gy gx)]
  | logsumexp dim, xs, ys, gys, _ => [(0, fun gx => do
      let x ← Graph.at' xs 0; let y ← Graph.at' ys 0; let gy ← Graph.at' gys 0
      let size ← dimOf x dim
      let b ← TF.broadcast p (m 0) y dim size
      let t ← TF.sub p (m 1) x b
      let t ← TF.exp p (m 2) t
      let g ← TF.broadcast p (m 3) gy dim size
      let t ← TF.mul p (m 4) t g
      TF.addAssign p gx t)]
  | broadcast dim _, _, _, gys, _ => [(0, fun gx => do
      let gy ← Graph.at' gys 0
      let t ← TF.sum p (m 0) gy dim
      TF.addAssign p gx t)]
  | softmaxCrossEntropy dim, xs, _, gys, _ =>
    [(0, fun gx => do
      let x ← Graph.at' xs 0; let t ← Graph.at' xs 1; let gy ← Graph.at' gys 0
      let l ← TF.lnSoftmax p m x dim
      let b ← TF.broadcast p (m 3) gy dim (x.shape.get dim)
      let e ← TF.exp p (m 4) l
      let e ← TF.sub p (m 5) e t
      let e ← TF.mul p (m 6) e b
      TF.addAssign p gx e),
     (1, fun gx => do
      let x ← Graph.at' xs 0; let gy ← Graph.at' gys 0
      let l ← TF.lnSoftmax p m x dim
      let b ← TF.broadcast p (m 3) gy dim (x.shape.get dim)
      let e ← TF.mul p (m 7) l b
      TF.subAssign p gx e)]
  | sparseSoftmaxCrossEntropy ids dim, xs, _, gys, _ =>
    [(0, fun gx => do
      let x ← Graph.at' xs 0; let gy ← Graph.at' gys 0
      let s ← TF.softmax p m x dim
      let b ← TF.broadcast p (m 4) gy dim (x.shape.get dim)
      let e ← TF.mul p (m 5) s b
      TF.addAssign p gx e),
     (0, fun gx => do
      let gy ← Graph.at' gys 0
      let e ← gy.dev
      let n ← TF.neg p (m 6) gy
      Dev.bw (.pick ids dim) p e (fun i => m (i + 7)) [] [] n gx)]
  | matmul, xs, ys, gys, _ =>
    [(0, fun gx => do
      let a ← Graph.at' xs 0; let b ← Graph.at' xs 1; let y ← Graph.at' ys 0; let gy ← Graph.at' gys 0
      Dev.bw .matmulA p d m [a, b] [y] gy gx),
     (1, fun gx => do
      let a ← Graph.at' xs 0; let b ← Graph.at' xs 1; let y ← Graph.at' ys 0; let gy ← Graph.at' gys 0
      Dev.bw .matmulB p d m [a, b] [y] gy gx)]
  | transpose, xs, ys, gys, _ => [(0, fun gx => do
      let x ← Graph.at' xs 0; let y ← Graph.at' ys 0; let gy ← Graph.at' gys 0
      Dev.bw .transpose p d m [x] [y] gy gx)]
  | triangularL k, xs, ys, gys, _ => [(0, fun gx => do
      let x ← Graph.at' xs 0; let y ← Graph.at' ys 0; let gy ← Graph.at' gys 0
      Dev.bw (.triangularL k) p d m [x] [y] gy gx)]
  | triangularU k, xs, ys, gys, _ => [(0, fun gx => do
      let x ← Graph.at' xs 0; let y ← Graph.at' ys 0; let gy ← Graph.at' gys 0
      Dev.bw (.triangularU k) p d m [x] [y] gy gx)]
  | slice dim lower _, _, _, gys, _ => [(0, fun gx => do
      let gy ← Graph.at' gys 0
      Dev.bw (.slice dim lower) p d m [] [] gy gx)]
  | split dim n, _, _, gys, ss =>
    if n = 0 then [(0, fun _ => panic)]
    else (List.range n).map fun i => (0, fun gx => do
      let gy ← Graph.at' gys i
      let s ← Graph.at' ss 0
      let skip := s.get dim / n
      Dev.bw (.slice dim (i * skip)) p d m [] [] gy gx)
  | pick ids dim, _, _, gys, _ => [(0, fun gx => do
      let gy ← Graph.at' gys 0
      let e ← gy.dev
      Dev.bw (.pick ids dim) p e m [] [] gy gx)]
  | concat dim, _, _, gys, ss =>
    (List.range ss.length).map fun i => (i, fun gx => do
      let gy ← Graph.at' gys 0
      let s ← Graph.at' ss i
      let offset := ((ss.take i).map fun s => s.get dim).sum
      let t ← TF.slice p (m i) gy dim offset (offset + s.get dim)
      TF.addAssign p gx t)
  | reshape _, _, _, gys, _ => [(0, fun gx => do
      let gy ← Graph.at' gys 0
      let t ← Dev.copyTensor p d (m 0) gy
      let t ← t.updateShape p gx.shape
      TF.addAssign p gx t)]
  | batchSum, _, _, gys, _ => [(0, fun gx => do
      let gy ← Graph.at' gys 0
      TF.addAssign p gx gy)]
  | batchSlice lower _, _, _, gys, _ => [(0, fun gx => do
      let gy ← Graph.at' gys 0
      Dev.bw (.batchSlice lower) p d m [] [] gy gx)]
  | batchSplit n, _, _, gys, ss =>
    if n = 0 then [(0, fun _ => panic)]
    else (List.range n).map fun i => (0, fun gx => do
      let gy ← Graph.at' gys 0
      let s ← Graph.at' ss 0
      let skip := s.batch / n
      Dev.bw (.batchSlice (i * skip)) p d m [] [] gy gx)
  | batchPick ids, _, _, gys, _ => [(0, fun gx => do
      let gy ← Graph.at' gys 0
      let e ← gy.dev
      Dev.bw (.batchPick ids) p e m [] [] gy gx)]
  | batchConcat, _, _, gys, ss =>
    (List.range ss.length).map fun i => (i, fun gx => do
      let gy ← Graph.at' gys 0
      let s ← Graph.at' ss i
      let offset := ((ss.take i).map Shape.batch).sum
      let t ← TF.batchSlice p (m i) gy offset (offset + s.batch)
      TF.addAssign p gx t)

end NodeOp

omit [Flt α] in
theorem put_length {ys ys' : List (Tensor α)} {i : Nat} {t : Tensor α} (h : NodeOp.put ys i t = ok ys') : ys'.length = ys.length := by
  simp only [NodeOp.put, Res.bind_eq_ok, Res.ok.injEq] at h
  obtain ⟨_, _, y', _, rfl⟩ := h
  simp

theorem loop_put_length {n : Nat} {f : Nat → Res (Tensor α)} {ys ys' : List (Tensor α)}
    (h : loop n (fun i ys => do let t ← f i; NodeOp.put ys i t) ys = ok ys') : ys'.length = ys.length := by
  induction n generalizing ys' with
  | zero => simp only [loop, Res.ok.injEq] at h; rw [h]
  | succ n ih =>
    rw [loop_succ, Res.bind_eq_ok] at h
    obtain ⟨zs, hz, h⟩ := h
    simp only [Res.bind_eq_ok] at h
    obtain ⟨t, _, hp⟩ := h
    rw [put_length hp, ih hz]

theorem NodeOp.fw_length (p : Profile) (d : Nat) (m : Mem α) (op : NodeOp α) (xs ys ys' : List (Tensor α))
    (h : op.fw p d m xs ys = ok ys') : ys'.length = ys.length := by
  cases op with
  | input v => simp only [NodeOp.fw, Res.bind_eq_ok, Res.ok.injEq] at h; obtain ⟨_, _, _, _, rfl⟩ := h; simp
  | parameter v => simp only [NodeOp.fw, Res.bind_eq_ok, Res.ok.injEq] at h; obtain ⟨_, _, _, _, rfl⟩ := h; simp
  | inputOwner v =>
    simp only [NodeOp.fw, Res.bind_eq_ok, Res.ok.injEq] at h; obtain ⟨_, _, _, _, _, _, _, _, rfl⟩ := h; simp
  | split dim n =>
    simp only [NodeOp.fw, Res.bind_eq_ok] at h
    obtain ⟨x, _, _, _, h⟩ := h
    exact loop_put_length (f := fun i => Dev.fw (.slice dim (i * _) ((i + 1) * _)) p d (m i) [x]) h
  | batchSplit n =>
    simp only [NodeOp.fw, Res.bind_eq_ok] at h
    obtain ⟨x, _, _, _, h⟩ := h
    exact loop_put_length (f := fun i => Dev.fw (.batchSlice (i * _) ((i + 1) * _)) p d (m i) [x]) h
  | _ =>
    simp only [NodeOp.fw, Res.bind_eq_ok] at h
    obtain ⟨_, _, h⟩ := h
    exact put_length h

/-- A property kept by every iteration holds when the loop stops. -/
theorem NodeOp.loopLeft_keeps {S : Type} {P : S → Prop} {n : Nat} {f : Nat → S → Res S} {s : S} (hs : P s)
    (hf : ∀ i s s', P s → f i s = ok s' → P s') : P (loopLeft n f s) := by
  have hl : ∀ n s', loop n f s = ok s' → P s' := by
    intro n
    induction n with
    | zero => intro s' h; simp only [loop, Res.ok.injEq] at h; exact h ▸ hs
    | succ n ih =>
      intro s' h
      rw [loop_succ, Res.bind_eq_ok] at h
      obtain ⟨z, hz, h⟩ := h
      exact hf n z s' (ih z hz) h
  induction n with
  | zero => exact hs
  | succ n ih =>
    unfold loopLeft
    split
    · rename_i s' h
      split
      · rename_i s'' h2
        exact hf n s' s'' (hl n s' h) h2
      · exact hl n s' h
    · exact ih

theorem NodeOp.left_length (p : Profile) (d : Nat) (m : Mem α) (op : NodeOp α) (xs ys : List (Tensor α)) :
    (op.left p d m xs ys).length = ys.length := by
  have hput : ∀ (f : Nat → Res (Tensor α)) (n : Nat), (loopLeft n (fun i ys => do let t ← f i; put ys i t) ys).length = ys.length := by
    intro f n
    refine loopLeft_keeps (P := fun zs : List (Tensor α) => zs.length = ys.length) rfl fun i s s' hs h => ?_
    simp only [Res.bind_eq_ok] at h
    obtain ⟨t, _, h⟩ := h
    exact (put_length h).trans hs
  cases op <;> simp only [NodeOp.left]
  case inputOwner v => split <;> simp
  case split dim n =>
    split
    · rename_i x _
      exact hput (fun i => Dev.fw (.slice dim (i * (x.shape.get dim / n)) ((i + 1) * (x.shape.get dim / n))) p d (m i) [x]) n
    · rfl
  case batchSplit n =>
    split
    · rename_i x _
      exact hput (fun i => Dev.fw (.batchSlice (i * (x.shape.batch / n)) ((i + 1) * (x.shape.batch / n))) p d (m i) [x]) n
    · rfl

/-- An operator of the library as an `Operator` on device `d`. -/
def NodeOp.oper (p : Profile) (d : Nat) (m : Mem α) (op : NodeOp α) : Oper (Tensor α) where
  shapes := op.shapes p
  null := Tensor.new d
  fw := op.fw p d m
  fw_len := NodeOp.fw_length p d m op
  left := op.left p d m
  left_len := NodeOp.left_length p d m op
  bw := op.bw p d m

/-- `t.alloc(); t.reset(k)` -/
def allocReset (p : Profile) (m : Nat → α) (k : α) (t : Tensor α) : Res (Tensor α) := do
  let t ← t.alloc p m
  t.reset p k

theorem reset_valid {p : Profile} {k : α} {t t' : Tensor α} (h : t.reset p k = ok t') : t'.valid = true := by
  simp only [Tensor.reset, Dev.resetTensor, Dev.callFw, Naive.fwImpl, K.resetTensor, Res.bind_eq_ok, Res.ok.injEq] at h
  obtain ⟨_, _, _, _, _, _, _, _, _, _, rfl⟩ := h
  rfl

/-- The tensors of the library (`m`: stale contents of the memory allocated for gradients). -/
def tensorLike (p : Profile) (m : Nat → α) : TensorLike (Tensor α) where
  shape := Tensor.shape
  valid := Tensor.valid
  ones := allocReset p m 1
  zeros := allocReset p m 0
  zeros_valid := by
    intro t t' h
    simp only [allocReset, Res.bind_eq_ok] at h
    obtain ⟨_, _, h⟩ := h
    exact reset_valid h
  addTo := TF.addAssign p

/-! ### Functions on nodes

A node is (operator, number of its result); `dn` is the device of the operator of the node, `self.device()`.  Each function returns the
new graph and the new node. -/

namespace NF

/-- A node together with the device of its operator. -/
structure Node where
  op : Nat
  vid : Nat
  dev : Nat
  deriving DecidableEq

/-- The pair used by the graph. -/
def Node.id (n : Node) : Nat × Nat := (n.op, n.vid)

/-- `Node::create(op, args)`, all results. -/
def create (p : Profile) (m : Mem α) (g : Graph (Tensor α)) (d : Nat) (op : NodeOp α) (sink : Option (Tensor α)) (args : List Node) :
    Res (Graph (Tensor α) × List Node) := do
  let g' ← Graph.create (tensorLike p (m 0)) g (op.oper p d m) sink (args.map Node.id)
  let o ← Graph.at' g' g.length
  ok (g', (List.range o.init.length).map fun i => ⟨g.length, i, d⟩)

/-- `Node::create(op, args).pop().unwrap()`. -/
def create1 (p : Profile) (m : Mem α) (g : Graph (Tensor α)) (d : Nat) (op : NodeOp α) (args : List Node) :
    Res (Graph (Tensor α) × Node) := do
  let r ← create p m g d op none args
  let n ← unwrap r.2.getLast?
  ok (r.1, n)

/-- `Node::from(&tensor)`, graph.rs:225-229. -/
def ofTensor (p : Profile) (m : Mem α) (g : Graph (Tensor α)) (t : Tensor α) : Res (Graph (Tensor α) × Node) := do
  let d ← t.dev
  create1 p m g d (.input t) []

/-- `Node::from(tensor)`, graph.rs:231-235. -/
def ofOwned (p : Profile) (m : Mem α) (g : Graph (Tensor α)) (t : Tensor α) : Res (Graph (Tensor α) × Node) := do
  let d ← t.dev
  create1 p m g d (.inputOwner t) []

/-- `Node::from(&mut parameter)`, graph.rs:237-241. -/
def ofParameter (p : Profile) (m : Mem α) (g : Graph (Tensor α)) (value gradient : Tensor α) : Res (Graph (Tensor α) × Node) := do
  let d ← value.dev
  let r ← create p m g d (.parameter value) (some gradient) []
  let n ← unwrap r.2.getLast?
  ok (r.1, n)

/-- `node.inner_value().shape`. -/
def shape (g : Graph (Tensor α)) (n : Node) : Res Shape := do
  let t ← g.val n.id
  ok t.shape

/-- Functions of one node that create one operator: `-x`, `x ∘ k`, `k ∘ x` (arithmetic/node.rs:10-26, 110-182), and of
basic/node.rs:59-312: powf, powi, sqrt, abs, sin, cos, tan, exp, ln, tanh, sigmoid, softplus, sum, max, min, broadcast, logsumexp,
sparse_softmax_cross_entropy, transpose, triangular_l, triangular_u, relu, lrelu, prelu, elu, slice, pick, reshape, batch_sum,
batch_slice, batch_pick. -/
def un1 (op : NodeOp α) (p : Profile) (m : Mem α) (g : Graph (Tensor α)) (x : Node) : Res (Graph (Tensor α) × Node) :=
  create1 p m g x.dev op [x]

/-- `-x`, arithmetic/node.rs:10-26. -/
def neg (p : Profile) (m : Mem α) (g : Graph (Tensor α)) (x : Node) : Res (Graph (Tensor α) × Node) := un1 (.un .neg) p m g x
/-- `x + k`, arithmetic/node.rs:110-141, 184. -/
def addC (p : Profile) (m : Mem α) (g : Graph (Tensor α)) (x : Node) (k : α) : Res (Graph (Tensor α) × Node) := un1 (.cn .add k) p m g x
/-- `x - k`, arithmetic/node.rs:110-141, 185. -/
def subC (p : Profile) (m : Mem α) (g : Graph (Tensor α)) (x : Node) (k : α) : Res (Graph (Tensor α) × Node) := un1 (.cn .subR k) p m g x
/-- `x * k`, arithmetic/node.rs:110-141, 186. -/
def mulC (p : Profile) (m : Mem α) (g : Graph (Tensor α)) (x : Node) (k : α) : Res (Graph (Tensor α) × Node) := un1 (.cn .mul k) p m g x
/-- `x / k`, arithmetic/node.rs:110-141, 187. -/
def divC (p : Profile) (m : Mem α) (g : Graph (Tensor α)) (x : Node) (k : α) : Res (Graph (Tensor α) × Node) := un1 (.cn .divR k) p m g x
/-- `k + x`, arithmetic/node.rs:142-173, 184. -/
def cAdd (p : Profile) (m : Mem α) (g : Graph (Tensor α)) (x : Node) (k : α) : Res (Graph (Tensor α) × Node) := un1 (.cn .add k) p m g x
/-- `k - x`, arithmetic/node.rs:142-173, 185. -/
def cSub (p : Profile) (m : Mem α) (g : Graph (Tensor α)) (x : Node) (k : α) : Res (Graph (Tensor α) × Node) := un1 (.cn .subL k) p m g x
/-- `k * x`, arithmetic/node.rs:142-173, 186. -/
def cMul (p : Profile) (m : Mem α) (g : Graph (Tensor α)) (x : Node) (k : α) : Res (Graph (Tensor α) × Node) := un1 (.cn .mul k) p m g x
/-- `k / x`, arithmetic/node.rs:142-173, 187. -/
def cDiv (p : Profile) (m : Mem α) (g : Graph (Tensor α)) (x : Node) (k : α) : Res (Graph (Tensor α) × Node) := un1 (.cn .divL k) p m g x
/-- `powf`, basic/node.rs:59-63. -/
def powf (p : Profile) (m : Mem α) (g : Graph (Tensor α)) (x : Node) (k : α) : Res (Graph (Tensor α) × Node) := un1 (.cn .powfR k) p m g x
/-- `powi`, basic/node.rs:65-69. -/
def powi (p : Profile) (m : Mem α) (g : Graph (Tensor α)) (x : Node) (k : Int) : Res (Graph (Tensor α) × Node) := un1 (.powi k) p m g x
/-- `sqrt`, basic/node.rs:71-75. -/
def sqrt (p : Profile) (m : Mem α) (g : Graph (Tensor α)) (x : Node) : Res (Graph (Tensor α) × Node) := un1 (.un .sqrt) p m g x
/-- `abs`, basic/node.rs:77-81. -/
def abs (p : Profile) (m : Mem α) (g : Graph (Tensor α)) (x : Node) : Res (Graph (Tensor α) × Node) := un1 (.un .abs) p m g x
/-- `sin`, basic/node.rs:85-89. -/
def sin (p : Profile) (m : Mem α) (g : Graph (Tensor α)) (x : Node) : Res (Graph (Tensor α) × Node) := un1 (.un .sin) p m g x
/-- `cos`, basic/node.rs:91-95. -/
def cos (p : Profile) (m : Mem α) (g : Graph (Tensor α)) (x : Node) : Res (Graph (Tensor α) × Node) := un1 (.un .cos) p m g x
/-- `tan`, basic/node.rs:97-101. -/
def tan (p : Profile) (m : Mem α) (g : Graph (Tensor α)) (x : Node) : Res (Graph (Tensor α) × Node) := un1 (.un .tan) p m g x
/-- `exp`, basic/node.rs:105-109. -/
def exp (p : Profile) (m : Mem α) (g : Graph (Tensor α)) (x : Node) : Res (Graph (Tensor α) × Node) := un1 (.un .exp) p m g x
/-- `ln`, basic/node.rs:111-115. -/
def ln (p : Profile) (m : Mem α) (g : Graph (Tensor α)) (x : Node) : Res (Graph (Tensor α) × Node) := un1 (.un .ln) p m g x
/-- `tanh`, basic/node.rs:117-121. -/
def tanh (p : Profile) (m : Mem α) (g : Graph (Tensor α)) (x : Node) : Res (Graph (Tensor α) × Node) := un1 (.un .tanh) p m g x
/-- `sigmoid`, basic/node.rs:123-127. -/
def sigmoid (p : Profile) (m : Mem α) (g : Graph (Tensor α)) (x : Node) : Res (Graph (Tensor α) × Node) := un1 (.un .sigmoid) p m g x
/-- `softplus`, basic/node.rs:129-133. -/
def softplus (p : Profile) (m : Mem α) (g : Graph (Tensor α)) (x : Node) : Res (Graph (Tensor α) × Node) := un1 (.un .softplus) p m g x
/-- `sum`, basic/node.rs:137-141. -/
def sum (p : Profile) (m : Mem α) (g : Graph (Tensor α)) (x : Node) (dim : Nat) : Res (Graph (Tensor α) × Node) := un1 (.sum dim) p m g x
/-- `max`, basic/node.rs:143-147. -/
def max (p : Profile) (m : Mem α) (g : Graph (Tensor α)) (x : Node) (dim : Nat) : Res (Graph (Tensor α) × Node) := un1 (.max dim) p m g x
/-- `min`, basic/node.rs:149-153. -/
def min (p : Profile) (m : Mem α) (g : Graph (Tensor α)) (x : Node) (dim : Nat) : Res (Graph (Tensor α) × Node) := un1 (.min dim) p m g x
/-- `logsumexp`, basic/node.rs:161-165. -/
def logsumexp (p : Profile) (m : Mem α) (g : Graph (Tensor α)) (x : Node) (dim : Nat) : Res (Graph (Tensor α) × Node) := un1 (.logsumexp dim) p m g x
/-- `broadcast`, basic/node.rs:155-159. -/
def broadcast (p : Profile) (m : Mem α) (g : Graph (Tensor α)) (x : Node) (dim size : Nat) : Res (Graph (Tensor α) × Node) := un1 (.broadcast dim size) p m g x
/-- `sparse_softmax_cross_entropy`, basic/node.rs:184-191. -/
def sparseSoftmaxCrossEntropy (p : Profile) (m : Mem α) (g : Graph (Tensor α)) (x : Node) (ids : List Nat) (dim : Nat) : Res (Graph (Tensor α) × Node) := un1 (.sparseSoftmaxCrossEntropy ids dim) p m g x
/-- `transpose`, basic/node.rs:202-206. -/
def transpose (p : Profile) (m : Mem α) (g : Graph (Tensor α)) (x : Node) : Res (Graph (Tensor α) × Node) := un1 (.transpose) p m g x
/-- `triangular_l`, basic/node.rs:208-212. -/
def triangularL (p : Profile) (m : Mem α) (g : Graph (Tensor α)) (x : Node) (k : Nat) : Res (Graph (Tensor α) × Node) := un1 (.triangularL k) p m g x
/-- `triangular_u`, basic/node.rs:214-218. -/
def triangularU (p : Profile) (m : Mem α) (g : Graph (Tensor α)) (x : Node) (k : Nat) : Res (Graph (Tensor α) × Node) := un1 (.triangularU k) p m g x
/-- `relu`, basic/node.rs:222-226. -/
def relu (p : Profile) (m : Mem α) (g : Graph (Tensor α)) (x : Node) : Res (Graph (Tensor α) × Node) := un1 (.cn .prelu 0) p m g x
/-- `lrelu`, basic/node.rs:228-232. -/
def lrelu (p : Profile) (m : Mem α) (g : Graph (Tensor α)) (x : Node) : Res (Graph (Tensor α) × Node) := un1 (.cn .prelu Flt.cent) p m g x
/-- `prelu`, basic/node.rs:234-238. -/
def prelu (p : Profile) (m : Mem α) (g : Graph (Tensor α)) (x : Node) (a : α) : Res (Graph (Tensor α) × Node) := un1 (.cn .prelu a) p m g x
/-- `elu`, basic/node.rs:240-244. -/
def elu (p : Profile) (m : Mem α) (g : Graph (Tensor α)) (x : Node) (a : α) : Res (Graph (Tensor α) × Node) := un1 (.cn .elu a) p m g x
/-- `slice`, basic/node.rs:248-252. -/
def slice (p : Profile) (m : Mem α) (g : Graph (Tensor α)) (x : Node) (dim lower upper : Nat) : Res (Graph (Tensor α) × Node) := un1 (.slice dim lower upper) p m g x
/-- `pick`, basic/node.rs:258-262. -/
def pick (p : Profile) (m : Mem α) (g : Graph (Tensor α)) (x : Node) (ids : List Nat) (dim : Nat) : Res (Graph (Tensor α) × Node) := un1 (.pick ids dim) p m g x
/-- `reshape`, basic/node.rs:271-275. -/
def reshape (p : Profile) (m : Mem α) (g : Graph (Tensor α)) (x : Node) (s : Shape) : Res (Graph (Tensor α) × Node) := un1 (.reshape s) p m g x
/-- `batch_sum`, basic/node.rs:284-288. -/
def batchSum (p : Profile) (m : Mem α) (g : Graph (Tensor α)) (x : Node) : Res (Graph (Tensor α) × Node) := un1 (.batchSum) p m g x
/-- `batch_slice`, basic/node.rs:290-294. -/
def batchSlice (p : Profile) (m : Mem α) (g : Graph (Tensor α)) (x : Node) (lower upper : Nat) : Res (Graph (Tensor α) × Node) := un1 (.batchSlice lower upper) p m g x
/-- `batch_pick`, basic/node.rs:300-304. -/
def batchPick (p : Profile) (m : Mem α) (g : Graph (Tensor α)) (x : Node) (ids : List Nat) : Res (Graph (Tensor α) × Node) := un1 (.batchPick ids) p m g x

/-- Functions of two nodes that create one operator: matmul (basic/node.rs:195-200), softmax_cross_entropy (basic/node.rs:175-182). -/
def bin1 (op : NodeOp α) (p : Profile) (m : Mem α) (g : Graph (Tensor α)) (x y : Node) : Res (Graph (Tensor α) × Node) :=
  create1 p m g x.dev op [x, y]

/-- `matmul`, basic/node.rs:195-200. -/
def matmul (p : Profile) (m : Mem α) (g : Graph (Tensor α)) (x y : Node) : Res (Graph (Tensor α) × Node) := bin1 .matmul p m g x y
/-- `softmax_cross_entropy`, basic/node.rs:175-182. -/
def softmaxCrossEntropy (p : Profile) (m : Mem α) (g : Graph (Tensor α)) (x t : Node) (dim : Nat) : Res (Graph (Tensor α) × Node) := bin1 (.softmaxCrossEntropy dim) p m g x t

/-- `define_ab_op!`, arithmetic/node.rs:28-103, and `pow`, basic/node.rs:42-57. -/
def ab (fw : Bi) (l r : Sc) (p : Profile) (m : Mem α) (g : Graph (Tensor α)) (self rhs : Node) : Res (Graph (Tensor α) × Node) := do
  let s ← shape g self
  if s.isScalar then create1 p m g self.dev (.sc l) [rhs, self]
  else do
    let t ← shape g rhs
    if t.isScalar then create1 p m g self.dev (.sc r) [self, rhs]
    else create1 p m g self.dev (.bi fw) [self, rhs]

/-- `self + rhs`, arithmetic/node.rs:105. -/
def add (p : Profile) (m : Mem α) (g : Graph (Tensor α)) (self rhs : Node) := ab .add .add .add p m g self rhs
/-- `self - rhs`, arithmetic/node.rs:106. -/
def sub (p : Profile) (m : Mem α) (g : Graph (Tensor α)) (self rhs : Node) := ab .sub .subL .subR p m g self rhs
/-- `self * rhs`, arithmetic/node.rs:107. -/
def mul (p : Profile) (m : Mem α) (g : Graph (Tensor α)) (self rhs : Node) := ab .mul .mul .mul p m g self rhs
/-- `self / rhs`, arithmetic/node.rs:108. -/
def div (p : Profile) (m : Mem α) (g : Graph (Tensor α)) (self rhs : Node) := ab .div .divL .divR p m g self rhs
/-- `self.pow(rhs)`, basic/node.rs:42-57. -/
def pow (p : Profile) (m : Mem α) (g : Graph (Tensor α)) (self rhs : Node) := ab .powf .powfL .powfR p m g self rhs

/-- `ln_softmax`, basic/node.rs:167-169. -/
def lnSoftmax (p : Profile) (m : Nat → Mem α) (g : Graph (Tensor α)) (self : Node) (dim : Nat) : Res (Graph (Tensor α) × Node) := do
  let r ← logsumexp p (m 0) g self dim
  let s ← shape r.1 self
  let r ← broadcast p (m 1) r.1 r.2 dim (s.get dim)
  sub p (m 2) r.1 self r.2

/-- `softmax`, basic/node.rs:171-173. -/
def softmax (p : Profile) (m : Nat → Mem α) (g : Graph (Tensor α)) (self : Node) (dim : Nat) : Res (Graph (Tensor α) × Node) := do
  let r ← lnSoftmax p m g self dim
  exp p (m 3) r.1 r.2

/-- `flatten`, basic/node.rs:277-280. -/
def flatten (p : Profile) (m : Mem α) (g : Graph (Tensor α)) (self : Node) : Res (Graph (Tensor α) × Node) := do
  let s ← shape g self
  let s ← Shape.new p [s.volume] s.batch
  reshape p m g self s

/-- `split`, basic/node.rs:254-256. -/
def split (p : Profile) (m : Mem α) (g : Graph (Tensor α)) (self : Node) (dim n : Nat) : Res (Graph (Tensor α) × List Node) :=
  create p m g self.dev (.split dim n) none [self]

/-- `batch_split`, basic/node.rs:296-298. -/
def batchSplit (p : Profile) (m : Mem α) (g : Graph (Tensor α)) (self : Node) (n : Nat) : Res (Graph (Tensor α) × List Node) :=
  create p m g self.dev (.batchSplit n) none [self]

/-- `concat`, basic/node.rs:264-269. -/
def concat (p : Profile) (m : Mem α) (g : Graph (Tensor α)) (xs : List Node) (dim : Nat) : Res (Graph (Tensor α) × Node) := do
  check (xs.length ≠ 0)
  let x ← Graph.at' xs 0
  create1 p m g x.dev (.concat dim) xs

/-- `batch_concat`, basic/node.rs:306-311. -/
def batchConcat (p : Profile) (m : Mem α) (g : Graph (Tensor α)) (xs : List Node) : Res (Graph (Tensor α) × Node) := do
  check (xs.length ≠ 0)
  let x ← Graph.at' xs 0
  create1 p m g x.dev .batchConcat xs

end NF
end Verif
