import Verif.Kernels

/-!
# Model of the device-level forward functions

`functions.rs` (macros), `functions/arithmetic/device.rs`, `functions/basic/device.rs`, `device.rs`, and the table of
kernels registered by `devices/naive.rs`.  Kernel names (strings in the code) are the constructors of `FwName`; all
forward names used by the device functions are registered (devices/naive.rs:89-308).
-/

namespace Verif
open Res

/-- Unary element-wise functions. -/
inductive Un where
  | neg | sqrt | abs | sin | cos | tan | exp | ln | tanh | sigmoid | softplus
  deriving DecidableEq, Repr

/-- Element-wise functions of a tensor and an f32 constant (`L`: the constant is the left operand). -/
inductive Cn where
  | add | subL | subR | mul | divL | divR | powfL | powfR | prelu | elu
  deriving DecidableEq, Repr

/-- Element-wise functions of two tensors. -/
inductive Bi where
  | add | sub | mul | div | powf
  deriving DecidableEq, Repr

/-- Element-wise functions of a tensor and a scalar tensor (`L`: the scalar is the left operand). -/
inductive Sc where
  | add | subL | subR | mul | divL | divR | powfL | powfR
  deriving DecidableEq, Repr

section
variable {α : Type} [Flt α]

/-- The closures registered for the unary names. -/
def Un.fn : Un → α → α
  | .neg => Scalar.negFw
  | .sqrt => Scalar.sqrtFw
  | .abs => Scalar.absFw
  | .sin => Scalar.sinFw
  | .cos => Scalar.cosFw
  | .tan => Scalar.tanFw
  | .exp => Scalar.expFw
  | .ln => Scalar.lnFw
  | .tanh => Scalar.tanhFw
  | .sigmoid => Scalar.sigmoidFw
  | .softplus => Scalar.softplusFw

/-- The closures registered for the constant names. -/
def Cn.fn : Cn → α → α → α
  | .add => Scalar.addConstFw
  | .subL => Scalar.subConstLFw
  | .subR => Scalar.subConstRFw
  | .mul => Scalar.mulConstFw
  | .divL => Scalar.divConstLFw
  | .divR => Scalar.divConstRFw
  | .powfL => Scalar.powfConstLFw
  | .powfR => Scalar.powfConstRFw
  | .prelu => Scalar.preluFw
  | .elu => Scalar.eluFw

/-- The closures registered for the two-operand names. -/
def Bi.fn : Bi → α → α → α
  | .add => Scalar.addFw
  | .sub => Scalar.subFw
  | .mul => Scalar.mulFw
  | .div => Scalar.divFw
  | .powf => Scalar.powfFw

/-- The closures registered for the scalar names. -/
def Sc.fn : Sc → α → α → α
  | .add => Scalar.addScalarFw
  | .subL => Scalar.subScalarLFw
  | .subR => Scalar.subScalarRFw
  | .mul => Scalar.mulScalarFw
  | .divL => Scalar.divScalarLFw
  | .divR => Scalar.divScalarRFw
  | .powfL => Scalar.powfScalarLFw
  | .powfR => Scalar.powfScalarRFw

end

/-- Names of the forward kernels, devices/naive.rs:89-308 (`"<name>_fw_impl"` or `"<name>_impl"`). -/
inductive FwName where
  | un (u : Un) | cn (c : Cn) | bi (b : Bi) | sc (s : Sc)
  | powi | sum | max | min | logsumexp | broadcast | matmul | transpose | triangularL | triangularU
  | slice | pick | concat | batchSum | batchSlice | batchPick | batchConcat
  | resetTensor | resetTensorBySlice | resetTensorByTensor
  | addAssign | subAssign | mulAssignConst | identity | flip | permuteDims
  deriving DecidableEq, Repr

section
variable {α : Type}

/-- `Device::tensor_to_vector`, device.rs:178-182 (`Tensor::to_vec`, basic/tensor.rs:13-15). -/
def Dev.tensorToVector [Zero α] (p : Profile) (x : Tensor α) : Res (List α) := do
  let size ← x.shape.sizeU p
  K.tensorToVector p [x] (List.replicate size 0)

/-- `Tensor::to_vec`, basic/tensor.rs:13-15. -/
def Tensor.toVec [Zero α] (p : Profile) (x : Tensor α) : Res (List α) := do
  let _ ← x.dev
  Dev.tensorToVector p x

/-- `ResetTensorByTensorImpl`, reset_tensor.rs:35-49. -/
def K.resetByTensor [Zero α] : FwK α := fun p xs _ _ y => do
  let x ← ix xs 0
  let size ← y.shape.sizeU p
  let xData ← x.toVec p
  let py ← y.ptr
  let py ← loop size (fun i py => do
    let v ← ix xData i
    wr py i v) py
  ok { y with buf := some py }

variable [Flt α]

/-- The kernel table built by `Naive::new`, devices/naive.rs:80-311 (forward part; random kernels: `Verif.Random`). -/
def Naive.fwImpl : FwName → FwK α
  | .un u => K.fwX u.fn
  | .cn c => K.fwConst c.fn
  | .bi b => K.fwAb b.fn
  | .sc s => K.fwScalar s.fn
  | .powi => K.powiFw
  | .sum => K.sumFw
  | .max => K.maxFw
  | .min => K.minFw
  | .logsumexp => K.logsumexpFw
  | .broadcast => K.broadcastFw
  | .matmul => K.matmulFw
  | .transpose => K.transposeFw
  | .triangularL => K.triangularFw true
  | .triangularU => K.triangularFw false
  | .slice => K.sliceFw
  | .pick => K.pickFw
  | .concat => K.concatFw
  | .batchSum => K.batchSumFw
  | .batchSlice => K.batchSliceFw
  | .batchPick => K.batchPickFw
  | .batchConcat => K.batchConcatFw
  | .resetTensor => K.resetTensor
  | .resetTensorBySlice => K.resetBySlice
  | .resetTensorByTensor => K.resetByTensor
  | .addAssign => K.opAssign (fun w v => w + v)
  | .subAssign => K.opAssign (fun w v => w - v)
  | .mulAssignConst => K.mulAssignConst
  | .identity => K.identity
  | .flip => K.flipFw
  | .permuteDims => K.permuteFw

/-- `Device::call_fw_impl`, device.rs:54-67. -/
def Dev.callFw (p : Profile) (n : FwName) (xs : List (Tensor α)) (u : List Nat) (f : List α) (y : Tensor α) :
    Res (Tensor α) := Naive.fwImpl n p xs u f y

end

/-- The forward functions of the traits `ArithmeticDeviceFunctions` and `BasicDeviceFunctions` that return a tensor, with their
non-tensor arguments.
Un: arithmetic/device.rs:64, basic/device.rs:149-150, 173-175, 183-187.
Cn: arithmetic/device.rs:70, 77, 79, 87, 94, 96, basic/device.rs:136-137, 355-356.
Bi: arithmetic/device.rs:67, 74, 84, 91, basic/device.rs:135.
Sc: arithmetic/device.rs:72, 81-82, 89, 98-99, basic/device.rs:138-139.
The others: basic/device.rs:141 (powi), 196-234 (reductions, broadcast), 260-294 (matrix), 363-393 (slice, pick, concat),
415-456 (batch). -/
inductive FwOp (α : Type) where
  | un (u : Un)
  | cn (c : Cn) (k : α)
  | bi (b : Bi)
  | sc (s : Sc)
  | powi (k : Int)
  | sum (dim : Nat)
  | max (dim : Nat)
  | min (dim : Nat)
  | logsumexp (dim : Nat)
  | broadcast (dim size : Nat)
  | matmul
  | transpose
  | triangularL (k : Nat)
  | triangularU (k : Nat)
  | slice (dim lower upper : Nat)
  | pick (ids : List Nat) (dim : Nat)
  | concat (dim : Nat)
  | batchSum
  | batchSlice (lower upper : Nat)
  | batchPick (ids : List Nat)
  | batchConcat
  deriving DecidableEq, Repr

/-- `k as u32` for an i32. -/
def asU32 (k : Int) : Nat := (k % 4294967296).toNat

namespace FwOp
variable {α : Type}

/-- The kernel name a device function passes to `call_fw_impl`. -/
def name : FwOp α → FwName
  | un u => .un u
  | cn c _ => .cn c
  | bi b => .bi b
  | sc s => .sc s
  | powi _ => .powi
  | sum _ => .sum
  | max _ => .max
  | min _ => .min
  | logsumexp _ => .logsumexp
  | broadcast .. => .broadcast
  | matmul => .matmul
  | transpose => .transpose
  | triangularL _ => .triangularL
  | triangularU _ => .triangularU
  | slice .. => .slice
  | pick .. => .pick
  | concat _ => .concat
  | batchSum => .batchSum
  | batchSlice .. => .batchSlice
  | batchPick _ => .batchPick
  | batchConcat => .batchConcat

/-- The `u32data` argument. -/
def u32data : FwOp α → List Nat
  | powi k => [asU32 k]
  | sum dim => [dim]
  | max dim => [dim]
  | min dim => [dim]
  | logsumexp dim => [dim]
  | broadcast dim size => [dim, size]
  | triangularL k => [k]
  | triangularU k => [k]
  | slice dim lower _ => [dim, lower]
  | pick ids dim => dim :: ids
  | concat dim => [dim]
  | batchSlice lower upper => [lower, upper]
  | batchPick ids => ids
  | _ => []

/-- The `f32data` argument. -/
def f32data : FwOp α → List α
  | cn _ k => [k]
  | _ => []

/-- The shape of the new output tensor, from the shapes of the arguments (with the assertions made on the way).  Argument
lists of the wrong length cannot be written in Rust; they panic here. -/
def shape (p : Profile) : FwOp α → List Shape → Res Shape
  | un _, [x] => ok x
  | cn _ _, [x] => ok x
  | bi _, [a, b] => ShapeOps.elementwise a b
  | sc _, [x, k] => ShapeOps.scalarOp x k
  | powi _, [x] => ok x
  | sum dim, [x] => x.resizeDim p dim 1
  | max dim, [x] => x.resizeDim p dim 1
  | min dim, [x] => x.resizeDim p dim 1
  | logsumexp dim, [x] => x.resizeDim p dim 1
  | broadcast dim size, [x] => ShapeOps.broadcast p x dim size
  | matmul, [a, b] => ShapeOps.matmul p a b
  | transpose, [x] => ShapeOps.transpose p x
  | triangularL _, [x] => do check (x.isMatrix = true ∧ x.get 0 = x.get 1); ok x
  | triangularU _, [x] => do check (x.isMatrix = true ∧ x.get 0 = x.get 1); ok x
  | slice dim lower upper, [x] => ShapeOps.slice p x dim lower upper
  | pick ids dim, [x] => ShapeOps.pick p x ids dim
  | concat dim, xs => do check (xs.length ≠ 0); ShapeOps.concat p xs dim
  | batchSum, [x] => x.resizeBatch 1
  | batchSlice lower upper, [x] => ShapeOps.batchSlice x lower upper
  | batchPick ids, [x] => ShapeOps.batchPick x ids
  | batchConcat, xs => do check (xs.length ≠ 0); ShapeOps.batchConcat p xs
  | _, _ => panic

end FwOp

namespace Dev
variable {α : Type} [Flt α]

/-- `assert!(x.device() == self)` for each argument. -/
def onAll (d : Nat) (xs : List (Tensor α)) : Res Unit :=
  loop xs.length (fun i (_ : Unit) => do
    let x ← ix xs i
    x.onDev d) ()

/-- Every forward device function, on device `d`: functions.rs:1-12 (`define_fw_ab!`), 46-56 (`define_fw_const!`), 73-83
(`define_fw_x!`) and the functions listed at `FwOp`: check the devices, compute the shape of the result, allocate it (`m`: stale
contents of the block), run the kernel. -/
def fw (op : FwOp α) (p : Profile) (d : Nat) (m : Nat → α) (xs : List (Tensor α)) : Res (Tensor α) := do
  onAll d xs
  let s ← op.shape p (xs.map Tensor.shape)
  let y ← (Tensor.new d s).alloc p m
  callFw p op.name xs op.u32data op.f32data y

/-- `Device::add_assign`, arithmetic/device.rs:47-51. -/
def addAssign (p : Profile) (d : Nat) (x y : Tensor α) : Res (Tensor α) := do
  x.onDev d
  y.onDev d
  callFw p .addAssign [x] [] [] y

/-- `Device::sub_assign`, arithmetic/device.rs:53-57. -/
def subAssign (p : Profile) (d : Nat) (x y : Tensor α) : Res (Tensor α) := do
  x.onDev d
  y.onDev d
  callFw p .subAssign [x] [] [] y

/-- `Device::mul_assign_const`, arithmetic/device.rs:59-62. -/
def mulAssignConst (p : Profile) (d : Nat) (k : α) (y : Tensor α) : Res (Tensor α) := do
  y.onDev d
  callFw p .mulAssignConst [] [] [k] y

/-- `Device::reset_tensor`, device.rs:162-164. -/
def resetTensor (p : Profile) (x : Tensor α) (k : α) : Res (Tensor α) := callFw p .resetTensor [] [] [k] x

/-- `Device::reset_tensor_by_slice`, device.rs:166-169. -/
def resetTensorBySlice (p : Profile) (x : Tensor α) (values : List α) : Res (Tensor α) := do
  let size ← x.shape.sizeU p
  check (size = values.length)
  callFw p .resetTensorBySlice [] [] values x

/-- `Device::reset_tensor_by_tensor`, device.rs:171-176. -/
def resetTensorByTensor (p : Profile) (x source : Tensor α) : Res (Tensor α) := do
  check (x.valid = true)
  check (source.valid = true)
  let a ← x.shape.sizeU p
  let b ← source.shape.sizeU p
  check (a = b)
  callFw p .resetTensorByTensor [source] [] [] x

/-- `Device::new_tensor_by_constant`, device.rs:132-137. -/
def newByConstant (p : Profile) (d : Nat) (m : Nat → α) (s : Shape) (k : α) : Res (Tensor α) := do
  let t ← (Tensor.new d s).alloc p m
  resetTensor p t k

/-- `Device::new_tensor_by_slice`, device.rs:139-144. -/
def newBySlice (p : Profile) (d : Nat) (m : Nat → α) (s : Shape) (values : List α) : Res (Tensor α) := do
  let t ← (Tensor.new d s).alloc p m
  resetTensorBySlice p t values

/-- `Device::copy_tensor`, device.rs:146-151. -/
def copyTensor (p : Profile) (d : Nat) (m : Nat → α) (source : Tensor α) : Res (Tensor α) := do
  let t ← (Tensor.new d source.shape).alloc p m
  resetTensorByTensor p t source

/-- `Tensor::reset`, tensor.rs:88-90. -/
def _root_.Verif.Tensor.reset (p : Profile) (x : Tensor α) (k : α) : Res (Tensor α) := do
  let _ ← x.dev
  resetTensor p x k

/-- `Tensor::move_to_device`, tensor.rs:42-48. -/
def _root_.Verif.Tensor.moveToDevice (p : Profile) (d : Nat) (m : Nat → α) (x : Tensor α) : Res (Tensor α) := do
  check (x.host.isSome = true)
  let size ← x.shape.sizeU p
  let b ← newBuf size m
  let v ← unwrap x.host
  resetTensorBySlice p { x with device := some d, buf := some b, host := none } v

/-- `Device::tensor_to_float`, device.rs:184-189. -/
def tensorToFloat (p : Profile) (x : Tensor α) : Res α := do
  let size ← x.shape.sizeU p
  check (size = 1)
  let ret ← K.tensorToVector p [x] [0]
  ix ret 0

/-- `x.shape.size() / x.shape[dim]`: division by zero panics (never on a well-formed shape). -/
def divU (a b : Nat) : Res Nat := do
  check (b ≠ 0)
  ok (a / b)

/-- `Device::argmax`, basic/device.rs:112-117. -/
def argmax (p : Profile) (d : Nat) (x : Tensor α) (dim : Nat) : Res (List Nat) := do
  x.onDev d
  let size ← x.shape.sizeU p
  let n ← divU size (x.shape.get dim)
  K.argext (fun v t => Flt.gt v t) p [x] [dim] (List.replicate n 0)

/-- `Device::argmin`, basic/device.rs:119-124. -/
def argmin (p : Profile) (d : Nat) (x : Tensor α) (dim : Nat) : Res (List Nat) := do
  x.onDev d
  let size ← x.shape.sizeU p
  let n ← divU size (x.shape.get dim)
  K.argext (fun v t => Flt.gt t v) p [x] [dim] (List.replicate n 0)

/-- `Device::argsort`, basic/device.rs:126-131 (`srt`: the sorting algorithm of std). -/
def argsort (srt : (Nat → Nat → Bool) → List Nat → List Nat) (p : Profile) (d : Nat) (x : Tensor α) (dim : Nat) :
    Res (List Nat) := do
  x.onDev d
  let size ← x.shape.sizeU p
  K.argsort srt p [x] [dim] (List.replicate size 0)

end Dev
end Verif
