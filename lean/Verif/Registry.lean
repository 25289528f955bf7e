import Verif.Random
import Verif.BwKernels

/-!
# Model of the kernel tables of a device: `device.rs`, `devices/naive.rs`

In the rest of the model the kernels are selected by the constructors of `FwName` and `BwName`.  Here they are selected as in the code:
by strings, from the four `HashMap`s of the device.
-/

namespace Verif
open Res
variable {α : Type}

/-- A `HashMap<String, Box<dyn Kernel>>`. -/
abbrev KMap (κ : Type) := String → Option κ

/-- `HashMap::insert`: replaces the entry of this name. -/
def KMap.insert {κ : Type} (t : KMap κ) (n : String) (k : κ) : KMap κ := fun x => if x = n then some k else t x

/-- Kernels that write u32s, device_impl.rs (`FunctionFwU32Impl::call`). -/
abbrev U32K (α : Type) := Profile → List (Tensor α) → List Nat → List α → List Nat → Res (List Nat)

/-- Kernels that write f32s to a slice, device_impl.rs (`FunctionFwF32Impl::call`). -/
abbrev F32K (α : Type) := Profile → List (Tensor α) → List Nat → List α → List α → Res (List α)

/-- The tables of `struct Device`, device.rs:19-22. -/
structure DevTable (α : Type) where
  fw : KMap (FwK α)
  u32 : KMap (U32K α)
  f32 : KMap (F32K α)
  bw : KMap (BwK α)

namespace DevTable

/-- `Device::new`, device.rs:26-36: empty tables. -/
def empty : DevTable α := ⟨fun _ => none, fun _ => none, fun _ => none, fun _ => none⟩

/-- `register_fw_impl`, device.rs:38-40. -/
def registerFw (t : DevTable α) (n : String) (k : FwK α) : DevTable α := { t with fw := t.fw.insert n k }
/-- `register_fw_u32_impl`, device.rs:42-44. -/
def registerU32 (t : DevTable α) (n : String) (k : U32K α) : DevTable α := { t with u32 := t.u32.insert n k }
/-- `register_fw_f32_impl`, device.rs:46-48. -/
def registerF32 (t : DevTable α) (n : String) (k : F32K α) : DevTable α := { t with f32 := t.f32.insert n k }
/-- `register_bw_impl`, device.rs:50-52. -/
def registerBw (t : DevTable α) (n : String) (k : BwK α) : DevTable α := { t with bw := t.bw.insert n k }

/-- `call_fw_impl`, device.rs:54-67. -/
def callFw (t : DevTable α) (p : Profile) (n : String) (xs : List (Tensor α)) (u : List Nat) (f : List α) (y : Tensor α) : Res (Tensor α) :=
  match t.fw n with
  | some k => k p xs u f y
  | none => panic

/-- `call_fw_u32_impl`, device.rs:69-82. -/
def callU32 (t : DevTable α) (p : Profile) (n : String) (xs : List (Tensor α)) (u : List Nat) (f : List α) (y : List Nat) : Res (List Nat) :=
  match t.u32 n with
  | some k => k p xs u f y
  | none => panic

/-- `call_fw_f32_impl`, device.rs:84-97. -/
def callF32 (t : DevTable α) (p : Profile) (n : String) (xs : List (Tensor α)) (u : List Nat) (f : List α) (y : List α) : Res (List α) :=
  match t.f32 n with
  | some k => k p xs u f y
  | none => panic

/-- `call_bw_impl`, device.rs:99-114. -/
def callBw (t : DevTable α) (p : Profile) (m : Mem α) (n : String) (xs ys gys : List (Tensor α)) (u : List Nat) (f : List α) (gx : Tensor α) :
    Res (Tensor α) :=
  match t.bw n with
  | some k => k p m xs ys gys u f gx
  | none => panic

end DevTable

/-! ## The device `Naive` -/

section
variable [Flt α]

/-- `RandomBernoulliImpl`, devices/naive/random.rs:20-33 (`r`: the samples it gets). -/
def K.randomBernoulli (r : Rng α) : FwK α := fun p _ _ f y => do
  let k ← ix f 0
  K.random (r.fillBernoulli k) p y

/-- `RandomNormalImpl`, devices/naive/random.rs:47-61. -/
def K.randomNormal (r : Rng α) : FwK α := fun p _ _ f y => do
  let mean ← ix f 0
  let sd ← ix f 1
  K.random (r.fillNormal mean sd) p y

/-- `RandomUniformImpl`, devices/naive/random.rs:75-89. -/
def K.randomUniform (r : Rng α) : FwK α := fun p _ _ f y => do
  let lower ← ix f 0
  let upper ← ix f 1
  K.random (r.fillUniform lower upper) p y

/-- The calls of `register_fw_impl` in `Naive::new`, devices/naive.rs:85-308, in order. -/
def Naive.fwRegs (r : Rng α) : List (String × FwK α) := [
  ("reset_tensor_impl", K.resetTensor),
  ("reset_tensor_by_slice_impl", K.resetBySlice),
  ("reset_tensor_by_tensor_impl", K.resetByTensor),
  ("identity_impl", K.identity),
  ("random_bernoulli_impl", K.randomBernoulli r),
  ("random_normal_impl", K.randomNormal r),
  ("random_uniform_impl", K.randomUniform r),
  ("add_assign_impl", K.opAssign (fun w v => w + v)),
  ("sub_assign_impl", K.opAssign (fun w v => w - v)),
  ("mul_assign_const_impl", K.mulAssignConst),
  ("neg_fw_impl", K.fwX Scalar.negFw),
  ("add_fw_impl", K.fwAb Scalar.addFw),
  ("add_const_fw_impl", K.fwConst Scalar.addConstFw),
  ("add_scalar_fw_impl", K.fwScalar Scalar.addScalarFw),
  ("sub_fw_impl", K.fwAb Scalar.subFw),
  ("sub_const_l_fw_impl", K.fwConst Scalar.subConstLFw),
  ("sub_const_r_fw_impl", K.fwConst Scalar.subConstRFw),
  ("sub_scalar_l_fw_impl", K.fwScalar Scalar.subScalarLFw),
  ("sub_scalar_r_fw_impl", K.fwScalar Scalar.subScalarRFw),
  ("mul_fw_impl", K.fwAb Scalar.mulFw),
  ("mul_const_fw_impl", K.fwConst Scalar.mulConstFw),
  ("mul_scalar_fw_impl", K.fwScalar Scalar.mulScalarFw),
  ("div_fw_impl", K.fwAb Scalar.divFw),
  ("div_const_l_fw_impl", K.fwConst Scalar.divConstLFw),
  ("div_const_r_fw_impl", K.fwConst Scalar.divConstRFw),
  ("div_scalar_l_fw_impl", K.fwScalar Scalar.divScalarLFw),
  ("div_scalar_r_fw_impl", K.fwScalar Scalar.divScalarRFw),
  ("powf_fw_impl", K.fwAb Scalar.powfFw),
  ("powf_const_l_fw_impl", K.fwConst Scalar.powfConstLFw),
  ("powf_const_r_fw_impl", K.fwConst Scalar.powfConstRFw),
  ("powf_scalar_l_fw_impl", K.fwScalar Scalar.powfScalarLFw),
  ("powf_scalar_r_fw_impl", K.fwScalar Scalar.powfScalarRFw),
  ("sqrt_fw_impl", K.fwX Scalar.sqrtFw),
  ("abs_fw_impl", K.fwX Scalar.absFw),
  ("powi_fw_impl", K.powiFw),
  ("sin_fw_impl", K.fwX Scalar.sinFw),
  ("cos_fw_impl", K.fwX Scalar.cosFw),
  ("tan_fw_impl", K.fwX Scalar.tanFw),
  ("exp_fw_impl", K.fwX Scalar.expFw),
  ("ln_fw_impl", K.fwX Scalar.lnFw),
  ("tanh_fw_impl", K.fwX Scalar.tanhFw),
  ("sigmoid_fw_impl", K.fwX Scalar.sigmoidFw),
  ("softplus_fw_impl", K.fwX Scalar.softplusFw),
  ("sum_fw_impl", K.sumFw),
  ("logsumexp_fw_impl", K.logsumexpFw),
  ("max_fw_impl", K.maxFw),
  ("min_fw_impl", K.minFw),
  ("broadcast_fw_impl", K.broadcastFw),
  ("matmul_fw_impl", K.matmulFw),
  ("transpose_fw_impl", K.transposeFw),
  ("permute_dims_fw_impl", K.permuteFw),
  ("flip_fw_impl", K.flipFw),
  ("triangular_l_fw_impl", K.triangularFw true),
  ("triangular_u_fw_impl", K.triangularFw false),
  ("prelu_fw_impl", K.fwConst Scalar.preluFw),
  ("elu_fw_impl", K.fwConst Scalar.eluFw),
  ("slice_fw_impl", K.sliceFw),
  ("pick_fw_impl", K.pickFw),
  ("concat_fw_impl", K.concatFw),
  ("batch_concat_fw_impl", K.batchConcatFw),
  ("batch_pick_fw_impl", K.batchPickFw),
  ("batch_slice_fw_impl", K.batchSliceFw),
  ("batch_sum_fw_impl", K.batchSumFw)]

/-- The calls of `register_bw_impl` in `Naive::new`, devices/naive.rs:143-306, in order. -/
def Naive.bwRegs : List (String × BwK α) := [
  ("add_bw_a_impl", K.addSubBw (fun acc g => acc + g)),
  ("add_bw_b_impl", K.addSubBw (fun acc g => acc + g)),
  ("add_const_bw_impl", K.bwConst Scalar.addConstBw),
  ("sub_bw_a_impl", K.addSubBw (fun acc g => acc + g)),
  ("sub_bw_b_impl", K.addSubBw (fun acc g => acc - g)),
  ("sub_const_l_bw_impl", K.bwConst Scalar.subConstLBw),
  ("sub_const_r_bw_impl", K.bwConst Scalar.subConstRBw),
  ("mul_bw_a_impl", K.mulDivBw 1 (fun b g => b * g)),
  ("mul_bw_b_impl", K.mulDivBw 0 (fun a g => a * g)),
  ("mul_const_bw_impl", K.bwConst Scalar.mulConstBw),
  ("div_bw_a_impl", K.mulDivBw 1 (fun b g => g / b)),
  ("div_bw_b_impl", K.divBwB),
  ("div_const_l_bw_impl", K.bwConst Scalar.divConstLBw),
  ("div_const_r_bw_impl", K.bwConst Scalar.divConstRBw),
  ("powf_bw_a_impl", K.powfBwA),
  ("powf_bw_b_impl", K.powfBwB),
  ("powf_const_l_bw_impl", K.bwConst Scalar.powfConstLBw),
  ("powf_const_r_bw_impl", K.bwConst Scalar.powfConstRBw),
  ("sqrt_bw_impl", K.bwX Scalar.sqrtBw),
  ("abs_bw_impl", K.bwX Scalar.absBw),
  ("powi_bw_impl", K.powiBw),
  ("sin_bw_impl", K.bwX Scalar.sinBw),
  ("cos_bw_impl", K.bwX Scalar.cosBw),
  ("tan_bw_impl", K.bwX Scalar.tanBw),
  ("exp_bw_impl", K.bwX Scalar.expBw),
  ("ln_bw_impl", K.bwX Scalar.lnBw),
  ("tanh_bw_impl", K.bwX Scalar.tanhBw),
  ("sigmoid_bw_impl", K.bwX Scalar.sigmoidBw),
  ("max_bw_impl", K.extBw),
  ("min_bw_impl", K.extBw),
  ("matmul_bw_a_impl", K.matmulBwA),
  ("matmul_bw_b_impl", K.matmulBwB),
  ("transpose_bw_impl", K.transposeBw),
  ("permute_dims_bw_impl", K.permuteBw),
  ("flip_bw_impl", K.flipBw),
  ("triangular_l_bw_impl", K.triangularBw true),
  ("triangular_u_bw_impl", K.triangularBw false),
  ("prelu_bw_impl", K.bwConst Scalar.preluBw),
  ("elu_bw_impl", K.bwConst Scalar.eluBw),
  ("slice_bw_impl", K.sliceBw),
  ("pick_bw_impl", K.pickBw),
  ("batch_pick_bw_impl", K.batchPickBw),
  ("batch_slice_bw_impl", K.batchSliceBw)]

/-- The calls of `register_fw_u32_impl`, devices/naive.rs:132-136 (`srt`: the sorting algorithm of std). -/
def Naive.u32Regs (srt : (Nat → Nat → Bool) → List Nat → List Nat) : List (String × U32K α) := [
  ("argmax_impl", fun p xs u _ y => K.argext (fun v t => Flt.gt v t) p xs u y),
  ("argmin_impl", fun p xs u _ y => K.argext (fun v t => Flt.gt t v) p xs u y),
  ("argsort_impl", fun p xs u _ y => K.argsort srt p xs u y)]

/-- The call of `register_fw_f32_impl`, devices/naive.rs:99-102. -/
def Naive.f32Regs : List (String × F32K α) := [
  ("tensor_to_vector_impl", fun p xs _ _ y => K.tensorToVector p xs y)]

/-- `Naive::new`, devices/naive.rs:80-311.  (The four kinds of calls, which go to different tables, are listed separately.) -/
def Naive.new (r : Rng α) (srt : (Nat → Nat → Bool) → List Nat → List Nat) : DevTable α :=
  let t := (Naive.fwRegs r).foldl (fun t a => t.registerFw a.1 a.2) DevTable.empty
  let t := (Naive.u32Regs srt).foldl (fun t a => t.registerU32 a.1 a.2) t
  let t := Naive.f32Regs.foldl (fun t a => t.registerF32 a.1 a.2) t
  Naive.bwRegs.foldl (fun t a => t.registerBw a.1 a.2) t

end

/-! ## The device functions, on a device with given tables -/

/-- The name each forward device function passes to `call_fw_impl`: arithmetic/device.rs:64-99, basic/device.rs:135-150, 173-187, 196-234,
260-294, 355-393, 415-456. -/
def FwOp.str : FwOp α → String
  | .un .neg => "neg_fw_impl"
  | .un .sqrt => "sqrt_fw_impl"
  | .un .abs => "abs_fw_impl"
  | .un .sin => "sin_fw_impl"
  | .un .cos => "cos_fw_impl"
  | .un .tan => "tan_fw_impl"
  | .un .exp => "exp_fw_impl"
  | .un .ln => "ln_fw_impl"
  | .un .tanh => "tanh_fw_impl"
  | .un .sigmoid => "sigmoid_fw_impl"
  | .un .softplus => "softplus_fw_impl"
  | .cn .add _ => "add_const_fw_impl"
  | .cn .subL _ => "sub_const_l_fw_impl"
  | .cn .subR _ => "sub_const_r_fw_impl"
  | .cn .mul _ => "mul_const_fw_impl"
  | .cn .divL _ => "div_const_l_fw_impl"
  | .cn .divR _ => "div_const_r_fw_impl"
  | .cn .powfL _ => "powf_const_l_fw_impl"
  | .cn .powfR _ => "powf_const_r_fw_impl"
  | .cn .prelu _ => "prelu_fw_impl"
  | .cn .elu _ => "elu_fw_impl"
  | .bi .add => "add_fw_impl"
  | .bi .sub => "sub_fw_impl"
  | .bi .mul => "mul_fw_impl"
  | .bi .div => "div_fw_impl"
  | .bi .powf => "powf_fw_impl"
  | .sc .add => "add_scalar_fw_impl"
  | .sc .subL => "sub_scalar_l_fw_impl"
  | .sc .subR => "sub_scalar_r_fw_impl"
  | .sc .mul => "mul_scalar_fw_impl"
  | .sc .divL => "div_scalar_l_fw_impl"
  | .sc .divR => "div_scalar_r_fw_impl"
  | .sc .powfL => "powf_scalar_l_fw_impl"
  | .sc .powfR => "powf_scalar_r_fw_impl"
  | .powi _ => "powi_fw_impl"
  | .sum _ => "sum_fw_impl"
  | .max _ => "max_fw_impl"
  | .min _ => "min_fw_impl"
  | .logsumexp _ => "logsumexp_fw_impl"
  | .broadcast .. => "broadcast_fw_impl"
  | .matmul => "matmul_fw_impl"
  | .transpose => "transpose_fw_impl"
  | .triangularL _ => "triangular_l_fw_impl"
  | .triangularU _ => "triangular_u_fw_impl"
  | .slice .. => "slice_fw_impl"
  | .pick .. => "pick_fw_impl"
  | .concat _ => "concat_fw_impl"
  | .batchSum => "batch_sum_fw_impl"
  | .batchSlice .. => "batch_slice_fw_impl"
  | .batchPick _ => "batch_pick_fw_impl"
  | .batchConcat => "batch_concat_fw_impl"

/-- The name each backward device function passes to `call_bw_impl`: arithmetic/device.rs:65-97, basic/device.rs:152-169, 177-179,
189-192, 236-258, 296-351, 358-359, 395-413, 458-472 (there is no `softplus_bw`). -/
def BwOp.str : BwOp α → String
  | .un .neg => "neg_bw_impl"
  | .un .sqrt => "sqrt_bw_impl"
  | .un .abs => "abs_bw_impl"
  | .un .sin => "sin_bw_impl"
  | .un .cos => "cos_bw_impl"
  | .un .tan => "tan_bw_impl"
  | .un .exp => "exp_bw_impl"
  | .un .ln => "ln_bw_impl"
  | .un .tanh => "tanh_bw_impl"
  | .un .sigmoid => "sigmoid_bw_impl"
  | .un .softplus => "softplus_bw_impl"
  | .cn .add _ => "add_const_bw_impl"
  | .cn .subL _ => "sub_const_l_bw_impl"
  | .cn .subR _ => "sub_const_r_bw_impl"
  | .cn .mul _ => "mul_const_bw_impl"
  | .cn .divL _ => "div_const_l_bw_impl"
  | .cn .divR _ => "div_const_r_bw_impl"
  | .cn .powfL _ => "powf_const_l_bw_impl"
  | .cn .powfR _ => "powf_const_r_bw_impl"
  | .cn .prelu _ => "prelu_bw_impl"
  | .cn .elu _ => "elu_bw_impl"
  | .biA .add => "add_bw_a_impl"
  | .biA .sub => "sub_bw_a_impl"
  | .biA .mul => "mul_bw_a_impl"
  | .biA .div => "div_bw_a_impl"
  | .biA .powf => "powf_bw_a_impl"
  | .biB .add => "add_bw_b_impl"
  | .biB .sub => "sub_bw_b_impl"
  | .biB .mul => "mul_bw_b_impl"
  | .biB .div => "div_bw_b_impl"
  | .biB .powf => "powf_bw_b_impl"
  | .powi _ => "powi_bw_impl"
  | .max _ => "max_bw_impl"
  | .min _ => "min_bw_impl"
  | .matmulA => "matmul_bw_a_impl"
  | .matmulB => "matmul_bw_b_impl"
  | .transpose => "transpose_bw_impl"
  | .triangularL _ => "triangular_l_bw_impl"
  | .triangularU _ => "triangular_u_bw_impl"
  | .slice .. => "slice_bw_impl"
  | .pick .. => "pick_bw_impl"
  | .batchSlice _ => "slice_bw_impl"
  | .batchPick _ => "pick_bw_impl"

namespace DevTable
variable [Flt α]

/-- The forward device functions (`Dev.fw`) on a device with the tables `T`. -/
def fwFn (T : DevTable α) (op : FwOp α) (p : Profile) (d : Nat) (m : Nat → α) (xs : List (Tensor α)) : Res (Tensor α) := do
  Dev.onAll d xs
  let s ← op.shape p (xs.map Tensor.shape)
  let y ← (Tensor.new d s).alloc p m
  T.callFw p op.str xs op.u32data op.f32data y

/-- The backward device functions (`Dev.bw`). -/
def bwFn (T : DevTable α) (op : BwOp α) (p : Profile) (d : Nat) (m : Mem α) (xs ys : List (Tensor α)) (gy gx : Tensor α) : Res (Tensor α) := do
  Dev.onAll d xs
  Dev.onAll d ys
  gy.onDev d
  gx.onDev d
  op.check p (xs.map Tensor.shape) (ys.map Tensor.shape) gy.shape gx.shape
  T.callBw p m op.str xs ys [gy] op.u32data op.f32data gx

/-- `add_assign`, arithmetic/device.rs:47-51. -/
def addAssign (T : DevTable α) (p : Profile) (d : Nat) (x y : Tensor α) : Res (Tensor α) := do
  x.onDev d
  y.onDev d
  T.callFw p "add_assign_impl" [x] [] [] y

/-- `sub_assign`, arithmetic/device.rs:53-57. -/
def subAssign (T : DevTable α) (p : Profile) (d : Nat) (x y : Tensor α) : Res (Tensor α) := do
  x.onDev d
  y.onDev d
  T.callFw p "sub_assign_impl" [x] [] [] y

/-- `mul_assign_const`, arithmetic/device.rs:59-62. -/
def mulAssignConst (T : DevTable α) (p : Profile) (d : Nat) (k : α) (y : Tensor α) : Res (Tensor α) := do
  y.onDev d
  T.callFw p "mul_assign_const_impl" [] [] [k] y

/-- `reset_tensor`, device.rs:162-164. -/
def resetTensor (T : DevTable α) (p : Profile) (x : Tensor α) (k : α) : Res (Tensor α) := T.callFw p "reset_tensor_impl" [] [] [k] x

/-- `reset_tensor_by_slice`, device.rs:166-169. -/
def resetTensorBySlice (T : DevTable α) (p : Profile) (x : Tensor α) (values : List α) : Res (Tensor α) := do
  let size ← x.shape.sizeU p
  check (size = values.length)
  T.callFw p "reset_tensor_by_slice_impl" [] [] values x

/-- `reset_tensor_by_tensor`, device.rs:171-176. -/
def resetTensorByTensor (T : DevTable α) (p : Profile) (x source : Tensor α) : Res (Tensor α) := do
  check (x.valid = true)
  check (source.valid = true)
  let a ← x.shape.sizeU p
  let b ← source.shape.sizeU p
  check (a = b)
  T.callFw p "reset_tensor_by_tensor_impl" [source] [] [] x

/-- `tensor_to_vector`, device.rs:178-182. -/
def tensorToVector (T : DevTable α) (p : Profile) (x : Tensor α) : Res (List α) := do
  let size ← x.shape.sizeU p
  T.callF32 p "tensor_to_vector_impl" [x] [] [] (List.replicate size 0)

/-- `tensor_to_float`, device.rs:184-189. -/
def tensorToFloat (T : DevTable α) (p : Profile) (x : Tensor α) : Res α := do
  let size ← x.shape.sizeU p
  check (size = 1)
  let ret ← T.callF32 p "tensor_to_vector_impl" [x] [] [] [0]
  ix ret 0

/-- `argmax`, basic/device.rs:112-117. -/
def argmax (T : DevTable α) (p : Profile) (d : Nat) (x : Tensor α) (dim : Nat) : Res (List Nat) := do
  x.onDev d
  let size ← x.shape.sizeU p
  let n ← Dev.divU size (x.shape.get dim)
  T.callU32 p "argmax_impl" [x] [dim] [] (List.replicate n 0)

/-- `argmin`, basic/device.rs:119-124. -/
def argmin (T : DevTable α) (p : Profile) (d : Nat) (x : Tensor α) (dim : Nat) : Res (List Nat) := do
  x.onDev d
  let size ← x.shape.sizeU p
  let n ← Dev.divU size (x.shape.get dim)
  T.callU32 p "argmin_impl" [x] [dim] [] (List.replicate n 0)

/-- `argsort`, basic/device.rs:126-131. -/
def argsort (T : DevTable α) (p : Profile) (d : Nat) (x : Tensor α) (dim : Nat) : Res (List Nat) := do
  x.onDev d
  let size ← x.shape.sizeU p
  T.callU32 p "argsort_impl" [x] [dim] [] (List.replicate size 0)

/-- `random_bernoulli`, functions/random/device.rs:10-15. -/
def randomBernoulli (T : DevTable α) (p : Profile) (d : Nat) (m : Nat → α) (s : Shape) (k : α) : Res (Tensor α) := do
  let y ← (Tensor.new d s).alloc p m
  T.callFw p "random_bernoulli_impl" [] [] [k] y

/-- `random_normal`, functions/random/device.rs:17-22. -/
def randomNormal (T : DevTable α) (p : Profile) (d : Nat) (m : Nat → α) (s : Shape) (mean sd : α) : Res (Tensor α) := do
  let y ← (Tensor.new d s).alloc p m
  T.callFw p "random_normal_impl" [] [] [mean, sd] y

/-- `random_uniform`, functions/random/device.rs:24-35. -/
def randomUniform (T : DevTable α) (p : Profile) (d : Nat) (m : Nat → α) (s : Shape) (lower upper : α) : Res (Tensor α) := do
  let y ← (Tensor.new d s).alloc p m
  T.callFw p "random_uniform_impl" [] [] [lower, upper] y

end DevTable
end Verif
