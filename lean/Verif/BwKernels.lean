import Verif.Device

/-!
# Model of the backward kernels in `prima_undine/src/devices/naive/*.rs` and of the backward device functions

The output `gx` is accumulated into; the kernels return it with its new contents.  Only dereferences are checked against the
buffer sizes (`rd`, `upd`), not the formation of pointers.
-/

namespace Verif
open Res

/-- `FunctionBwImpl::call`, device_impl.rs:16-27: (profile, stale memory for temporaries, xs, ys, gys, u32data, f32data, gx). -/
abbrev BwK (α : Type) :=
  Profile → Mem α → List (Tensor α) → List (Tensor α) → List (Tensor α) → List Nat → List α → Tensor α → Res (Tensor α)

section
variable {α : Type} [Flt α]

/-- The closures of the `*_bw_impl` kernels made by `define_naive_bw_x_impl!`. -/
def Un.bwFn : Un → Option (α → α → α → α)
  | .neg => none
  | .sqrt => some Scalar.sqrtBw
  | .abs => some Scalar.absBw
  | .sin => some Scalar.sinBw
  | .cos => some Scalar.cosBw
  | .tan => some Scalar.tanBw
  | .exp => some Scalar.expBw
  | .ln => some Scalar.lnBw
  | .tanh => some Scalar.tanhBw
  | .sigmoid => some Scalar.sigmoidBw
  | .softplus => none

/-- The closures of the kernels made by `define_naive_bw_const_impl!` (x, y, gy, k). -/
def Cn.bwFn : Cn → α → α → α → α → α
  | .add => Scalar.addConstBw
  | .subL => Scalar.subConstLBw
  | .subR => Scalar.subConstRBw
  | .mul => Scalar.mulConstBw
  | .divL => Scalar.divConstLBw
  | .divR => Scalar.divConstRBw
  | .powfL => Scalar.powfConstLBw
  | .powfR => Scalar.powfConstRBw
  | .prelu => Scalar.preluBw
  | .elu => Scalar.eluBw

end

/-- Names of backward kernels used or registered (`"<name>_bw_impl"`). -/
inductive BwName where
  | un (u : Un) | cn (c : Cn) | biA (b : Bi) | biB (b : Bi)
  | powi | max | min | matmulA | matmulB | transpose | triangularL | triangularU
  | slice | pick | batchSlice | batchPick | flip | permuteDims
  deriving DecidableEq, Repr

namespace K
variable {α : Type}

/-- `define_naive_bw_x_impl!`, naive/common.rs:45-74. -/
def bwX [Add α] (op : α → α → α → α) : BwK α := fun p _ xs ys gys _ _ gx => do
  let x ← ix xs 0
  let y ← ix ys 0
  let gy ← ix gys 0
  let size ← gy.shape.sizeU p
  let px ← x.ptr
  let py ← y.ptr
  let pgy ← gy.ptr
  let pgx ← gx.ptr
  let pgx ← loop size (fun i pgx => do
    let a ← rd px i
    let b ← rd py i
    let g ← rd pgy i
    upd pgx i (fun w => w + op a b g)) pgx
  ok { gx with buf := some pgx }

/-- `define_naive_bw_const_impl!`, naive/common.rs:138-168. -/
def bwConst [Add α] (op : α → α → α → α → α) : BwK α := fun p _ xs ys gys _ f32data gx => do
  let x ← ix xs 0
  let y ← ix ys 0
  let gy ← ix gys 0
  let k ← ix f32data 0
  let size ← gy.shape.sizeU p
  let px ← x.ptr
  let py ← y.ptr
  let pgy ← gy.ptr
  let pgx ← gx.ptr
  let pgx ← loop size (fun i pgx => do
    let a ← rd px i
    let b ← rd py i
    let g ← rd pgy i
    upd pgx i (fun w => w + op a b g k)) pgx
  ok { gx with buf := some pgx }

/-- `n - 1` for an i32: overflow at the minimum panics (debug) or wraps. -/
def decI32 (p : Profile) (n : Int) : Res Int :=
  if n = -2147483648 then (match p with | .debug => panic | .release => ok 2147483647) else ok (n - 1)

/-- `PowiBwImpl`, powi.rs:21-45 (`n - 1` is evaluated in each iteration). -/
def powiBw [Flt α] : BwK α := fun p _ xs _ gys u32data _ gx => do
  let x ← ix xs 0
  let gy ← ix gys 0
  let n0 ← ix u32data 0
  let n := powiFw.asI32 n0
  let size ← gy.shape.sizeU p
  let px ← x.ptr
  let pgy ← gy.ptr
  let pgx ← gx.ptr
  let pgx ← loop size (fun i pgx => do
    let g ← rd pgy i
    let a ← rd px i
    let n1 ← decI32 p n
    upd pgx i (fun w => w + g * Flt.ofInt n * Flt.powi a n1)) pgx
  ok { gx with buf := some pgx }

/-- The loop shared by the two-operand backward kernels: `bs` batches of `volume` elements; per batch the source pointers advance by
`s1`, `s2`, `s3` and the destination by `sg`.  State: offsets, then the destination buffer. -/
def bwLoop (bs volume : Nat) (p1 : List α) (s1 : Nat) (p2 : List α) (s2 : Nat) (p3 : List α) (s3 : Nat) (sg : Nat)
    (op : α → α → α → α → α) (pg : List α) : Res (List α) := do
  let st ← iter bs (fun (st : (Nat × Nat × Nat × Nat) × List α) => do
    let pg ← loop volume (fun i pg => do
      let u ← rd p1 (st.1.1 + i)
      let v ← rd p2 (st.1.2.1 + i)
      let w ← rd p3 (st.1.2.2.1 + i)
      upd pg (st.1.2.2.2 + i) (fun acc => op u v w acc)) st.2
    ok ((st.1.1 + s1, st.1.2.1 + s2, st.1.2.2.1 + s3, st.1.2.2.2 + sg), pg)) ((0, 0, 0, 0), pg)
  ok st.2

/-- `AddBwAImpl`, `AddBwBImpl`, add.rs:6-62, and `SubBwAImpl`, `SubBwBImpl`, sub.rs:6-62: `g[i] op= gy[i]` (only `gy` is read: it is
passed as all three sources). -/
def addSubBw (op : α → α → α) : BwK α := fun _ _ _ _ gys _ _ g => do
  let gy ← ix gys 0
  let volume := gy.shape.volume
  let shift := if g.shape.batch = 1 then 0 else volume
  let pgy ← gy.ptr
  let pg ← g.ptr
  let pg ← bwLoop gy.shape.batch volume pgy volume pgy volume pgy volume shift (fun u _ _ acc => op acc u) pg
  ok { g with buf := some pg }

/-- `MulBwAImpl` (`o = 1`, the other operand is b), mul.rs:6-37; `MulBwBImpl` (`o = 0`), mul.rs:39-70; `DivBwAImpl` (`o = 1`),
div.rs:6-37: `g[i] += op(other[i], gy[i])`. -/
def mulDivBw [Add α] (o : Nat) (op : α → α → α) : BwK α := fun _ _ xs _ gys _ _ g => do
  let other ← ix xs o
  let gy ← ix gys 0
  let volume := gy.shape.volume
  let gShift := if g.shape.batch = 1 then 0 else volume
  let oShift := if other.shape.batch = 1 then 0 else volume
  let po ← other.ptr
  let pgy ← gy.ptr
  let pg ← g.ptr
  let pg ← bwLoop gy.shape.batch volume po oShift pgy volume pgy volume gShift (fun u v _ acc => acc + op u v) pg
  ok { g with buf := some pg }

/-- `DivBwBImpl`, div.rs:39-72: `gb[i] -= gy[i] * y[i] / b[i]`. -/
def divBwB [Flt α] : BwK α := fun _ _ xs ys gys _ _ gb => do
  let b ← ix xs 1
  let y ← ix ys 0
  let gy ← ix gys 0
  let volume := gy.shape.volume
  let bShift := if gb.shape.batch = 1 then 0 else volume
  let pb ← b.ptr
  let py ← y.ptr
  let pgy ← gy.ptr
  let pgb ← gb.ptr
  let pgb ← bwLoop gy.shape.batch volume pb bShift py volume pgy volume bShift (fun b y g acc => acc - g * y / b) pgb
  ok { gb with buf := some pgb }

/-- `PowfBwAImpl`, powf.rs:6-40: `ga[i] += gy[i] * b[i] * a[i].powf(b[i] - 1)`. -/
def powfBwA [Flt α] : BwK α := fun _ _ xs _ gys _ _ ga => do
  let a ← ix xs 0
  let b ← ix xs 1
  let gy ← ix gys 0
  let volume := gy.shape.volume
  let aShift := if a.shape.batch = 1 then 0 else volume
  let bShift := if b.shape.batch = 1 then 0 else volume
  let pa ← a.ptr
  let pb ← b.ptr
  let pgy ← gy.ptr
  let pga ← ga.ptr
  let pga ← bwLoop gy.shape.batch volume pa aShift pb bShift pgy volume aShift
    (fun a b g acc => acc + g * b * Flt.powf a (b - 1)) pga
  ok { ga with buf := some pga }

/-- `PowfBwBImpl`, powf.rs:42-76: `gb[i] += gy[i] * a[i].ln() * y[i]`. -/
def powfBwB [Flt α] : BwK α := fun _ _ xs ys gys _ _ gb => do
  let a ← ix xs 0
  let y ← ix ys 0
  let gy ← ix gys 0
  let volume := y.shape.volume
  let aShift := if a.shape.batch = 1 then 0 else volume
  let bShift := if gb.shape.batch = 1 then 0 else volume
  let pa ← a.ptr
  let py ← y.ptr
  let pgy ← gy.ptr
  let pgb ← gb.ptr
  let pgb ← bwLoop y.shape.batch volume pa aShift py volume pgy volume bShift (fun a y g acc => acc + g * Flt.ln a * y) pgb
  ok { gb with buf := some pgb }

/-- The inner loop of max.rs:59-65: the first position holding `val` (the loop breaks there). -/
def findEq [Flt α] (px : List α) (val : α) (skip : Nat) : Nat → Nat → Res (Option Nat)
  | 0, _ => ok none
  | n + 1, off => do
    let v ← rd px off
    if Flt.feq v val = true then ok (some off) else findEq px val skip n (off + skip)

/-- `MaxBwImpl`, max.rs:32-69, and `MinBwImpl`, min.rs:32-69 (same text). -/
def extBw [Flt α] : BwK α := fun p _ xs ys gys u32data _ gx => do
  let x ← ix xs 0
  let y ← ix ys 0
  let gy ← ix gys 0
  let dim ← ix u32data 0
  let n := x.shape.get dim
  let «repeat» ← y.shape.sizeU p
  let skip1 ← y.shape.lowerVolumeU p dim
  let skip2 := skip1 * n
  check («repeat» = 0 ∨ skip1 ≠ 0)       -- `i % skip1` in the loop
  let py ← y.ptr
  let px ← x.ptr
  let pgy ← gy.ptr
  let pgx ← gx.ptr
  let pgx ← loop «repeat» (fun i pgx => do
    let maxval ← rd py i
    let offset := i % skip1 + (i / skip1) * skip2
    let found ← findEq px maxval skip1 n offset
    match found with
    | none => ok pgx
    | some off => do
      let g ← rd pgy i
      upd pgx off (fun w => w + g)) pgx
  ok { gx with buf := some pgx }

/-- `*gx += &t`, arithmetic/tensor.rs:13-21: `self.device().add_assign(other, self)`. -/
def _root_.Verif.Tensor.addAssign [Flt α] (p : Profile) (gx t : Tensor α) : Res (Tensor α) := do
  let e ← gx.dev
  Dev.addAssign p e t gx

/-- `MatmulBwAImpl`, matmul.rs:56-72: `*ga += &gy.device().matmul_fw(gy, &b.device().transpose_fw(b))`. -/
def matmulBwA [Flt α] : BwK α := fun p m xs _ gys _ _ ga => do
  let b ← ix xs 1
  let gy ← ix gys 0
  let dg ← gy.dev
  let db ← b.dev
  let bt ← Dev.fw .transpose p db (m 0) [b]
  let t ← Dev.fw .matmul p dg (m 1) [gy, bt]
  ga.addAssign p t

/-- `MatmulBwBImpl`, matmul.rs:74-90: `*gb += &a.device().matmul_fw(&a.device().transpose_fw(a), gy)`. -/
def matmulBwB [Flt α] : BwK α := fun p m xs _ gys _ _ gb => do
  let a ← ix xs 0
  let gy ← ix gys 0
  let da ← a.dev
  let at' ← Dev.fw .transpose p da (m 0) [a]
  let t ← Dev.fw .matmul p da (m 1) [at', gy]
  gb.addAssign p t

/-- `TransposeBwImpl`, transpose.rs:36-50 (`Tensor::transpose`, basic/tensor.rs:103-105). -/
def transposeBw [Flt α] : BwK α := fun p m _ _ gys _ _ gx => do
  let gy ← ix gys 0
  let e ← gy.dev
  let t ← Dev.fw .transpose p e (m 0) [gy]
  gx.addAssign p t

/-- `TriangularLBwImpl`, triangular_l.rs:29-44, `TriangularUBwImpl`, triangular_u.rs:29-44. -/
def triangularBw [Flt α] (lower : Bool) : BwK α := fun p m _ _ gys u32data _ gx => do
  let gy ← ix gys 0
  let k ← ix u32data 0
  let e ← gy.dev
  let t ← Dev.fw (if lower then .triangularL k else .triangularU k) p e (m 0) [gy]
  gx.addAssign p t

/-- `SliceBwImpl`, slice.rs:31-78.  State: (sp, buffer). -/
def sliceBw [Add α] : BwK α := fun p _ _ _ gys u32data _ gx => do
  let gy ← ix gys 0
  let dim ← ix u32data 0
  let offset ← ix u32data 1
  let sy := gy.shape
  let sx := gx.shape
  let base ← sx.lowerVolumeU p dim
  let span := base * sy.get dim
  let skip := base * sx.get dim
  check (skip ≠ 0)                       -- division by zero
  let «repeat» := sx.volume / skip
  let bs := max sx.batch sy.batch
  let bSkipD := if sx.hasBatch then sx.volume else 0
  let bSkipS := if sy.hasBatch then sy.volume else 0
  let src ← gy.ptr
  let dest ← gx.ptr
  let dest ← loop bs (fun batch dest => do
    let st ← loop «repeat» (fun i (st : Nat × List α) =>
      loop span (fun j (st : Nat × List α) => do
        let g ← rd src st.1
        let dest ← upd st.2 (base * offset + bSkipD * batch + skip * i + j) (fun w => w + g)
        ok (st.1 + 1, dest)) st) (bSkipS * batch, dest)
    ok st.2) dest
  ok { gx with buf := some dest }

/-- `PickBwImpl`, pick.rs:38-77 (`&u32data[1..]` panics on an empty slice, but `u32data[0]` has panicked before). -/
def pickBw [Add α] : BwK α := fun p _ _ _ gys u32data _ gx => do
  let gy ← ix gys 0
  let dim ← ix u32data 0
  let ids := u32data.drop 1
  let bs := gy.shape.batch
  let skipX := if gx.shape.hasBatch then gx.shape.volume else 0
  let skipI := if 1 < ids.length then 1 else 0
  let base ← gy.shape.lowerVolumeU p dim
  let skip := base * gx.shape.get dim
  check (base ≠ 0)                       -- division by zero
  let «repeat» := gy.shape.volume / base
  let src ← gy.ptr
  let pgx ← gx.ptr
  let st ← loop bs (fun batch (st : Nat × List α) => do
    let id ← ix ids (batch * skipI)
    let dest := batch * skipX + base * id
    loop «repeat» (fun i st => do
      let dp := dest + skip * i
      loop base (fun j (st : Nat × List α) => do
        let g ← rd src st.1
        let pgx ← upd st.2 (dp + j) (fun w => w + g)
        ok (st.1 + 1, pgx)) st) st) (0, pgx)
  ok { gx with buf := some st.2 }

/-- `BatchPickBwImpl`, batch_pick.rs:26-53. -/
def batchPickBw [Add α] : BwK α := fun _ _ _ _ gys u32data _ gx => do
  let gy ← ix gys 0
  let ids := u32data
  let bs := gy.shape.batch
  let span := gx.shape.volume
  let pgy ← gy.ptr
  let pgx ← gx.ptr
  let pgx ← loop bs (fun batch pgx => do
    let src := span * batch
    let id ← ix ids batch
    let dest := span * id
    loop span (fun i pgx => do
      let g ← rd pgy (src + i)
      upd pgx (dest + i) (fun w => w + g)) pgx) pgx
  ok { gx with buf := some pgx }

/-- `BatchSliceBwImpl`, batch_slice.rs:22-45. -/
def batchSliceBw [Add α] : BwK α := fun _ _ _ _ gys u32data _ gx => do
  let gy ← ix gys 0
  let offset ← ix u32data 0
  let volume := gy.shape.volume
  let «repeat» := gy.shape.batch
  let pgy ← gy.ptr
  let pgx ← gx.ptr
  let dest := volume * offset
  let pgx ← loop (volume * «repeat») (fun i pgx => do
    let g ← rd pgy i
    upd pgx (dest + i) (fun w => w + g)) pgx
  ok { gx with buf := some pgx }

/-- `FlipBwImpl`, flip.rs:27-55. -/
def flipBw [Add α] : BwK α := fun p _ _ _ gys u32data _ gx => do
  let gy ← ix gys 0
  let dim ← ix u32data 0
  let s := gx.shape
  let n := s.get dim
  let skip ← s.lowerVolumeU p dim
  let size ← s.sizeU p
  let r := size / n
  check (r = 0 ∨ skip ≠ 0)            -- `i % skip` in the loop
  let pgy ← gy.ptr
  let pgx ← gx.ptr
  let pgx ← loop n (fun j pgx => loop r (fun i pgx => do
    let offset := i * n - i % skip * (n - 1)
    let g ← rd pgy (offset + (n - j - 1) * skip)
    upd pgx (offset + j * skip) (fun w => w + g)) pgx) pgx
  ok { gx with buf := some pgx }

/-- `PermuteDimsBwImpl`, permute_dims.rs:44-89. -/
def permuteBw [Add α] : BwK α := fun _ _ _ _ gys u32data _ gx => do
  let gy ← ix gys 0
  let perm := u32data
  let volume := gx.shape.volume
  let bs := gx.shape.batch
  let strides ← permStrides gx.shape gy.shape perm
  let src ← gy.ptr
  let dest ← gx.ptr
  let st ← iter bs (fun (st : (Nat × Nat) × List α) => do
    let dest ← loop volume (fun i dest => do
      let j ← permPos strides.1 strides.2 i
      let g ← rd src (st.1.1 + j)
      upd dest (st.1.2 + i) (fun w => w + g)) st.2
    ok ((st.1.1 + volume, st.1.2 + volume), dest)) ((0, 0), dest)
  ok { gx with buf := some st.2 }

end K

section
variable {α : Type} [Flt α]

/-- The backward kernels registered by `Naive::new`, devices/naive.rs:80-311: neither `"neg_bw_impl"` nor
`"softplus_bw_impl"` is. -/
def Naive.bwImpl : BwName → Option (BwK α)
  | .un u => u.bwFn.map K.bwX
  | .cn c => some (K.bwConst c.bwFn)
  | .biA .add => some (K.addSubBw (fun acc g => acc + g))
  | .biA .sub => some (K.addSubBw (fun acc g => acc + g))
  | .biA .mul => some (K.mulDivBw 1 (fun b g => b * g))
  | .biA .div => some (K.mulDivBw 1 (fun b g => g / b))
  | .biA .powf => some K.powfBwA
  | .biB .add => some (K.addSubBw (fun acc g => acc + g))
  | .biB .sub => some (K.addSubBw (fun acc g => acc - g))
  | .biB .mul => some (K.mulDivBw 0 (fun a g => a * g))
  | .biB .div => some K.divBwB
  | .biB .powf => some K.powfBwB
  | .powi => some K.powiBw
  | .max => some K.extBw
  | .min => some K.extBw
  | .matmulA => some K.matmulBwA
  | .matmulB => some K.matmulBwB
  | .transpose => some K.transposeBw
  | .triangularL => some (K.triangularBw true)
  | .triangularU => some (K.triangularBw false)
  | .slice => some K.sliceBw
  | .pick => some K.pickBw
  | .batchSlice => some K.batchSliceBw
  | .batchPick => some K.batchPickBw
  | .flip => some K.flipBw
  | .permuteDims => some K.permuteBw

/-- `Device::call_bw_impl`, device.rs:99-115: an unknown name panics. -/
def Dev.callBw (p : Profile) (m : Mem α) (n : BwName) (xs ys gys : List (Tensor α)) (u : List Nat) (f : List α) (gx : Tensor α) :
    Res (Tensor α) := do
  let k ← unwrap (Naive.bwImpl n)
  k p m xs ys gys u f gx

end

/-- The backward functions of `ArithmeticDeviceFunctions` and `BasicDeviceFunctions` with their non-tensor arguments
(`un .softplus` does not exist in the API).
Un: arithmetic/device.rs:65, basic/device.rs:168-169, 177-179, 189-192.
Cn: arithmetic/device.rs:71, 78, 80, 88, 95, 97, basic/device.rs:154-155, 358-359.
biA/biB: arithmetic/device.rs:68-69, 75-76, 85-86, 92-93, basic/device.rs:152-153.
The others: basic/device.rs:157 (powi), 236-258 (max, min), 296-351 (matrix), 395-413 (slice, pick), 458-472 (batch). -/
inductive BwOp (α : Type) where
  | un (u : Un)
  | cn (c : Cn) (k : α)
  | biA (b : Bi)
  | biB (b : Bi)
  | powi (k : Int)
  | max (dim : Nat)
  | min (dim : Nat)
  | matmulA
  | matmulB
  | transpose
  | triangularL (k : Nat)
  | triangularU (k : Nat)
  | slice (dim lower : Nat)
  | pick (ids : List Nat) (dim : Nat)
  | batchSlice (lower : Nat)
  | batchPick (ids : List Nat)
  deriving DecidableEq, Repr

namespace BwOp
variable {α : Type}

/-- The kernel name a function passes to `call_bw_impl`; `batch_slice_bw` and `batch_pick_bw` pass the names of `slice` and `pick`
(basic/device.rs:463, 470). -/
def name : BwOp α → BwName
  | un u => .un u
  | cn c _ => .cn c
  | biA b => .biA b
  | biB b => .biB b
  | powi _ => .powi
  | max _ => .max
  | min _ => .min
  | matmulA => .matmulA
  | matmulB => .matmulB
  | transpose => .transpose
  | triangularL _ => .triangularL
  | triangularU _ => .triangularU
  | slice .. => .slice
  | pick .. => .pick
  | batchSlice _ => .slice
  | batchPick _ => .pick

/-- The `u32data` argument. -/
def u32data : BwOp α → List Nat
  | powi k => [asU32 k]
  | max dim => [dim]
  | min dim => [dim]
  | triangularL k => [k]
  | triangularU k => [k]
  | slice dim lower => [dim, lower]
  | pick ids dim => dim :: ids
  | batchSlice lower => [lower]
  | batchPick ids => ids
  | _ => []

/-- The `f32data` argument. -/
def f32data : BwOp α → List α
  | cn _ k => [k]
  | _ => []

/-- The assertions on shapes: `xs`, `ys` the shapes of the operands and results passed, then gy and gx.
functions.rs:14-44, 58-71, 85-98; basic/device.rs:157-166, 236-258, 296-351, 395-413, 458-472. -/
def check (p : Profile) : BwOp α → List Shape → List Shape → Shape → Shape → Res Unit
  | un _, [x], [y], gy, gx => do Verif.check (x = gx); Verif.check (y = gy); Verif.check (x = y)
  | cn _ _, [x], [y], gy, gx => do Verif.check (x = gx); Verif.check (y = gy); Verif.check (x = y)
  | powi _, [x], [y], gy, gx => do Verif.check (x = gx); Verif.check (y = gy); Verif.check (x = y)
  | biA _, [a, b], [y], gy, gx => do
    Verif.check (a = gx); Verif.check (y = gy)
    let s ← ShapeOps.elementwise a b
    Verif.check (y = s)
  | biB _, [a, b], [y], gy, gx => do
    Verif.check (b = gx); Verif.check (y = gy)
    let s ← ShapeOps.elementwise a b
    Verif.check (y = s)
  | max dim, [x], [y], gy, gx => do
    Verif.check (x = gx); Verif.check (y = gy)
    let s ← x.resizeDim p dim 1
    Verif.check (y = s)
  | min dim, [x], [y], gy, gx => do
    Verif.check (x = gx); Verif.check (y = gy)
    let s ← x.resizeDim p dim 1
    Verif.check (y = s)
  | matmulA, [a, b], [y], gy, gx => do
    Verif.check (a = gx); Verif.check (y = gy)
    let s ← ShapeOps.matmul p a b
    Verif.check (y = s)
  | matmulB, [a, b], [y], gy, gx => do
    Verif.check (b = gx); Verif.check (y = gy)
    let s ← ShapeOps.matmul p a b
    Verif.check (y = s)
  | transpose, [x], [y], gy, gx => do
    Verif.check (x = gx); Verif.check (y = gy)
    let s ← ShapeOps.transpose p x
    Verif.check (y = s)
  | triangularL _, [x], [y], gy, gx => do Verif.check (x = gx); Verif.check (y = gy); Verif.check (y = x)
  | triangularU _, [x], [y], gy, gx => do Verif.check (x = gx); Verif.check (y = gy); Verif.check (y = x)
  | slice dim lower, [], [], gy, gx => do
    let upper ← uadd p lower (gy.get dim)
    let s ← ShapeOps.slice p gx dim lower upper
    Verif.check (s = gy)
  | pick ids dim, [], [], gy, gx => do
    let s ← ShapeOps.pick p gx ids dim
    Verif.check (s = gy)
  | batchSlice lower, [], [], gy, gx => do
    let upper ← uadd p lower gy.batch
    let s ← ShapeOps.batchSlice gx lower upper
    Verif.check (s = gy)
  | batchPick ids, [], [], gy, gx => do
    let s ← ShapeOps.batchPick gx ids
    Verif.check (s = gy)
  | _, _, _, _, _ => panic

end BwOp

/-- Every backward device function on device `d`: check devices and shapes, run the kernel, which accumulates into `gx`. -/
def Dev.bw {α : Type} [Flt α] (op : BwOp α) (p : Profile) (d : Nat) (m : Mem α) (xs ys : List (Tensor α)) (gy gx : Tensor α) :
    Res (Tensor α) := do
  Dev.onAll d xs
  Dev.onAll d ys
  gy.onDev d
  gx.onDev d
  op.check p (xs.map Tensor.shape) (ys.map Tensor.shape) gy.shape gx.shape
  Dev.callBw p m op.name xs ys [gy] op.u32data op.f32data gx

end Verif
