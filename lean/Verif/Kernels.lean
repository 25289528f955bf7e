import Verif.Tensor

/-!
# Model of the forward kernels in `prima_undine/src/devices/naive/*.rs`

`xs`, `u32data`, `f32data` are the argument slices of `FunctionFwImpl::call`; the only output tensor `ys[0]` is `y`
(every caller passes exactly one).  The kernel returns the output tensor with its new contents.  Raw pointers that the code advances
are offsets carried as loop state.  `usize` arithmetic is exact (all values are bounded by products of u32s).
-/

namespace Verif
open Res

/-- `FunctionFwImpl::call`, device_impl.rs:12-14. -/
abbrev FwK (α : Type) := Profile → List (Tensor α) → List Nat → List α → Tensor α → Res (Tensor α)

/-- `for _ in 0..n { s = f(s) }` (no index needed). -/
abbrev iter (n : Nat) (f : σ → Res σ) (s : σ) : Res σ := loop n (fun _ => f) s

/-- `v[i] = x` on a slice or Vec: panics outside. -/
def wx (l : List α) (i : Nat) (v : α) : Res (List α) :=
  if i < l.length then ok (l.set i v) else panic

namespace K
variable {α : Type}

/-- `define_naive_fw_x_impl!`, naive/common.rs:19-43. -/
def fwX (op : α → α) : FwK α := fun p xs _ _ y => do
  let x ← ix xs 0
  let size ← y.shape.sizeU p
  let px ← x.ptr
  let py ← y.ptr
  let py ← loop size (fun i py => do
    let a ← rd px i
    wr py i (op a)) py
  ok { y with buf := some py }

/-- `define_naive_fw_ab_impl!`, naive/common.rs:76-109.  Loop state: offsets of pa, pb, py, then the buffer of y. -/
def fwAb (op : α → α → α) : FwK α := fun _ xs _ _ y => do
  let a ← ix xs 0
  let b ← ix xs 1
  let volume := y.shape.volume
  let aShift := if a.shape.batch = 1 then 0 else volume
  let bShift := if b.shape.batch = 1 then 0 else volume
  let pa ← a.ptr
  let pb ← b.ptr
  let py ← y.ptr
  let st ← iter y.shape.batch (fun (st : (Nat × Nat × Nat) × List α) => do
    let py ← loop volume (fun i py => do
      let u ← rd pa (st.1.1 + i)
      let v ← rd pb (st.1.2.1 + i)
      wr py (st.1.2.2 + i) (op u v)) st.2
    ok ((st.1.1 + aShift, st.1.2.1 + bShift, st.1.2.2 + volume), py)) ((0, 0, 0), py)
  ok { y with buf := some st.2 }

/-- `define_naive_fw_const_impl!`, naive/common.rs:111-136. -/
def fwConst (op : α → α → α) : FwK α := fun p xs _ f32data y => do
  let x ← ix xs 0
  let k ← ix f32data 0
  let size ← y.shape.sizeU p
  let px ← x.ptr
  let py ← y.ptr
  let py ← loop size (fun i py => do
    let a ← rd px i
    wr py i (op a k)) py
  ok { y with buf := some py }

/-- `define_naive_fw_scalar_impl!`, naive/common.rs:170-203. -/
def fwScalar (op : α → α → α) : FwK α := fun _ xs _ _ y => do
  let x ← ix xs 0
  let k ← ix xs 1
  let volume := y.shape.volume
  let xShift := if x.shape.batch = 1 then 0 else volume
  let kShift := if k.shape.batch = 1 then 0 else 1
  let px ← x.ptr
  let pk ← k.ptr
  let py ← y.ptr
  let st ← iter y.shape.batch (fun (st : (Nat × Nat × Nat) × List α) => do
    let py ← loop volume (fun i py => do
      let u ← rd px (st.1.1 + i)
      let v ← rd pk st.1.2.1
      wr py (st.1.2.2 + i) (op u v)) st.2
    ok ((st.1.1 + xShift, st.1.2.1 + kShift, st.1.2.2 + volume), py)) ((0, 0, 0), py)
  ok { y with buf := some st.2 }

/-- `PowiFwImpl`, powi.rs:4-19 (`u32data[0] as i32`). -/
def powiFw [Flt α] : FwK α := fun p xs u32data _ y => do
  let x ← ix xs 0
  let n ← ix u32data 0
  let size ← y.shape.sizeU p
  let px ← x.ptr
  let py ← y.ptr
  let py ← loop size (fun i py => do
    let a ← rd px i
    wr py i (Flt.powi a (asI32 n))) py
  ok { y with buf := some py }
where
  /-- `n as i32` for a u32. -/
  asI32 (n : Nat) : Int := if n < 2147483648 then (n : Int) else (n : Int) - 4294967296

/-- `ResetTensorImpl`, reset_tensor.rs:5-18. -/
def resetTensor : FwK α := fun p _ _ f32data y => do
  let k ← ix f32data 0
  let size ← y.shape.sizeU p
  let py ← y.ptr
  let py ← loop size (fun i py => wr py i k) py
  ok { y with buf := some py }

/-- `ResetTensorBySliceImpl`, reset_tensor.rs:20-33. -/
def resetBySlice : FwK α := fun p _ _ f32data y => do
  let size ← y.shape.sizeU p
  let py ← y.ptr
  let py ← loop size (fun i py => do
    let v ← ix f32data i
    wr py i v) py
  ok { y with buf := some py }

/-- `TensorToVectorImpl`, tensor_to_vector.rs:4-17, with the output vector `ys`. -/
def tensorToVector (p : Profile) (xs : List (Tensor α)) (ys : List α) : Res (List α) := do
  let x ← ix xs 0
  let size ← x.shape.sizeU p
  let px ← x.ptr
  loop size (fun i ys => do
    let v ← rd px i
    wx ys i v) ys

/-- `AddAssignImpl`, add_assign.rs:6-27, and `SubAssignImpl`, sub_assign.rs:6-27 (same text with `-=`). -/
def opAssign (op : α → α → α) : FwK α := fun _ xs _ _ y => do
  let x ← ix xs 0
  let volume := x.shape.volume
  let xSkip := if x.shape.hasBatch then volume else 0
  let ySkip := if y.shape.hasBatch then volume else 0
  let batch := max x.shape.batch y.shape.batch
  let px ← x.ptr
  let py ← y.ptr
  let st ← iter batch (fun (st : (Nat × Nat) × List α) => do
    let py ← loop volume (fun i py => do
      let v ← rd px (st.1.1 + i)
      upd py (st.1.2 + i) (fun w => op w v)) st.2
    ok ((st.1.1 + xSkip, st.1.2 + ySkip), py)) ((0, 0), py)
  ok { y with buf := some st.2 }

/-- `MulAssignConstImpl`, mul_assign.rs:4-17. -/
def mulAssignConst [Mul α] : FwK α := fun p _ _ f32data y => do
  let k ← ix f32data 0
  let size ← y.shape.sizeU p
  let py ← y.ptr
  let py ← loop size (fun i py => upd py i (fun w => w * k)) py
  ok { y with buf := some py }

/-- The common part of sum.rs:10-28, max.rs:10-29, min.rs:10-29, logsumexp.rs:10-32: for each output element compute
`fibre px n skip1 offset` from the position of the first element of the axis fibre. -/
def reduce (fibre : List α → Nat → Nat → Nat → Res α) : FwK α := fun p xs u32data _ y => do
  let x ← ix xs 0
  let dim ← ix u32data 0
  let n := x.shape.get dim
  let «repeat» ← y.shape.sizeU p
  let skip1 ← y.shape.lowerVolumeU p dim
  let skip2 := skip1 * n
  check («repeat» = 0 ∨ skip1 ≠ 0)       -- `i % skip1` in the loop
  let px ← x.ptr
  let py ← y.ptr
  let py ← loop «repeat» (fun i py => do
    let offset := i % skip1 + (i / skip1) * skip2
    let tmp ← fibre px n skip1 offset
    wr py i tmp) py
  ok { y with buf := some py }

/-- Inner loop of `SumFwImpl`, sum.rs:19-23.  State: (offset, tmp). -/
def sumFibre [Zero α] [Add α] (px : List α) (n skip1 offset : Nat) : Res α := do
  let st ← iter n (fun (st : Nat × α) => do
    let v ← rd px st.1
    ok (st.1 + skip1, st.2 + v)) (offset, 0)
  ok st.2

/-- Inner loop of `MaxFwImpl`, max.rs:19-25, and `MinFwImpl`, min.rs:19-25 (`better` is `>` resp. `<`). -/
def extFibre (better : α → α → Bool) (px : List α) (n skip1 offset : Nat) : Res α := do
  let tmp ← rd px offset
  let st ← iter n (fun (st : Nat × α) => do
    let v ← rd px st.1
    ok (st.1 + skip1, if better v st.2 then v else st.2)) (offset, tmp)
  ok st.2

/-- Inner loop of `LogsumexpFwImpl`, logsumexp.rs:19-28. -/
def lseFibre [Flt α] (px : List α) (n skip1 offset : Nat) : Res α := do
  let tmp ← rd px offset
  let st ← iter (n - 1) (fun (st : Nat × Flt.Wide α) => do
    let offset := st.1 + skip1
    let arg ← rd px offset
    ok (offset, Scalar.lseStep st.2 (Flt.up arg))) (offset, Flt.up tmp)
  ok (Flt.down st.2)

/-- `SumFwImpl`, sum.rs:4-28. -/
def sumFw [Zero α] [Add α] : FwK α := reduce sumFibre
/-- `MaxFwImpl`, max.rs:4-30. -/
def maxFw [Flt α] : FwK α := reduce (extFibre (fun v t => Flt.gt v t))
/-- `MinFwImpl`, min.rs:4-30. -/
def minFw [Flt α] : FwK α := reduce (extFibre (fun v t => Flt.gt t v))
/-- `LogsumexpFwImpl`, logsumexp.rs:4-33. -/
def logsumexpFw [Flt α] : FwK α := reduce lseFibre

/-- `ArgmaxImpl`, argmax.rs:4-32, and `ArgminImpl`, argmin.rs:4-32 (`better` is `>` resp. `<`); `ys` is the
output slice.  Inner state: (offset, best value, its index). -/
def argext (better : α → α → Bool) (p : Profile) (xs : List (Tensor α)) (u32data : List Nat) (ys : List Nat) :
    Res (List Nat) := do
  let x ← ix xs 0
  let dim ← ix u32data 0
  let s := x.shape
  let n := s.get dim
  let size ← s.sizeU p
  let «repeat» := size / n
  let skip1 ← s.lowerVolumeU p dim
  let skip2 := skip1 * n
  check («repeat» = 0 ∨ skip1 ≠ 0)       -- `i % skip1` in the loop
  let src ← x.ptr
  loop «repeat» (fun i ys => do
    let offset := i % skip1 + (i / skip1) * skip2
    let v ← rd src offset
    let st ← loop (n - 1) (fun j (st : Nat × α × Nat) => do
      let offset := st.1 + skip1
      let v ← rd src offset
      ok (offset, if better v st.2.1 then (v, j + 1) else st.2)) (offset, v, 0)
    wx ys i st.2.2) ys

/-- The comparison of argsort.rs:26 (`a <= b`; positions outside the buffer do not occur). -/
def cmpAt [Flt α] (src : List α) (i j : Nat) : Bool :=
  match src[i]?, src[j]? with
  | some a, some b => !Flt.gt a b
  | _, _ => true

/-- `sort_unstable_by(|i, j| partial_cmp(..).unwrap())` of std, on one slice.  `srt` is the algorithm (its contract is a
hypothesis of the theorems); the closure panics when two values are incomparable (NaN). -/
def sortBlock [Flt α] (srt : (Nat → Nat → Bool) → List Nat → List Nat) (src : List α) (l : List Nat) : Res (List Nat) := do
  let vals ← loop l.length (fun i (acc : List α) => do
    let k ← ix l i
    let v ← rd src k
    ok (acc ++ [v])) []
  check (l.length ≤ 1 ∨ ∀ a ∈ vals, ∀ b ∈ vals, Flt.gt a b = true ∨ Flt.gt b a = true ∨ Flt.feq a b = true)
  ok (srt (cmpAt src) l)

/-- `ArgsortImpl`, argsort.rs:4-37. -/
def argsort [Flt α] (srt : (Nat → Nat → Bool) → List Nat → List Nat) (p : Profile) (xs : List (Tensor α))
    (u32data : List Nat) (ys : List Nat) : Res (List Nat) := do
  let x ← ix xs 0
  let dim ← ix u32data 0
  let s := x.shape
  let size ← s.sizeU p
  let skip ← s.lowerVolumeU p dim
  let len := s.get dim
  check (skip * len ≠ 0)                -- `step_by(0)` panics
  let nb := (size + skip * len - 1) / (skip * len)
  let indices ← loop nb (fun o ind =>
    loop skip (fun j ind => loop len (fun i ind =>
      wx ind (o * (skip * len) + j * len + i) (o * (skip * len) + j + skip * i)) ind) ind) (List.replicate size 0)
  let src ← x.ptr
  let indices ← loop ((size + len - 1) / len) (fun o ind => do
    check (o * len + len ≤ ind.length)  -- the slice `indices[offset..offset + len]`
    let blk ← sortBlock srt src ((ind.drop (o * len)).take len)
    ok (ind.take (o * len) ++ blk ++ ind.drop (o * len + len))) indices
  loop nb (fun o ys =>
    loop skip (fun j ys => loop len (fun i ys => do
      let v ← ix indices (o * (skip * len) + j * len + i)
      wx ys (o * (skip * len) + j + skip * i) v) ys) ys) ys

/-- `BroadcastFwImpl`, broadcast.rs:4-27. -/
def broadcastFw : FwK α := fun p xs u32data _ y => do
  let x ← ix xs 0
  let dim ← ix u32data 0
  let size ← ix u32data 1
  let «repeat» ← x.shape.sizeU p
  let skip1 ← y.shape.lowerVolumeU p dim
  let skip2 := skip1 * size
  check («repeat» = 0 ∨ skip1 ≠ 0)       -- `i % skip1` in the loop
  let src ← x.ptr
  let dest ← y.ptr
  let dest ← loop «repeat» (fun i dest => do
    let offset := i % skip1 + (i / skip1) * skip2
    let tmp ← rd src i
    let st ← iter size (fun (st : Nat × List α) => do
      let d ← wr st.2 st.1 tmp
      ok (st.1 + skip1, d)) (offset, dest)
    ok st.2) dest
  ok { y with buf := some dest }

/-- `MatmulFwImpl`, matmul.rs:7-54. -/
def matmulFw [Zero α] [Add α] [Mul α] : FwK α := fun _ xs _ _ y => do
  let a ← ix xs 0
  let b ← ix xs 1
  let d1 := a.shape.get 0
  let d2 := a.shape.get 1
  let d3 := b.shape.get 1
  let bs := y.shape.batch
  let size := d1 * d3
  let skipA := if a.shape.hasBatch then d1 * d2 else 0
  let skipB := if b.shape.hasBatch then d2 * d3 else 0
  let pa ← a.ptr
  let pb ← b.ptr
  let py ← y.ptr
  let st ← iter bs (fun (st : (Nat × Nat × Nat) × List α) => do
    let py ← loop size (fun n py => wr py (st.1.2.2 + n) 0) st.2
    let py ← loop ((d3 + 7) / 8) (fun k8 py => do
      let k := k8 * 8
      let ek := min (k + 8) d3
      loop ((d1 + 7) / 8) (fun i8 py => do
        let i := i8 * 8
        let ei := min (i + 8) d1
        loop ((d2 + 7) / 8) (fun j8 py => do
          let j := j8 * 8
          let ej := min (j + 8) d2
          loop (ek - k) (fun tk py => do
            let kk := k + tk
            let kkd1 := kk * d1
            let kkd2 := kk * d2
            loop (ei - i) (fun ti py => do
              let ii := i + ti
              let tmp ← loop (ej - j) (fun tj (tmp : α) => do
                let jj := j + tj
                let u ← rd pa (st.1.1 + (ii + jj * d1))
                let v ← rd pb (st.1.2.1 + (jj + kkd2))
                ok (tmp + u * v)) 0
              upd py (st.1.2.2 + (ii + kkd1)) (fun w => w + tmp)) py) py) py) py) py
    ok ((st.1.1 + skipA, st.1.2.1 + skipB, st.1.2.2 + size), py)) ((0, 0, 0), py)
  ok { y with buf := some st.2 }

/-- `TransposeFwImpl`, transpose.rs:5-34.  State: (k, buffer), outer state also shift_y; p and pp are local. -/
def transposeFw : FwK α := fun _ xs _ _ y => do
  let x ← ix xs 0
  let d1 := x.shape.get 0
  let d2 := x.shape.get 1
  let ms := d1 * d2
  let bs := y.shape.batch
  let px ← x.ptr
  let py ← y.ptr
  let st ← iter bs (fun (st : (Nat × Nat) × List α) => do
    let st2 ← iter d2 (fun (s : (Nat × Nat) × List α) => do
      let s3 ← iter d1 (fun (t : (Nat × Nat) × List α) => do
        let v ← rd px t.1.2
        let py ← wr t.2 t.1.1 v
        ok ((t.1.1 + d2, t.1.2 + 1), py)) ((s.1.1, s.1.2), s.2)
      ok ((s.1.1 + 1, s3.1.2), s3.2)) ((st.1.1, st.1.2), st.2)
    ok ((st.1.1 + ms, st2.1.2), st2.2)) ((0, 0), py)
  ok { y with buf := some st.2 }

/-- `TriangularLFwImpl`, triangular_l.rs:5-27 (`lower = true`, keeps `i >= j + k`), and `TriangularUFwImpl`,
triangular_u.rs:5-27 (`lower = false`, keeps `j >= i + k`).  The additions are u32. -/
def triangularFw [Zero α] (lower : Bool) : FwK α := fun p xs u32data _ y => do
  let x ← ix xs 0
  let k ← ix u32data 0
  let size := x.shape.get 0
  let bs := y.shape.batch
  let px ← x.ptr
  let py ← y.ptr
  let st ← iter bs (fun (st : Nat × List α) =>
    loop size (fun j st => loop size (fun i st => do
      let keep ← (if lower then do let t ← uadd p j k; ok (decide (t ≤ i))
                  else do let t ← uadd p i k; ok (decide (t ≤ j)))
      let v ← (if keep = true then rd px st.1 else ok 0)
      let py ← wr st.2 st.1 v
      ok (st.1 + 1, py)) st) st) (0, py)
  ok { y with buf := some st.2 }

/-- `IdentityImpl`, identity.rs:4-17 (`y.reset(0.)` runs `ResetTensorImpl` on y's device). -/
def identity [Zero α] [One α] : FwK α := fun p _ _ _ y => do
  let _ ← y.dev
  let y ← resetTensor p [] [] [0] y
  let size := y.shape.get 0
  let py ← y.ptr
  let py ← loop size (fun i py => wr py (i * (size + 1)) 1) py
  ok { y with buf := some py }

/-- `FlipFwImpl`, flip.rs:4-25. -/
def flipFw : FwK α := fun p xs u32data _ y => do
  let x ← ix xs 0
  let dim ← ix u32data 0
  let s := x.shape
  let n := s.get dim
  let skip ← s.lowerVolumeU p dim
  let size ← s.sizeU p
  let r := size / n
  check (r = 0 ∨ skip ≠ 0)            -- `i % skip` in the loop
  let px ← x.ptr
  let py ← y.ptr
  let py ← loop n (fun j py => loop r (fun i py => do
    let offset := i * n - i % skip * (n - 1)
    let v ← rd px (offset + (n - j - 1) * skip)
    wr py (offset + j * skip) v) py) py
  ok { y with buf := some py }

/-- Strides of permute_dims.rs:12-22 and 59-69.  State: (x_strides, y_strides, x_stride_tmp, y_stride_tmp).
`ndims - perm[i] - 1` panics (or wraps to an out-of-range index, which panics as well) when `perm[i] >= ndims`. -/
def permStrides (sx sy : Shape) (perm : List Nat) : Res (List Nat × List Nat) := do
  let ndims := perm.length
  let st ← loop ndims (fun i (st : List Nat × List Nat × Nat × Nat) => do
    let xs ← wx st.1 (ndims - i - 1) st.2.2.1
    let pi ← ix perm i
    check (pi + 1 ≤ ndims)
    let ys ← wx st.2.1 (ndims - pi - 1) st.2.2.2
    ok (xs, ys, st.2.2.1 * sx.get i, st.2.2.2 * sy.get i))
    (List.replicate ndims 0, List.replicate ndims 0, 1, 1)
  ok (st.1, st.2.1)

/-- Lines 28-34 and 75-81 of permute_dims.rs: the position in y of position `i` of x.  State: (tmp, j). -/
def permPos (xs ys : List Nat) (i : Nat) : Res Nat := do
  let st ← loop xs.length (fun d (st : Nat × Nat) => do
    let sx ← ix xs d
    let sy ← ix ys d
    check (sx ≠ 0)                       -- division by zero
    let p := st.1 / sx
    ok (st.1 - p * sx, st.2 + p * sy)) (i, 0)
  ok st.2

/-- `PermuteDimsFwImpl`, permute_dims.rs:4-42. -/
def permuteFw : FwK α := fun _ xs u32data _ y => do
  let x ← ix xs 0
  let perm := u32data
  let volume := x.shape.volume
  let bs := x.shape.batch
  let strides ← permStrides x.shape y.shape perm
  let src ← x.ptr
  let dest ← y.ptr
  let st ← iter bs (fun (st : (Nat × Nat) × List α) => do
    let py ← loop volume (fun i py => do
      let j ← permPos strides.1 strides.2 i
      let v ← rd src (st.1.1 + i)
      wr py (st.1.2 + j) v) st.2
    ok ((st.1.1 + volume, st.1.2 + volume), py)) ((0, 0), dest)
  ok { y with buf := some st.2 }

/-- `SliceFwImpl`, slice.rs:6-29.  State: (offset of dest, buffer). -/
def sliceFw : FwK α := fun p xs u32data _ y => do
  let x ← ix xs 0
  let dim ← ix u32data 0
  let offset ← ix u32data 1
  let base ← y.shape.lowerVolumeU p dim
  let span := base * y.shape.get dim
  let skip := base * x.shape.get dim
  let size ← y.shape.sizeU p
  check (span ≠ 0)                       -- division by zero
  let «repeat» := size / span
  let px ← x.ptr
  let src := base * offset
  let py ← y.ptr
  let st ← loop «repeat» (fun i (st : Nat × List α) => do
    let sp := src + skip * i
    loop span (fun j (st : Nat × List α) => do
      let v ← rd px (sp + j)
      let py ← wr st.2 st.1 v
      ok (st.1 + 1, py)) st) (0, py)
  ok { y with buf := some st.2 }

/-- `PickFwImpl`, pick.rs:4-36 (`&u32data[1..]` panics on an empty slice). -/
def pickFw : FwK α := fun p xs u32data _ y => do
  let x ← ix xs 0
  let dim ← ix u32data 0
  let ids := u32data.drop 1
  let bs := y.shape.batch
  let skipX := if x.shape.hasBatch then x.shape.volume else 0
  let skipI := if 1 < ids.length then 1 else 0
  let base ← y.shape.lowerVolumeU p dim
  let skip := base * x.shape.get dim
  check (base ≠ 0)                       -- division by zero
  let «repeat» := y.shape.volume / base
  let px ← x.ptr
  let py ← y.ptr
  let st ← loop bs (fun batch (st : Nat × List α) => do
    let id ← ix ids (batch * skipI)
    let src := batch * skipX + base * id
    loop «repeat» (fun i st => do
      let sp := src + skip * i
      loop base (fun j (st : Nat × List α) => do
        let v ← rd px (sp + j)
        let py ← wr st.2 st.1 v
        ok (st.1 + 1, py)) st) st) (0, py)
  ok { y with buf := some st.2 }

/-- `ConcatFwImpl`, concat.rs:4-40.  Outer state: (offset, buffer); then (dest, buffer); then (sp, buffer). -/
def concatFw : FwK α := fun p xs u32data _ y => do
  let dim ← ix u32data 0
  let newBs := y.shape.batch
  let base ← y.shape.lowerVolumeU p dim
  let skip := base * y.shape.get dim
  check (skip ≠ 0)                       -- division by zero
  let «repeat» := y.shape.volume / skip
  let st ← loop xs.length (fun n (st : Nat × Tensor α) => do
    let x ← ix xs n
    let y := st.2
    let srcDim := x.shape.get dim
    let span := base * srcDim
    let bSkip := if x.shape.hasBatch then span * «repeat» else 0
    let px ← x.ptr
    let py ← y.ptr
    let st2 ← loop newBs (fun batch (st2 : Nat × List α) => do
      let sp := bSkip * batch
      let st3 ← iter «repeat» (fun (st3 : (Nat × Nat) × List α) => do
        let dp := st3.1.2
        let st4 ← loop span (fun j (st4 : Nat × List α) => do
          let v ← rd px st4.1
          let py ← wr st4.2 (dp + j) v
          ok (st4.1 + 1, py)) (st3.1.1, st3.2)
        ok ((st4.1, st3.1.2 + skip), st4.2)) ((sp, st2.1), st2.2)
      ok (st3.1.2, st3.2)) (st.1, py)
    ok (st.1 + span, { y with buf := some st2.2 })) (0, y)
  ok st.2

/-- `BatchConcatFwImpl`, batch_concat.rs:4-22. -/
def batchConcatFw : FwK α := fun p xs _ _ y => do
  let py ← y.ptr
  let st ← loop xs.length (fun n (st : Nat × List α) => do
    let x ← ix xs n
    let px ← x.ptr
    let span ← x.shape.sizeU p
    let py ← loop span (fun i py => do
      let v ← rd px i
      wr py (st.1 + i) v) st.2
    ok (st.1 + span, py)) (0, py)
  ok { y with buf := some st.2 }

/-- `BatchPickFwImpl`, batch_pick.rs:4-24. -/
def batchPickFw : FwK α := fun _ xs u32data _ y => do
  let x ← ix xs 0
  let ids := u32data
  let bs := y.shape.batch
  let span := x.shape.volume
  let px ← x.ptr
  let py ← y.ptr
  let py ← loop bs (fun batch py => do
    let id ← ix ids batch
    let src := span * id
    let dest := span * batch
    loop span (fun i py => do
      let v ← rd px (src + i)
      wr py (dest + i) v) py) py
  ok { y with buf := some py }

/-- `BatchSliceFwImpl`, batch_slice.rs:4-20. -/
def batchSliceFw : FwK α := fun _ xs u32data _ y => do
  let x ← ix xs 0
  let offset ← ix u32data 0
  let volume := y.shape.volume
  let «repeat» := y.shape.batch
  let px ← x.ptr
  let src := volume * offset
  let py ← y.ptr
  let py ← loop (volume * «repeat») (fun i py => do
    let v ← rd px (src + i)
    wr py i v) py
  ok { y with buf := some py }

/-- `BatchSumFwImpl`, batch_sum.rs:4-25.  Inner state: (pos, temp). -/
def batchSumFw [Zero α] [Add α] : FwK α := fun p xs _ _ y => do
  let x ← ix xs 0
  let bs := x.shape.batch
  let size ← y.shape.sizeU p
  let px ← x.ptr
  let py ← y.ptr
  let py ← loop size (fun i py => do
    let st ← iter bs (fun (st : Nat × α) => do
      let v ← rd px st.1
      ok (st.1 + size, st.2 + v)) (i, 0)
    wr py i st.2) py
  ok { y with buf := some py }

end K
end Verif
