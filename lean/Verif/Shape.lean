import Verif.Core

/-!
# Model of `prima_undine/src/shape.rs` and `prima_undine/src/shape_ops.rs`

A u32 is a natural number below 2^32.  Overflowing u32 arithmetic panics in a build with overflow checks
(`Profile.debug`) and wraps around otherwise (`Profile.release`).
-/

namespace Verif
open Res

/-- 2^32. -/
def U32 : Nat := 4294967296

/-- Cargo build profile: are integer overflows checked? -/
inductive Profile where
  | debug
  | release
  deriving DecidableEq, Repr

/-- u32 result of an arithmetic operation whose exact value is `x`. -/
def u32 (p : Profile) (x : Nat) : Res Nat :=
  if x < U32 then ok x else
    match p with
    | .debug => panic
    | .release => ok (x % U32)

/-- u32 multiplication. -/
def umul (p : Profile) (a b : Nat) : Res Nat := u32 p (a * b)
/-- u32 addition. -/
def uadd (p : Profile) (a b : Nat) : Res Nat := u32 p (a + b)

/-- `struct Shape`, shape.rs:10-16 (`MAX_DEPTH = 8`, shape.rs:8).  `dims` is the array `[u32; 8]`; equality is the
derived `PartialEq`. -/
structure Shape where
  dims : List Nat
  batch : Nat
  depth : Nat
  volume : Nat
  deriving DecidableEq, Repr

instance : Inhabited Shape := ⟨⟨List.replicate 8 1, 1, 0, 1⟩⟩

namespace Shape

/-- `self.dims[i]` for an index the code keeps below 8 (the value outside is never used: every loop over `dims`
in shape.rs is bounded by `depth ≤ 8`, see `Shape.WF`, but for those of `has_same_loo_dims`, whose bounds are checked there). -/
def raw (l : List Nat) (i : Nat) : Nat := l.getD i 1

/-- `impl Index<u32> for Shape`, shape.rs:152-161. -/
def get (s : Shape) (i : Nat) : Nat := if i < s.depth then raw s.dims i else 1

/-- `Shape::new`, shape.rs:19-39.  Loop state: (dims_filled, depth, volume). -/
def new (p : Profile) (dims : List Nat) (batch : Nat) : Res Shape := do
  check (dims.length ≤ 8)
  check (1 ≤ batch)
  let st ← loop dims.length (fun i (st : List Nat × Nat × Nat) => do
      let d ← ix dims i
      check (d ≠ 0)
      let v ← umul p st.2.2 d
      ok (st.1.set i d, if d ≠ 1 then i + 1 else st.2.1, v))
    (List.replicate 8 1, 0, 1)
  ok ⟨st.1, batch, st.2.1, st.2.2⟩

/-- `Shape::dims`, shape.rs:45-47. -/
def dimsSlice (s : Shape) : List Nat := s.dims.take s.depth

/-- `Shape::lower_volume`, shape.rs:57-63, with its u32 multiplications. -/
def lowerVolumeU (p : Profile) (s : Shape) (dim : Nat) : Res Nat :=
  loop (min dim s.depth) (fun i r => umul p r (raw s.dims i)) 1

/-- `Shape::lower_volume`, shape.rs:57-63, exact (equal to `lowerVolumeU` on well-formed shapes,
`Shape.lowerVolumeU_eq`). -/
def lowerVolume (s : Shape) (dim : Nat) : Nat :=
  foldN (min dim s.depth) (fun i r => r * raw s.dims i) 1

/-- `Shape::size`, shape.rs:65-67, with its u32 multiplication. -/
def sizeU (p : Profile) (s : Shape) : Res Nat := umul p s.batch s.volume

/-- `Shape::size`, shape.rs:65-67, exact. -/
def size (s : Shape) : Nat := s.batch * s.volume

/-- `Shape::has_batch`, shape.rs:69-71. -/
def hasBatch (s : Shape) : Bool := s.batch != 1

/-- `Shape::has_compatible_batch`, shape.rs:73-75. -/
def hasCompatibleBatch (s r : Shape) : Bool := s.batch == r.batch || s.batch == 1 || r.batch == 1

/-- `Shape::is_scalar`, shape.rs:77-79. -/
def isScalar (s : Shape) : Bool := s.depth == 0

/-- `Shape::is_column_vector`, shape.rs:81-83. -/
def isColumnVector (s : Shape) : Bool := s.depth ≤ 1

/-- `Shape::is_matrix`, shape.rs:85-87. -/
def isMatrix (s : Shape) : Bool := s.depth ≤ 2

/-- `Shape::has_same_dims`, shape.rs:89-95. -/
def hasSameDims (s r : Shape) : Bool :=
  foldN s.depth (fun i ok => ok && raw s.dims i == raw r.dims i) true && s.depth == r.depth

/-- `while n > 0 && dims[n - 1] == 1 { n -= 1 }`, shape.rs:103-105, 107-109 and 141-143. -/
def trim (dims : List Nat) : Nat → Nat
  | 0 => 0
  | n + 1 => if raw dims n = 1 then trim dims n else n + 1

/-- `Shape::has_same_loo_dims`, shape.rs:97-115 (`dim + 1` is u32 arithmetic; the loops panic if they start beyond the end of the array, which
happens for scalars and `dim = u32::MAX` when `dim + 1` wraps to 0). -/
def hasSameLooDims (p : Profile) (s r : Shape) (dim : Nat) : Res Bool := do
  let dim1 ← uadd p dim 1
  let nl0 := if s.depth = dim1 then dim else s.depth
  let nr0 := if r.depth = dim1 then dim else r.depth
  check (nl0 ≤ 8)
  check (nr0 ≤ 8)
  let nl := trim s.dims nl0
  let nr := trim r.dims nr0
  ok (foldN nl (fun i b => b && (raw s.dims i == raw r.dims i || i == dim)) (nl == nr))

/-- `Shape::update_dim`, shape.rs:129-144 (`check (d ≠ 0)`: u32 division by zero panics). -/
def updateDim (p : Profile) (s : Shape) (dim m : Nat) : Res Shape := do
  check (dim < 8)
  check (m ≠ 0)
  let dims1 := if s.depth ≤ dim then foldN (dim + 1 - s.depth) (fun i d => d.set (s.depth + i) 1) s.dims
    else s.dims
  let depth1 := if s.depth ≤ dim then dim + 1 else s.depth
  let d := raw dims1 dim
  check (d ≠ 0)
  let v ← umul p (s.volume / d) m
  let dims2 := dims1.set dim m
  ok ⟨dims2, s.batch, trim dims2 depth1, v⟩

/-- `Shape::resize_dim`, shape.rs:117-121. -/
def resizeDim (p : Profile) (s : Shape) (dim m : Nat) : Res Shape := updateDim p s dim m

/-- `Shape::update_batch`, shape.rs:146-149. -/
def updateBatch (s : Shape) (batch : Nat) : Res Shape := do
  check (1 ≤ batch)
  ok { s with batch := batch }

/-- `Shape::resize_batch`, shape.rs:123-127. -/
def resizeBatch (s : Shape) (batch : Nat) : Res Shape := updateBatch s batch

/-- The record written by `impl Serialize for Shape`, shape.rs:185-195 (`ShapeSerde`, 169-173). -/
def toRecord (s : Shape) : List Nat × Nat := (s.dimsSlice, s.batch)

/-- `impl Deserialize for Shape`, shape.rs:175-183, on a decoded record. -/
def ofRecord (p : Profile) (r : List Nat × Nat) : Res Shape := Shape.new p r.1 r.2

end Shape

/-! ## shape_ops.rs (`p` is the build profile) -/
namespace ShapeOps
open Shape

/-- `scalar_op`, shape_ops.rs:5-8. -/
def scalarOp (x k : Shape) : Res Shape := do
  check (k.isScalar && x.hasCompatibleBatch k)
  x.resizeBatch (max x.batch k.batch)

/-- `elementwise`, shape_ops.rs:10-13. -/
def elementwise (a b : Shape) : Res Shape := do
  check (a.hasSameDims b && a.hasCompatibleBatch b)
  a.resizeBatch (max a.batch b.batch)

/-- `broadcast`, shape_ops.rs:15-18. -/
def broadcast (p : Profile) (x : Shape) (dim size : Nat) : Res Shape := do
  check (x.get dim = 1 ∧ size ≠ 0)
  x.resizeDim p dim size

/-- `matmul`, shape_ops.rs:20-23. -/
def matmul (p : Profile) (l r : Shape) : Res Shape := do
  check (l.isMatrix && r.isMatrix && l.get 1 == r.get 0 && l.hasCompatibleBatch r)
  Shape.new p [l.get 0, r.get 1] (max l.batch r.batch)

/-- `transpose`, shape_ops.rs:25-28. -/
def transpose (p : Profile) (x : Shape) : Res Shape := do
  check x.isMatrix
  Shape.new p [x.get 1, x.get 0] x.batch

/-- `slice`, shape_ops.rs:30-34. -/
def slice (p : Profile) (x : Shape) (dim lower upper : Nat) : Res Shape := do
  check (lower < upper)
  check (upper ≤ x.get dim)
  x.resizeDim p dim (upper - lower)

/-- `pick`, shape_ops.rs:36-44. -/
def pick (p : Profile) (x : Shape) (ids : List Nat) (dim : Nat) : Res Shape := do
  let n := x.get dim
  let bi := ids.length
  check (bi ≠ 0 ∧ (x.batch = bi ∨ x.hasBatch = false ∨ bi = 1))
  let _ ← loop bi (fun i (_ : Unit) => do
    let id ← ix ids i
    check (id < n)) ()
  let s1 ← x.resizeDim p dim 1
  s1.resizeBatch (max x.batch bi)

/-- `concat`, shape_ops.rs:46-59.  Loop state: (s0, sum). -/
def concat (p : Profile) (xs : List Shape) (dim : Nat) : Res Shape := do
  check (1 ≤ xs.length)
  let s0 ← ix xs 0
  let st ← loop (xs.length - 1) (fun i (st : Shape × Nat) => do
      let s ← ix xs (1 + i)
      let b ← st.1.hasSameLooDims p s dim
      check (b && st.1.hasCompatibleBatch s)
      let s0' ← (if st.1.hasBatch then ok st.1 else st.1.updateBatch s.batch)
      let sum ← uadd p st.2 (s.get dim)
      ok (s0', sum))
    (s0, s0.get dim)
  st.1.resizeDim p dim st.2

/-- `batch_pick`, shape_ops.rs:61-69. -/
def batchPick (x : Shape) (ids : List Nat) : Res Shape := do
  let n := x.batch
  let bi := ids.length
  check (bi ≠ 0)
  let _ ← loop bi (fun i (_ : Unit) => do
    let id ← ix ids i
    check (id < n)) ()
  x.resizeBatch bi

/-- `batch_slice`, shape_ops.rs:71-74. -/
def batchSlice (x : Shape) (lower upper : Nat) : Res Shape := do
  check (lower < upper ∧ upper ≤ x.batch)
  x.resizeBatch (upper - lower)

/-- `batch_concat`, shape_ops.rs:76-86. -/
def batchConcat (p : Profile) (xs : List Shape) : Res Shape := do
  check (xs.length ≠ 0)
  let s0 ← ix xs 0
  let sum ← loop (xs.length - 1) (fun i (sum : Nat) => do
      let s ← ix xs (1 + i)
      check (s0.hasSameDims s)
      uadd p sum s.batch)
    s0.batch
  s0.resizeBatch sum

end ShapeOps
end Verif
