import Verif.Shape

/-!
# Specification vocabulary for shapes and tensor coordinates

Independent of the code: products of extents, column-major offsets, coordinates.
-/

namespace Verif

/-- `f 0 * f 1 * … * f (n-1)`. -/
def volN (f : Nat → Nat) : Nat → Nat
  | 0 => 1
  | n + 1 => volN f n * f n

/-- Column-major offset of the coordinates `c 0, …, c (n-1)` in an array with extents `f 0, …, f (n-1)`:
`Σ_d c d * (f 0 * … * f (d-1))`. -/
def offN (f c : Nat → Nat) : Nat → Nat
  | 0 => 0
  | n + 1 => offN f c n + c n * volN f n

/-- Well-formed shapes: what a shape is supposed to be.  8 stored dims, all positive; `depth` is the position after the last
dim that is not 1; `volume` is the exact product of the dims; batch at least 1; everything fits u32. -/
structure Shape.WF (s : Shape) : Prop where
  len : s.dims.length = 8
  pos : ∀ i, 1 ≤ Shape.raw s.dims i
  depth_le : s.depth ≤ 8
  tail : ∀ i, s.depth ≤ i → Shape.raw s.dims i = 1
  last : ∀ d, s.depth = d + 1 → Shape.raw s.dims d ≠ 1
  vol : s.volume = volN s.get 8
  vol_lt : s.volume < U32
  batch_pos : 1 ≤ s.batch

/-- The shapes a program can obtain from the public API of `Shape` (in a build with overflow checks). -/
inductive Shape.Reachable : Shape → Prop
  | new {dims b s} : Shape.new .debug dims b = .ok s → Reachable s
  | updateDim {s t dim m} : Reachable s → s.updateDim .debug dim m = .ok t → Reachable t
  | updateBatch {s t b} : Reachable s → s.updateBatch b = .ok t → Reachable t

/-- Coordinates `c` and batch number `b` that address an element of a tensor of shape `s`. -/
def Shape.Valid (s : Shape) (c : Nat → Nat) (b : Nat) : Prop :=
  (∀ d, c d < s.get d) ∧ b < s.batch

/-- Position of the element with coordinates `c` in batch `b`: column major, batch outermost. -/
def Shape.offset (s : Shape) (c : Nat → Nat) (b : Nat) : Nat :=
  offN s.get c 8 + b * volN s.get 8

end Verif

namespace Verif

/-- `y` is the (unique) well-formed shape with extents `f` and batch `b`. -/
def Shape.Is (y : Shape) (f : Nat → Nat) (b : Nat) : Prop :=
  y.WF ∧ (∀ i, y.get i = f i) ∧ y.batch = b

/-- Batches of two shapes can be combined: equal, or one of them is 1. -/
def BatchCompat (a b : Shape) : Prop := a.batch = b.batch ∨ a.batch = 1 ∨ b.batch = 1

/-- `f 0 + … + f (n-1)`. -/
def sumN (f : Nat → Nat) : Nat → Nat
  | 0 => 0
  | n + 1 => sumN f n + f n

/-- Greatest of `1, f 0, …, f (n-1)`. -/
def maxN (f : Nat → Nat) : Nat → Nat
  | 0 => 1
  | n + 1 => max (maxN f n) (f n)

end Verif
