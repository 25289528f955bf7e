import Verif.Device
import Verif.Spec

/-!
# Specification vocabulary for tensors

An array is a function from coordinates and batch number to elements; `FwOp.sem` is the textbook meaning of the forward
functions, element by element.
-/

namespace Verif

/-- Element at given coordinates in a given batch. -/
abbrev Arr (α : Type) := (Nat → Nat) → Nat → α

/-- The tensor is on device `d`, has shape `s` (a well-formed shape) and its element at coordinates `c` of batch `b` is
`f c b`: it is stored at the column-major position of `(c, b)`. -/
structure Tensor.Holds {α : Type} (t : Tensor α) (d : Nat) (s : Shape) (f : Arr α) : Prop where
  device : t.device = some d
  host : t.host = none
  shape : t.shape = s
  wf : s.WF
  small : s.size ≤ 2 ^ 31
  buf : ∃ l, t.buf = some l ∧ s.size ≤ l.length ∧ ∀ c b, s.Valid c b → l[s.offset c b]? = some (f c b)

/-- Batch number read in an operand of shape `s`: operands with batch 1 are broadcast. -/
def bb (s : Shape) (b : Nat) : Nat := if s.batch = 1 then 0 else b

/-- Coordinates `c` with coordinate `dim` replaced by `j`. -/
def cset (c : Nat → Nat) (dim j : Nat) : Nat → Nat := fun d => if d = dim then j else c d

/-- Matrix coordinates `(i, j)`. -/
def mat (i j : Nat) : Nat → Nat := fun d => if d = 0 then i else if d = 1 then j else 0

/-- The all-zero coordinates. -/
def czero : Nat → Nat := fun _ => 0

/-- `0 + t 0 + t 1 + … + t (n-1)`, left to right. -/
def sumTo {α : Type} [Zero α] [Add α] (n : Nat) (t : Nat → α) : α := foldN n (fun j a => a + t j) 0

/-- Sum of `n` terms in blocks of 8: sums of (at most) 8 consecutive terms are added to the total. -/
def sumBlk {α : Type} [Zero α] [Add α] (n : Nat) (t : Nat → α) : α :=
  foldN ((n + 7) / 8) (fun q a => a + foldN (Nat.min (q * 8 + 8) n - q * 8) (fun j a => a + t (q * 8 + j)) 0) 0

/-- Scan for the best element: start with the first, replace it by each strictly better one. -/
def scanTo {α : Type} (better : α → α → Bool) (n : Nat) (t : Nat → α) : α :=
  foldN n (fun j a => if better (t j) a then t j else a) (t 0)

/-- Concatenation of arrays along axis `dim`. -/
def catAt {α : Type} [Zero α] (dim : Nat) : List (Shape × Arr α) → (Nat → Nat) → Nat → α
  | [], _, _ => 0
  | (s, f) :: rest, c, b =>
    if c dim < s.get dim then f c (bb s b) else catAt dim rest (cset c dim (c dim - s.get dim)) b

/-- Concatenation of arrays along the batch axis. -/
def batchCatAt {α : Type} [Zero α] : List (Shape × Arr α) → (Nat → Nat) → Nat → α
  | [], _, _ => 0
  | (s, f) :: rest, c, b => if b < s.batch then f c b else batchCatAt rest c (b - s.batch)

/-- The meaning of the forward functions. -/
def FwOp.sem {α : Type} [Flt α] : FwOp α → List (Shape × Arr α) → Arr α
  | .un u, [(_, f)] => fun c b => u.fn (f c b)
  | .cn o k, [(_, f)] => fun c b => o.fn (f c b) k
  | .bi o, [(sa, f), (sb, g)] => fun c b => o.fn (f c (bb sa b)) (g c (bb sb b))
  | .sc o, [(sx, f), (sk, k)] => fun c b => o.fn (f c (bb sx b)) (k czero (bb sk b))
  | .powi n, [(_, f)] => fun c b => Flt.powi (f c b) n
  | .sum dim, [(s, f)] => fun c b => sumTo (s.get dim) (fun j => f (cset c dim j) b)
  | .max dim, [(s, f)] => fun c b => scanTo (fun v t => Flt.gt v t) (s.get dim) (fun j => f (cset c dim j) b)
  | .min dim, [(s, f)] => fun c b => scanTo (fun v t => Flt.gt t v) (s.get dim) (fun j => f (cset c dim j) b)
  | .logsumexp dim, [(s, f)] => fun c b =>
      Flt.down (foldN (s.get dim - 1) (fun j a => Scalar.lseStep a (Flt.up (f (cset c dim (j + 1)) b))) (Flt.up (f (cset c dim 0) b)))
  | .broadcast dim _, [(_, f)] => fun c b => f (cset c dim 0) b
  | .matmul, [(sa, f), (sb, g)] => fun c b =>
      sumBlk (sa.get 1) (fun j => f (mat (c 0) j) (bb sa b) * g (mat j (c 1)) (bb sb b))
  | .transpose, [(_, f)] => fun c b => f (mat (c 1) (c 0)) b
  | .triangularL k, [(_, f)] => fun c b => if c 1 + k ≤ c 0 then f c b else 0
  | .triangularU k, [(_, f)] => fun c b => if c 0 + k ≤ c 1 then f c b else 0
  | .slice dim lower _, [(_, f)] => fun c b => f (cset c dim (lower + c dim)) b
  | .pick ids dim, [(s, f)] => fun c b => f (cset c dim (ids.getD (if ids.length = 1 then 0 else b) 0)) (bb s b)
  | .concat dim, ins => catAt dim ins
  | .batchSum, [(s, f)] => fun c _ => sumTo s.batch (fun b => f c b)
  | .batchSlice lower _, [(_, f)] => fun c b => f c (lower + b)
  | .batchPick ids, [(_, f)] => fun c b => f c (ids.getD b 0)
  | .batchConcat, ins => batchCatAt ins
  | _, _ => fun _ _ => 0

end Verif
