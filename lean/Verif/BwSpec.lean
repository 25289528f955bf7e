import Verif.BwKernels
import Verif.TensorSpec

/-!
# Specification of the backward functions

`BwOp.sem` gives, element by element, the new contents of the gradient `gx` that a backward function accumulates into.
-/

namespace Verif
variable {α : Type} [Flt α]

/-- Accumulation over the batches `b'` of a result with `n` batches which read batch `b` of an operand of shape `s`. -/
def overBatch {σ : Type} (s : Shape) (n b : Nat) (step : Nat → σ → σ) (init : σ) : σ :=
  foldN n (fun b' acc => if bb s b' = b then step b' acc else acc) init

/-- The first index below `n` with property `P`. -/
def firstIdx (n : Nat) (P : Nat → Bool) : Option Nat := (List.range n).find? P

/-- Accumulation step for the left operand of `y = a ∘ b`: old value, a, b, gy. -/
def Bi.stepA : Bi → α → α → α → α → α
  | .add => fun acc _ _ g => acc + g
  | .sub => fun acc _ _ g => acc + g
  | .mul => fun acc _ b g => acc + b * g
  | .div => fun acc _ b g => acc + g / b
  | .powf => fun acc a b g => acc + g * b * Flt.powf a (b - 1)

/-- Accumulation step for the right operand of `y = a ∘ b`: old value, a, b, y, gy. -/
def Bi.stepB : Bi → α → α → α → α → α → α
  | .add => fun acc _ _ _ g => acc + g
  | .sub => fun acc _ _ _ g => acc - g
  | .mul => fun acc a _ _ g => acc + a * g
  | .div => fun acc _ b y g => acc - g * y / b
  | .powf => fun acc a _ y g => acc + g * Flt.ln a * y

/-- The new contents of `gx`: operands `xs`, results `ys`, gradient of the result `gy`, old contents of `gx`. -/
def BwOp.sem : BwOp α → List (Shape × Arr α) → List (Shape × Arr α) → Shape × Arr α → Shape × Arr α → Arr α
  | .un u, [(_, x)], [(_, y)], (_, gy), (_, gx) => fun c b =>
      match (u.bwFn : Option (α → α → α → α)) with
      | some f => gx c b + f (x c b) (y c b) (gy c b)
      | none => gx c b
  | .cn o k, [(_, x)], [(_, y)], (_, gy), (_, gx) => fun c b => gx c b + o.bwFn (x c b) (y c b) (gy c b) k
  | .powi k, [(_, x)], [_], (_, gy), (_, gx) => fun c b => gx c b + gy c b * Flt.ofInt k * Flt.powi (x c b) (k - 1)
  | .biA o, [(sa, xa), (sb, xb)], [_], (sy, gy), (sg, gx) => fun c b =>
      overBatch sg sy.batch b (fun b' acc => o.stepA acc (xa c (bb sa b')) (xb c (bb sb b')) (gy c b')) (gx c b)
  | .biB o, [(sa, xa), (sb, xb)], [(_, y)], (sy, gy), (sg, gx) => fun c b =>
      overBatch sg sy.batch b (fun b' acc => o.stepB acc (xa c (bb sa b')) (xb c (bb sb b')) (y c b') (gy c b')) (gx c b)
  | .max dim, [(s, x)], [(_, y)], (_, gy), (_, gx) => fun c b =>
      if firstIdx (s.get dim) (fun j => Flt.feq (x (cset c dim j) b) (y (cset c dim 0) b)) = some (c dim) then
        gx c b + gy (cset c dim 0) b else gx c b
  | .min dim, [(s, x)], [(_, y)], (_, gy), (_, gx) => fun c b =>
      if firstIdx (s.get dim) (fun j => Flt.feq (x (cset c dim j) b) (y (cset c dim 0) b)) = some (c dim) then
        gx c b + gy (cset c dim 0) b else gx c b
  | .matmulA, [_, (sb, xb)], [_], (sy, gy), (sg, gx) => fun c b =>
      overBatch sg sy.batch b (fun b' acc => acc + sumBlk (sy.get 1) (fun j =>
        gy (mat (c 0) j) b' * xb (mat (c 1) j) (bb sb b'))) (gx c b)
  | .matmulB, [(sa, xa), _], [_], (sy, gy), (sg, gx) => fun c b =>
      overBatch sg sy.batch b (fun b' acc => acc + sumBlk (sa.get 0) (fun i =>
        xa (mat i (c 0)) (bb sa b') * gy (mat i (c 1)) b')) (gx c b)
  | .transpose, [_], [_], (_, gy), (_, gx) => fun c b => gx c b + gy (mat (c 1) (c 0)) b
  | .triangularL k, [_], [_], (_, gy), (_, gx) => fun c b => gx c b + (if c 1 + k ≤ c 0 then gy c b else 0)
  | .triangularU k, [_], [_], (_, gy), (_, gx) => fun c b => gx c b + (if c 0 + k ≤ c 1 then gy c b else 0)
  | .slice dim lower, [], [], (sy, gy), (_, gx) => fun c b =>
      if lower ≤ c dim ∧ c dim < lower + sy.get dim then gx c b + gy (cset c dim (c dim - lower)) b else gx c b
  | .pick ids dim, [], [], (sy, gy), (sg, gx) => fun c b =>
      overBatch sg sy.batch b (fun b' acc =>
        if c dim = ids.getD (if ids.length = 1 then 0 else b') 0 then acc + gy (cset c dim 0) b' else acc) (gx c b)
  | _, _, _, _, (_, gx) => gx

/-- Besides the assertions: no overflow of `i32`/`u32` arithmetic inside, square matrices for triangular parts, and the
temporaries made inside fit in a block of the memory pool.  The two functions that call a wrong kernel are left out, and so
are the functions without a kernel. -/
def BwOp.Fits : BwOp α → List Shape → Shape → Prop
  | .un u, _, _ => u.bwFn (α := α) ≠ none
  | .powi k, _, _ => -2147483648 < k ∧ k ≤ 2147483647
  | .matmulA, xs, sy => ∀ a b, xs = [a, b] → sy.batch * a.volume ≤ 2 ^ 31
  | .matmulB, xs, sy => ∀ a b, xs = [a, b] → sy.batch * b.volume ≤ 2 ^ 31
  | .triangularL k, _, sy => (sy.isMatrix = true ∧ sy.get 0 = sy.get 1) ∧ sy.get 0 + k ≤ U32
  | .triangularU k, _, sy => (sy.isMatrix = true ∧ sy.get 0 = sy.get 1) ∧ sy.get 0 + k ≤ U32
  | .batchSlice _, _, _ => False
  | .batchPick _, _, _ => False
  | _, _, _ => True

end Verif
