import Verif.Contrib
import Verif.TensorSpec2
import Verif.FloatSpec
import Verif.FloatSoft

/-!
# Specification for C85 and C86: programs of tensor functions, and rounding error analysis

A program is a list of calls; every call takes tensors made before (by their numbers) and its results are appended.  The same program can be
run over f32 (what the library does), over exact real numbers (what it is meant to compute), and over *bounds*: numbers that say how
large the exact result can be and how much rounding errors can amount to.
-/

namespace Verif
open Res

/-- One call of a function on tensors. `κ` is the type of the constants. -/
inductive Calc (κ : Type) where
  | neg (i : Nat) | abs (i : Nat) | tanh (i : Nat) | sigmoid (i : Nat) | relu (i : Nat) | lrelu (i : Nat) | prelu (i : Nat) (k : κ)
  | addC (i : Nat) (k : κ) | cAdd (k : κ) (i : Nat) | subC (i : Nat) (k : κ) | cSub (k : κ) (i : Nat)
  | mulC (i : Nat) (k : κ) | cMul (k : κ) (i : Nat) | divC (i : Nat) (k : κ) | cDiv (k : κ) (i : Nat)
  | add (i j : Nat) | sub (i j : Nat) | mul (i j : Nat) | div (i j : Nat) | matmul (i j : Nat)
  | sum (i dim : Nat) | mean (i dim : Nat) | max (i dim : Nat) | broadcast (i dim size : Nat)
  | transpose (i : Nat) | triangularL (i k : Nat) | triangularU (i k : Nat)
  | slice (i dim lower upper : Nat) | pick (i : Nat) (ids : List Nat) (dim : Nat) | concat (is : List Nat) (dim : Nat)
  | split (i dim n : Nat) | reshape (i : Nat) (dims : List Nat) (batch : Nat) | flatten (i : Nat)
  | batchSum (i : Nat) | batchMean (i : Nat) | batchSlice (i lower upper : Nat) | batchPick (i : Nat) (ids : List Nat)
  | batchConcat (is : List Nat) | batchSplit (i n : Nat) | sliceSum (is : List Nat)

/-- Number `i`. -/
def argAt {A : Type} (env : List A) (i : Nat) : Res A := unwrap env[i]?

/-- Numbers `is`. -/
def argsAt {A : Type} (env : List A) : List Nat → Res (List A)
  | [] => ok []
  | i :: is => do
    let x ← argAt env i
    let xs ← argsAt env is
    ok (x :: xs)

section
variable {α κ : Type} [Flt α]

/-- Call of a function of one tensor. -/
def callOne (env : List (Tensor α)) (i : Nat) (f : Tensor α → Res (Tensor α)) : Res (List (Tensor α)) := do
  let x ← argAt env i
  let y ← f x
  ok [y]

/-- Call of a function of two tensors. -/
def callTwo (env : List (Tensor α)) (i j : Nat) (f : Tensor α → Tensor α → Res (Tensor α)) : Res (List (Tensor α)) := do
  let x ← argAt env i
  let x' ← argAt env j
  let y ← f x x'
  ok [y]

/-- Call of a function of a list of tensors. -/
def callMany (env : List (Tensor α)) (is : List Nat) (f : List (Tensor α) → Res (Tensor α)) : Res (List (Tensor α)) := do
  let xs ← argsAt env is
  let y ← f xs
  ok [y]

/-- The results of the call; `ι` gives the constants. The calls are those of prima_undine/src/functions/basic/tensor.rs 1-232,
prima_undine/src/functions/arithmetic/tensor.rs 1-174 and `mean`, `batch_mean` and sums of slices of
prima_undine_contrib/src/functions/contrib/tensor.rs, as modelled in `TF`. -/
def Calc.run (p : Profile) (m : Mem α) (ι : κ → α) (env : List (Tensor α)) : Calc κ → Res (List (Tensor α))
  | neg i => callOne env i fun x => TF.neg p (m 0) x
  | abs i => callOne env i fun x => TF.abs p (m 0) x
  | tanh i => callOne env i fun x => TF.tanh p (m 0) x
  | sigmoid i => callOne env i fun x => TF.sigmoid p (m 0) x
  | relu i => callOne env i fun x => TF.relu p (m 0) x
  | lrelu i => callOne env i fun x => TF.lrelu p (m 0) x
  | prelu i k => callOne env i fun x => TF.prelu p (m 0) x (ι k)
  | addC i k => callOne env i fun x => TF.addC p (m 0) x (ι k)
  | cAdd k i => callOne env i fun x => TF.cAdd p (m 0) (ι k) x
  | subC i k => callOne env i fun x => TF.subC p (m 0) x (ι k)
  | cSub k i => callOne env i fun x => TF.cSub p (m 0) (ι k) x
  | mulC i k => callOne env i fun x => TF.mulC p (m 0) x (ι k)
  | cMul k i => callOne env i fun x => TF.cMul p (m 0) (ι k) x
  | divC i k => callOne env i fun x => TF.divC p (m 0) x (ι k)
  | cDiv k i => callOne env i fun x => TF.cDiv p (m 0) (ι k) x
  | add i j => callTwo env i j fun x y => TF.add p (m 0) x y
  | sub i j => callTwo env i j fun x y => TF.sub p (m 0) x y
  | mul i j => callTwo env i j fun x y => TF.mul p (m 0) x y
  | div i j => callTwo env i j fun x y => TF.div p (m 0) x y
  | matmul i j => callTwo env i j fun x y => TF.matmul p (m 0) x y
  | sum i dim => callOne env i fun x => TF.sum p (m 0) x dim
  | mean i dim => callOne env i fun x => TF.mean p m x dim
  | max i dim => callOne env i fun x => TF.max p (m 0) x dim
  | broadcast i dim size => callOne env i fun x => TF.broadcast p (m 0) x dim size
  | transpose i => callOne env i fun x => TF.transpose p (m 0) x
  | triangularL i k => callOne env i fun x => TF.triangularL p (m 0) x k
  | triangularU i k => callOne env i fun x => TF.triangularU p (m 0) x k
  | slice i dim lower upper => callOne env i fun x => TF.slice p (m 0) x dim lower upper
  | pick i ids dim => callOne env i fun x => TF.pick p (m 0) x ids dim
  | concat is dim => callMany env is fun xs => TF.concat p (m 0) xs dim
  | split i dim n => do let x ← argAt env i; TF.split p m x dim n
  | reshape i dims batch => callOne env i fun x => do let s ← Shape.new p dims batch; TF.reshape p (m 0) x s
  | flatten i => callOne env i fun x => TF.flatten p (m 0) x
  | batchSum i => callOne env i fun x => TF.batchSum p (m 0) x
  | batchMean i => callOne env i fun x => TF.batchMean p m x
  | batchSlice i lower upper => callOne env i fun x => TF.batchSlice p (m 0) x lower upper
  | batchPick i ids => callOne env i fun x => TF.batchPick p (m 0) x ids
  | batchConcat is => callMany env is fun xs => TF.batchConcat p (m 0) xs
  | batchSplit i n => do let x ← argAt env i; TF.batchSplit p m x n
  | sliceSum is => callMany env is fun xs => TF.sliceSum p m xs

/-- The program, from the tensors `env`: these and all results. -/
def runCalc (p : Profile) (ι : κ → α) : (m : Nat → Mem α) → List (Calc κ) → List (Tensor α) → Res (List (Tensor α))
  | _, [], env => ok env
  | m, c :: rest, env => do
    let ys ← c.run p (m 0) ι env
    runCalc p ι (fun i => m (i + 1)) rest (env ++ ys)

end

/-- The call is not `max`. -/
def Calc.NoMax {κ : Type} : Calc κ → Prop
  | max _ _ => False
  | _ => True

/-! ## Bounds for rounding errors -/

/-- A bound: the exact number is at most `size`, and f32 arithmetic deviates from it by at most `((1 + 2^-24)^ops - 1) * size`.
`exact` is the number itself if it is known that there is no error. -/
structure Bound where
  size : ℝ
  ops : ℕ
  exact : Option ℝ

/-- What one operation can lose to underflow: the smallest normal number, in units of rounding. -/
noncomputable def tiny : ℝ := 1 / 2 ^ 126

open Classical in
/-- The bound, unless f32 could overflow. -/
noncomputable def Bound.fit (size : ℝ) (ops : ℕ) : Option Bound := if (1 + ulp) ^ ops * size ≤ maxF32 then some ⟨size, ops, none⟩ else none

namespace Bound

/-- An exact number. -/
noncomputable def of (v : ℝ) : Option Bound := some ⟨|v|, 0, some v⟩

/-- An f32 number; there are no bounds for infinities and NaN. -/
noncomputable def float : Fl f32 → Option Bound
  | .fin _ v _ => of v
  | _ => none

/-- A function of known bounds. -/
noncomputable def both (f : Bound → Bound → Option Bound) : Option Bound → Option Bound → Option Bound
  | some a, some b => f a b
  | _, _ => none

open Classical in
/-- Sizes add up, the larger error remains, and there is one more rounding; the first addition of a sum, to zero, is exact. -/
noncomputable def add (a b : Bound) : Option Bound :=
  if a.exact = some 0 then some b else fit (a.size + b.size) (Nat.max a.ops b.ops + 1)

/-- As `add`. -/
noncomputable def sub (a b : Bound) : Option Bound := fit (a.size + b.size) (Nat.max a.ops b.ops + 1)

open Classical in
/-- Sizes multiply, roundings add up, and there is one more; multiplying with one is exact. -/
noncomputable def mul (a b : Bound) : Option Bound :=
  if a.exact = some 1 then some b else if b.exact = some 1 then some a else fit (a.size * b.size + tiny) (a.ops + b.ops + 1)

open Classical in
/-- Division by exactly known numbers. -/
noncomputable def div (a b : Bound) : Option Bound :=
  match b.exact with
  | some v => if v = 0 then none else fit (a.size / |v| + tiny) (a.ops + 1)
  | none => none

/-- The sign changes. -/
noncomputable def neg (a : Bound) : Bound := { a with exact := a.exact.map fun v => -v }

/-- The absolute value. -/
noncomputable def abs (a : Bound) : Bound := { a with exact := a.exact.map fun v => |v| }

/-- `tanh` of the library, with an absolute error of at most `ε`. -/
noncomputable def tanh (ε : ℝ) (a : Bound) : Option Bound := fit (a.size + ε * 2 ^ 24) (a.ops + 1)

end Bound

open Classical in
/-- Bounds in place of f32; `ε` is the absolute error of the library's `tanh`. There are no bounds for the functions that `Calc` does not
call. Comparisons hold always (they occur in `prelu` only, whose factor is thus bounded by the sum of both cases). -/
@[reducible] noncomputable def boundFlt (ε : ℝ) : Flt (Option Bound) where
  Wide := Unit
  up := fun _ => ()
  down := fun _ => none
  wone := ()
  wadd := fun _ _ => ()
  wsub := fun _ _ => ()
  wexp := fun _ => ()
  wln := fun _ => ()
  wgt := fun _ _ => true
  zero := Bound.of 0
  one := Bound.of 1
  add := Bound.both Bound.add
  sub := Bound.both Bound.sub
  mul := Bound.both Bound.mul
  div := Bound.both Bound.div
  neg := fun a => a.map Bound.neg
  half := Bound.of (1 / 2)
  cent := some ⟨1 / 100 + tiny, 1, none⟩
  exp := fun _ => none
  ln := fun _ => none
  sin := fun _ => none
  cos := fun _ => none
  tan := fun _ => none
  tanh := fun a => a.bind (Bound.tanh ε)
  sqrt := fun _ => none
  abs := fun a => a.map Bound.abs
  powf := fun _ _ => none
  powi := fun _ _ => none
  gt := fun _ _ => true
  le := fun _ _ => true
  feq := fun _ _ => true
  ofInt := fun n => if |n| ≤ 2 ^ 24 then Bound.of n else none

/-- The f32 number `x` is within the bound `a` of the exact number `v`. -/
def Bound.Holds (a : Bound) (x : Fl f32) (v : ℝ) : Prop := ∃ w, x.Is w ∧ |w - v| ≤ ((1 + ulp) ^ a.ops - 1) * a.size

/-! ## Magnitudes of whole numbers -/

/-- `n`, if all whole numbers of this magnitude are f32 numbers. -/
def whole (n : ℕ) : Option ℕ := if n ≤ 2 ^ 24 then some n else none

open Classical in
/-- The magnitude of a whole f32 number. -/
noncomputable def wholeOf : Fl f32 → Option ℕ
  | .fin _ v _ => if (⌊v⌋ : ℝ) = v then some ⌊v⌋.natAbs else none
  | _ => none

/-- A function of known magnitudes. -/
def wholes (f : ℕ → ℕ → ℕ) : Option ℕ → Option ℕ → Option ℕ
  | some a, some b => whole (f a b)
  | _, _ => none

/-- Magnitudes of whole numbers in place of f32: the largest magnitude that the exact result can have, unless it or something it depends on
exceeds 2^24.  There are no bounds for functions that do not give whole numbers. -/
@[reducible] def wholeFlt : Flt (Option ℕ) where
  Wide := Unit
  up := fun _ => ()
  down := fun _ => none
  wone := ()
  wadd := fun _ _ => ()
  wsub := fun _ _ => ()
  wexp := fun _ => ()
  wln := fun _ => ()
  wgt := fun _ _ => true
  zero := some 0
  one := some 1
  add := wholes (· + ·)
  sub := wholes (· + ·)
  mul := wholes (· * ·)
  div := fun _ _ => none
  neg := id
  half := none
  cent := none
  exp := fun _ => none
  ln := fun _ => none
  sin := fun _ => none
  cos := fun _ => none
  tan := fun _ => none
  tanh := fun _ => none
  sqrt := fun _ => none
  abs := id
  powf := fun _ _ => none
  powi := fun _ _ => none
  gt := fun a b => match a, b with
    | none, _ => true
    | some _, none => false
    | some a, some b => decide (b < a)
  le := fun _ _ => true
  feq := fun _ _ => true
  ofInt := fun n => whole n.natAbs

end Verif
