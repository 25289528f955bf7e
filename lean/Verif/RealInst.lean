import Verif.Scalar
import Mathlib.Analysis.SpecialFunctions.Pow.Real
import Mathlib.Analysis.SpecialFunctions.Trigonometric.Basic
import Mathlib.Analysis.SpecialFunctions.Exp
import Mathlib.Analysis.SpecialFunctions.Log.Basic

/-!
# Real numbers as elements

The exact functions of which the f32 functions are roundings.  `powf` is real exponentiation, `powi` integer exponentiation.
-/

namespace Verif
open Classical in
/-- Exact real arithmetic in place of f32 and f64. -/
@[reducible] noncomputable def realFlt : Flt ℝ where
  Wide := ℝ
  up := id
  down := id
  wone := 1
  wadd := (· + ·)
  wsub := (· - ·)
  wexp := Real.exp
  wln := Real.log
  wgt := fun a b => decide (b < a)
  zero := 0
  one := 1
  add := (· + ·)
  sub := (· - ·)
  mul := (· * ·)
  div := (· / ·)
  neg := (- ·)
  half := 1 / 2
  cent := 1 / 100
  exp := Real.exp
  ln := Real.log
  sin := Real.sin
  cos := Real.cos
  tan := Real.tan
  tanh := Real.tanh
  sqrt := Real.sqrt
  abs := fun a => |a|
  powf := fun a b => a ^ b
  powi := fun a k => a ^ k
  gt := fun a b => decide (b < a)
  le := fun a b => decide (a ≤ b)
  feq := fun a b => decide (a = b)
  ofInt := fun n => (n : ℝ)

end Verif
