import Verif.FloatInst
import Mathlib.Analysis.SpecialFunctions.Log.Basic

/-!
# The environment of a computation in f32

Which of two equally near numbers rounding takes and which mathematical library is linked are arbitrary; `Ieee.ideal` shows that the
assumptions on the library are met by one that rounds the exact result.
-/

namespace Verif

/-- Rounding to nearest for f32 and f64, and mathematical libraries that meet `Libm.Sane`. -/
class Ieee where
  near32 : Near f32
  near64 : Near f64
  libm32 : Libm f32
  libm64 : Libm f64
  sane32 : libm32.Sane
  sane64 : libm64.Sane

/-- f32 arithmetic. -/
@[reducible] noncomputable instance ieeeFlt [E : Ieee] : Flt (Fl f32) := floatFlt E.near32 E.near64 E.libm32 E.libm64

/-- The finite value `x` is the number `v`. -/
def Fl.Is {F : Fmt} (x : Fl F) (v : ℝ) : Prop := x.In v v

/-- The number a value stands for (0 if it is not finite). -/
def Fl.val {F : Fmt} : Fl F → ℝ
  | .fin _ x _ => x
  | _ => 0

/-- The library functions have an absolute error of at most `ε`: `exp` of numbers that are not positive, `ln` of numbers in [1, 2], `tanh`. -/
structure Libm.Accurate {F : Fmt} (L : Libm F) (ε : ℝ) : Prop where
  exp : ∀ (x : Fl F) (v : ℝ), x.Is v → v ≤ 0 → ∃ w, (L.exp x).Is w ∧ |w - Real.exp v| ≤ ε
  ln : ∀ (x : Fl F) (v : ℝ), x.Is v → 1 ≤ v → v ≤ 2 → ∃ w, (L.ln x).Is w ∧ |w - Real.log v| ≤ ε
  tanh : ∀ (x : Fl F) (v : ℝ), x.Is v → ∃ w, (L.tanh x).Is w ∧ |w - Real.tanh v| ≤ ε

/-! ## Error bounds

`ε` is the error of the f64 library, `R` bounds the magnitude of the inputs, `n + 1` is their number. -/

/-- Error of one step of logsumexp in f64. -/
noncomputable def stepErr (ε R : ℝ) : ℝ := 2 * ε + (3 * R + 4) / 2 ^ 53

/-- Error of logsumexp. -/
noncomputable def lseErr (ε R : ℝ) (n : Nat) : ℝ := 2 * (n * stepErr ε (R + n + 1)) + (R + n) / 2 ^ 24 + 1 / 2 ^ 150

/-- Error of `ln_softmax`. -/
noncomputable def lnErr (ε R : ℝ) (n : Nat) : ℝ := 2 * lseErr ε R n + (2 * R + n) / 2 ^ 24 + 1 / 2 ^ 150

/-- `0 ≤ x`, including `∞`. -/
def Fl.NonNeg {F : Fmt} : Fl F → Prop
  | .fin _ x _ => 0 ≤ x
  | .inf s => s = false
  | _ => False

/-- The unit of rounding of f32: the largest relative error of one addition. -/
noncomputable def ulp : ℝ := 1 / 2 ^ 24

end Verif
