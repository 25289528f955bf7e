import Verif.PropsFloat

/-!
# Masking with minus infinity: what is needed to state C90
-/

namespace Verif

/-- Equal, except that +0 and -0 count as equal. -/
def Fl.Same {F : Fmt} (x y : Fl F) : Prop := x = y ∨ (x.Is 0 ∧ y.Is 0)

/-- What C90 assumes of the mathematical library in addition (every libm meets it): `exp` and `ln` of NaN are NaN, `exp(-∞)` is 0, `exp` does not
distinguish the two zeros, `ln 1` is 0. -/
structure Libm.Special {F : Fmt} (L : Libm F) : Prop where
  exp_nan : L.exp .nan = .nan
  ln_nan : L.ln .nan = .nan
  exp_neg_inf : (L.exp (.inf true)).Is 0
  exp_zero : ∀ x y : Fl F, x.Is 0 → y.Is 0 → L.exp x = L.exp y
  ln_one : ∀ x : Fl F, x.Is 1 → (L.ln x).Is 0

/-- The elements of an array along an axis, through the position `c` of the sample `b`. -/
def axisOf {α : Type} (sx : Shape) (f : Arr α) (dim : Nat) (c : Nat → Nat) (b : Nat) : List α :=
  (List.range (sx.get dim)).map fun j => f (cset c dim j) b

/-- Not minus infinity. -/
def Fl.unmasked : Fl f32 → Bool
  | .inf true => false
  | _ => true

end Verif
