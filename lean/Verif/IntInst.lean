import Verif.TensorFn
import Verif.PropsSafety

/-!
# Integers as elements, for concrete examples

Used only to show that hypotheses of theorems can be met (`exp`, `sin`, … are placeholders).
-/

namespace Verif

/-- The integers with placeholder transcendental functions. -/
@[reducible] def intFlt : Flt ℤ where
  Wide := ℤ
  up := id
  down := id
  wone := 1
  wadd := (· + ·)
  wsub := (· - ·)
  wexp := id
  wln := id
  wgt := fun a b => decide (b < a)
  zero := 0
  one := 1
  add := (· + ·)
  sub := (· - ·)
  mul := (· * ·)
  div := (· / ·)
  neg := (- ·)
  half := 0
  cent := 0
  exp := id
  ln := id
  sin := id
  cos := id
  tan := id
  tanh := id
  sqrt := id
  abs := fun a => if a < 0 then -a else a
  powf := fun a _ => a
  powi := fun a k => a ^ k.toNat
  gt := fun a b => decide (b < a)
  le := fun a b => decide (a ≤ b)
  feq := fun a b => decide (a = b)
  ofInt := id

/-- The shape with extents `[n, m]` and batch `b`. -/
def matShape (n m b : Nat) : Shape := ⟨[n, m, 1, 1, 1, 1, 1, 1], b, if m = 1 then (if n = 1 then 0 else 1) else 2, n * m⟩

theorem matShape_wf {n m b : Nat} (h : Shape.new .debug [n, m] b = .ok (matShape n m b)) : (matShape n m b).WF := (Shape.Reachable.new h).wf

theorem vecShape_wf {n b : Nat} (h : Shape.new .debug [n] b = .ok (vecShape n b)) : (vecShape n b).WF := (Shape.Reachable.new h).wf

end Verif
