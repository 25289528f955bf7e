import Verif.RealInst
import Verif.Device

/-!
# The textbook real functions behind the element-wise functions, and where they are differentiable
-/

namespace Verif

/-- The function that a unary node or tensor function is documented to compute. -/
noncomputable def Un.real : Un → ℝ → ℝ
  | .neg => fun x => -x
  | .sqrt => Real.sqrt
  | .abs => fun x => |x|
  | .sin => Real.sin
  | .cos => Real.cos
  | .tan => Real.tan
  | .exp => Real.exp
  | .ln => Real.log
  | .tanh => Real.tanh
  | .sigmoid => fun x => 1 / (1 + Real.exp (-x))
  | .softplus => fun x => Real.log (1 + Real.exp x)

/-- Where it is differentiable (inside its domain). -/
def Un.Dom : Un → ℝ → Prop
  | .sqrt => fun x => 0 < x
  | .abs => fun x => x ≠ 0
  | .tan => fun x => Real.cos x ≠ 0
  | .ln => fun x => 0 < x
  | _ => fun _ => True

open Classical in
/-- The functions with a constant `k`. -/
noncomputable def Cn.real : Cn → ℝ → ℝ → ℝ
  | .add => fun k x => x + k
  | .subL => fun k x => k - x
  | .subR => fun k x => x - k
  | .mul => fun k x => x * k
  | .divL => fun k x => k / x
  | .divR => fun k x => x / k
  | .powfL => fun k x => k ^ x
  | .powfR => fun k x => x ^ k
  | .prelu => fun k x => if 0 < x then x else k * x
  | .elu => fun k x => if 0 < x then x else k * (Real.exp x - 1)

/-- Where they are differentiable (inside their domain). -/
def Cn.Dom : Cn → ℝ → ℝ → Prop
  | .divL => fun _ x => x ≠ 0
  | .divR => fun k _ => k ≠ 0
  | .powfL => fun k _ => 0 < k
  | .powfR => fun _ x => 0 < x
  | .prelu => fun _ x => x ≠ 0
  | .elu => fun _ x => x ≠ 0
  | _ => fun _ _ => True

/-- The functions of two operands. -/
noncomputable def Bi.real : Bi → ℝ → ℝ → ℝ
  | .add => fun a b => a + b
  | .sub => fun a b => a - b
  | .mul => fun a b => a * b
  | .div => fun a b => a / b
  | .powf => fun a b => a ^ b

/-- Where they are differentiable. -/
def Bi.Dom : Bi → ℝ → ℝ → Prop
  | .div => fun _ b => b ≠ 0
  | .powf => fun a _ => 0 < a
  | _ => fun _ _ => True

end Verif
