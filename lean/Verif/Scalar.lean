import Verif.Core
import Mathlib.Data.Int.Basic

/-!
# Scalar operations

The element type `f32` is modelled by an arbitrary type `α` with the operations the kernels use (`Flt α`); nothing is
assumed about these operations here.  `ℝ` is an instance (`Verif.RealInst`); `f32` and `f64` with
rounding to nearest, infinities and NaN another (`Verif.FloatInst`).
The closures passed to the kernel macros of `devices/naive/*.rs` follow.
-/

namespace Verif

/-- The f32 operations used by the kernels, and the f64 operations used by logsumexp.rs. -/
class Flt (α : Type) extends Zero α, One α, Add α, Sub α, Mul α, Div α, Neg α where
  /-- the type `f64` -/
  Wide : Type
  /-- `x as f64` -/
  up : α → Wide
  /-- `x as f32` -/
  down : Wide → α
  /-- the f64 literal `1.` -/
  wone : Wide
  wadd : Wide → Wide → Wide
  wsub : Wide → Wide → Wide
  wexp : Wide → Wide
  wln : Wide → Wide
  /-- `a > b` on f64 -/
  wgt : Wide → Wide → Bool
  /-- the literal `0.5` -/
  half : α
  /-- the literal `0.01` -/
  cent : α
  exp : α → α
  ln : α → α
  sin : α → α
  cos : α → α
  tan : α → α
  tanh : α → α
  sqrt : α → α
  abs : α → α
  powf : α → α → α
  powi : α → Int → α
  /-- `a > b` -/
  gt : α → α → Bool
  /-- `a <= b` -/
  le : α → α → Bool
  /-- `a == b` -/
  feq : α → α → Bool
  /-- `n as f32` -/
  ofInt : Int → α

namespace Scalar
variable {α : Type} [Flt α]
open Flt

/-- `b as u32 as f32`. -/
def b2f (b : Bool) : α := if b then 1 else 0

/-- neg.rs:1 -/
def negFw (x : α) : α := -x
/-- sqrt.rs:1 -/
def sqrtFw (x : α) : α := sqrt x
/-- sqrt.rs:2 -/
def sqrtBw (_x y gy : α) : α := gy * half / y
/-- abs.rs:1 -/
def absFw (x : α) : α := abs x
/-- abs.rs:2-3: `gy * ((x > 0.) as i32 - (x < 0.) as i32) as f32` -/
def absBw (x _y gy : α) : α := gy * ofInt ((if gt x 0 then 1 else 0) - (if gt 0 x then 1 else 0))
/-- sin.rs:1 -/
def sinFw (x : α) : α := sin x
/-- sin.rs:2 -/
def sinBw (x _y gy : α) : α := gy * cos x
/-- cos.rs:1 -/
def cosFw (x : α) : α := cos x
/-- cos.rs:2 -/
def cosBw (x _y gy : α) : α := (-gy) * sin x
/-- tan.rs:1 -/
def tanFw (x : α) : α := tan x
/-- tan.rs:2 -/
def tanBw (_x y gy : α) : α := gy * (1 + y * y)
/-- exp.rs:1 -/
def expFw (x : α) : α := exp x
/-- exp.rs:2 -/
def expBw (_x y gy : α) : α := gy * y
/-- ln.rs:1 -/
def lnFw (x : α) : α := ln x
/-- ln.rs:2 -/
def lnBw (x _y gy : α) : α := gy / x
/-- tanh.rs:1 -/
def tanhFw (x : α) : α := tanh x
/-- tanh.rs:2 -/
def tanhBw (_x y gy : α) : α := gy * (1 - y * y)
/-- sigmoid.rs:1 -/
def sigmoidFw (x : α) : α := half + half * tanh (half * x)
/-- sigmoid.rs:2 -/
def sigmoidBw (_x y gy : α) : α := gy * y * (1 - y)
/-- softplus.rs:1-2 -/
def softplusFw (x : α) : α := ln (1 + exp (-(abs x))) + b2f (gt x 0) * x

/-- add.rs:64 -/
def addConstFw (x k : α) : α := x + k
/-- add.rs:65 -/
def addConstBw (_x _y gy _k : α) : α := gy
/-- sub.rs:64 -/
def subConstLFw (x k : α) : α := k - x
/-- sub.rs:65-67 -/
def subConstLBw (_x _y gy _k : α) : α := -gy
/-- sub.rs:68 -/
def subConstRFw (x k : α) : α := x - k
/-- sub.rs:69 -/
def subConstRBw (_x _y gy _k : α) : α := gy
/-- mul.rs:72 -/
def mulConstFw (x k : α) : α := x * k
/-- mul.rs:73-75 -/
def mulConstBw (_x _y gy k : α) : α := k * gy
/-- div.rs:74 -/
def divConstLFw (x k : α) : α := k / x
/-- div.rs:75-77 -/
def divConstLBw (x y gy _k : α) : α := (-gy) * y / x
/-- div.rs:78 -/
def divConstRFw (x k : α) : α := x / k
/-- div.rs:79-81 -/
def divConstRBw (_x _y gy k : α) : α := gy / k
/-- powf.rs:78 -/
def powfConstLFw (x k : α) : α := powf k x
/-- powf.rs:79-81 -/
def powfConstLBw (_x y gy k : α) : α := gy * ln k * y
/-- powf.rs:82 -/
def powfConstRFw (x k : α) : α := powf x k
/-- powf.rs:83-85 -/
def powfConstRBw (x _y gy k : α) : α := gy * k * powf x (k - 1)
/-- prelu.rs:1-2 -/
def preluFw (x k : α) : α := x * (b2f (gt x 0) + b2f (le x 0) * k)
/-- prelu.rs:3-4 -/
def preluBw (x _y gy k : α) : α := gy * (b2f (gt x 0) + b2f (le x 0) * k)
/-- elu.rs:1-7 -/
def eluFw (x k : α) : α := if gt x 0 then x else k * (exp x - 1)
/-- elu.rs:8-14 -/
def eluBw (x y gy k : α) : α := if gt x 0 then gy else gy * (y + k)

/-- add.rs:4 -/
def addFw (a b : α) : α := a + b
/-- sub.rs:4 -/
def subFw (a b : α) : α := a - b
/-- mul.rs:4 -/
def mulFw (a b : α) : α := a * b
/-- div.rs:4 -/
def divFw (a b : α) : α := a / b
/-- powf.rs:4 -/
def powfFw (a b : α) : α := powf a b

/-- add.rs:66 -/
def addScalarFw (x k : α) : α := x + k
/-- sub.rs:70 -/
def subScalarLFw (x k : α) : α := k - x
/-- sub.rs:71 -/
def subScalarRFw (x k : α) : α := x - k
/-- mul.rs:76 -/
def mulScalarFw (x k : α) : α := x * k
/-- div.rs:82 -/
def divScalarLFw (x k : α) : α := k / x
/-- div.rs:83 -/
def divScalarRFw (x k : α) : α := x / k
/-- powf.rs:86 -/
def powfScalarLFw (x k : α) : α := powf k x
/-- powf.rs:87 -/
def powfScalarRFw (x k : α) : α := powf x k

/-- One step of the pairwise logsumexp, in f64, logsumexp.rs:23-27. -/
def lseStep (tmp arg : Wide α) : Wide α :=
  if wgt tmp arg then wadd tmp (wln (wadd wone (wexp (wsub arg tmp)))) else wadd arg (wln (wadd wone (wexp (wsub tmp arg))))

end Scalar
end Verif
