import Verif.ErrorSpec

/-!
# Specification for C89: programs of all tensor functions, and marks

A program is run on tensors of numbers and, a second time, on tensors of *marks* (Booleans): a result is marked if one of the operands is.
-/

namespace Verif
open Res

/-- One call of a function on tensors: those of `Calc` and the rest of the library. `κ` is the type of the constants. -/
inductive FnCall (κ : Type) where
  | base (c : Calc κ)
  | sqrt (i : Nat) | sin (i : Nat) | cos (i : Nat) | tan (i : Nat) | exp (i : Nat) | ln (i : Nat) | softplus (i : Nat) | elu (i : Nat) (k : κ)
  | powf (i : Nat) (k : κ) | powi (i : Nat) (n : Int) (h : -2147483648 ≤ n ∧ n ≤ 2147483647) | pow (i j : Nat)
  | logsumexp (i dim : Nat) | lnSoftmax (i dim : Nat) | softmax (i dim : Nat) | softmaxCrossEntropy (i j dim : Nat)
  | sparseSoftmaxCrossEntropy (i : Nat) (ids : List Nat) (dim : Nat)
  | batchNormalization (i g b : Nat) (eps : κ) (enabled : Bool) | layerNormalization (i g b : Nat) (eps : κ)

section
variable {α κ : Type} [Flt α]

/-- Call of a function of three tensors. -/
def callThree (env : List (Tensor α)) (i j k : Nat) (f : Tensor α → Tensor α → Tensor α → Res (Tensor α)) : Res (List (Tensor α)) := do
  let x ← argAt env i
  let x' ← argAt env j
  let x'' ← argAt env k
  let y ← f x x' x''
  ok [y]

/-- The results of the call; `ι` gives the constants. The calls are those of `Calc.run` and prima_undine/src/functions/basic/tensor.rs 46-129,
166-171 and prima_undine_contrib/src/functions/contrib/tensor.rs 51-69, as modelled in `TF`. -/
def FnCall.run (p : Profile) (m : Mem α) (ι : κ → α) (env : List (Tensor α)) : FnCall κ → Res (List (Tensor α))
  | base c => c.run p m ι env
  | sqrt i => callOne env i fun x => TF.sqrt p (m 0) x
  | sin i => callOne env i fun x => TF.sin p (m 0) x
  | cos i => callOne env i fun x => TF.cos p (m 0) x
  | tan i => callOne env i fun x => TF.tan p (m 0) x
  | exp i => callOne env i fun x => TF.exp p (m 0) x
  | ln i => callOne env i fun x => TF.ln p (m 0) x
  | softplus i => callOne env i fun x => TF.softplus p (m 0) x
  | elu i k => callOne env i fun x => TF.elu p (m 0) x (ι k)
  | powf i k => callOne env i fun x => TF.powf p (m 0) x (ι k)
  | powi i n _ => callOne env i fun x => TF.powi p (m 0) x n
  | pow i j => callTwo env i j fun x y => TF.pow p (m 0) x y
  | logsumexp i dim => callOne env i fun x => TF.logsumexp p (m 0) x dim
  | lnSoftmax i dim => callOne env i fun x => TF.lnSoftmax p m x dim
  | softmax i dim => callOne env i fun x => TF.softmax p m x dim
  | softmaxCrossEntropy i j dim => callTwo env i j fun x y => TF.softmaxCrossEntropy p m x y dim
  | sparseSoftmaxCrossEntropy i ids dim => callOne env i fun x => TF.sparseSoftmaxCrossEntropy p m x ids dim
  | batchNormalization i g b eps enabled => callThree env i g b fun x g b => TF.batchNormalization p m x g b (ι eps) enabled
  | layerNormalization i g b eps => callThree env i g b fun x g b => TF.layerNormalization p m x g b (ι eps)

/-- The program, from the tensors `env`: these and all results. -/
def runFns (p : Profile) (ι : κ → α) : (m : Nat → Mem α) → List (FnCall κ) → List (Tensor α) → Res (List (Tensor α))
  | _, [], env => ok env
  | m, c :: rest, env => do
    let ys ← c.run p (m 0) ι env
    runFns p ι (fun i => m (i + 1)) rest (env ++ ys)

end

/-- Marks in place of numbers: the result of every operation is marked if one of the operands is; literals are not marked. (A comparison is true if its first
operand is marked, so that `max` picks a marked number if there is one.) -/
@[reducible] def flowFlt : Flt Bool where
  Wide := Bool
  up := id
  down := id
  wone := false
  wadd := or
  wsub := or
  wexp := id
  wln := id
  wgt := fun a _ => a
  zero := false
  one := false
  add := or
  sub := or
  mul := or
  div := or
  neg := id
  half := false
  cent := false
  exp := id
  ln := id
  sin := id
  cos := id
  tan := id
  tanh := id
  sqrt := id
  abs := id
  powf := or
  powi := fun a _ => a
  gt := fun a _ => a
  le := fun a _ => a
  feq := fun a _ => a
  ofInt := fun _ => false

/-- Two tensors of one shape on one device which differ in marked elements only. -/
def Marked {α : Type} (d : Nat) (x y : Tensor α) (marks : Tensor Bool) : Prop :=
  ∃ (s : Shape) (f g : Arr α) (t : Arr Bool), x.Holds d s f ∧ y.Holds d s g ∧ marks.Holds d s t ∧ ∀ c b, s.Valid c b → t c b = false → f c b = g c b

end Verif
