import Verif.TensorSpec

/-!
# Specification vocabulary for functions on tensors (continued)
-/

namespace Verif
variable {α : Type}

/-- The call returns a tensor on device `d` of shape `s` with elements `F`. -/
def Yields (r : Res (Tensor α)) (d : Nat) (s : Shape) (F : Arr α) : Prop := ∃ y, r = .ok y ∧ y.Holds d s F

/-- Coordinates read in an operand of shape `s` that is broadcast along its axes of length 1. -/
def bc (s : Shape) (c : Nat → Nat) : Nat → Nat := fun i => if s.get i = 1 then 0 else c i

/-- Operands that `+ - * /` accept: equal extents or one of them a scalar, and compatible batches. -/
def OpFits (a b : Shape) : Prop :=
  ((∀ i, a.get i = b.get i) ∨ (∀ i, a.get i = 1) ∨ (∀ i, b.get i = 1)) ∧ BatchCompat a b

/-- The shape of the result of `+ - * /`. -/
def Shape.IsJoin (s a b : Shape) : Prop := s.Is (fun i => max (a.get i) (b.get i)) (max a.batch b.batch)

end Verif
