import Verif.LifeKernels
import Verif.GraphLater
import Verif.Operators

/-!
# The updates made by the `backward` of library operators keep device, shape and size of the buffer of the gradient
-/

set_option linter.unusedSectionVars false

namespace Verif
open Res
variable {α : Type} [Flt α]

theorem KL.addA {p : Profile} {gx t : Tensor α} : KL gx (TF.addAssign p gx t) := by
  unfold TF.addAssign Dev.addAssign
  refine KL.bind fun d _ => KL.bind fun _ _ => KL.bind fun _ _ => ?_
  exact callFw_local _ _ _ _ _ _

theorem KL.subA {p : Profile} {gx t : Tensor α} : KL gx (TF.subAssign p gx t) := by
  unfold TF.subAssign Dev.subAssign
  refine KL.bind fun d _ => KL.bind fun _ _ => KL.bind fun _ _ => ?_
  exact callFw_local _ _ _ _ _ _

theorem KL.devBw {op : BwOp α} {p : Profile} {d : Nat} {m : Mem α} {xs ys : List (Tensor α)} {gy gx : Tensor α} : KL gx (Dev.bw op p d m xs ys gy gx) := by
  unfold Dev.bw
  refine KL.bind fun _ _ => KL.bind fun _ _ => KL.bind fun _ _ => KL.bind fun _ _ => KL.bind fun _ _ => ?_
  exact callBw_local _ _ _ _ _ _ _ _ _

/-- Closes a goal about one update. -/
macro "klu" : tactic => `(tactic| repeat' (with_reducible first | exact KL.panic | exact KL.addA | exact KL.subA | exact KL.devBw | refine KL.bind fun _ _ => ?_))

theorem NodeOp.bw_local (p : Profile) (d : Nat) (m : Mem α) (op : NodeOp α) (xs ys gys : List (Tensor α)) (ss : List Shape) {u : Nat × (Tensor α → Res (Tensor α))}
    (hu : u ∈ op.bw p d m xs ys gys ss) (gx : Tensor α) : KL gx (u.2 gx) := by
  cases op with
  | split dim n =>
    simp only [NodeOp.bw] at hu
    split at hu
    · simp only [List.mem_cons, List.not_mem_nil, or_false] at hu; subst hu; exact KL.panic
    · obtain ⟨i, _, rfl⟩ := List.mem_map.mp hu; dsimp only; klu
  | batchSplit n =>
    simp only [NodeOp.bw] at hu
    split at hu
    · simp only [List.mem_cons, List.not_mem_nil, or_false] at hu; subst hu; exact KL.panic
    · obtain ⟨i, _, rfl⟩ := List.mem_map.mp hu; dsimp only; klu
  | concat dim => simp only [NodeOp.bw] at hu; obtain ⟨i, _, rfl⟩ := List.mem_map.mp hu; dsimp only; klu
  | batchConcat => simp only [NodeOp.bw] at hu; obtain ⟨i, _, rfl⟩ := List.mem_map.mp hu; dsimp only; klu
  | un u' => cases u' <;> (simp only [NodeOp.bw, List.mem_cons, List.not_mem_nil, or_false] at hu; subst hu; dsimp only; klu)
  | cn c k => cases c <;> (simp only [NodeOp.bw, List.mem_cons, List.not_mem_nil, or_false] at hu; subst hu; dsimp only; klu)
  | sc s => cases s <;> (simp only [NodeOp.bw, List.mem_cons, List.not_mem_nil, or_false] at hu; rcases hu with rfl | rfl <;> dsimp only <;> klu)
  | bi b => simp only [NodeOp.bw, List.mem_cons, List.not_mem_nil, or_false] at hu; rcases hu with rfl | rfl <;> dsimp only <;> klu
  | softmaxCrossEntropy dim => simp only [NodeOp.bw, List.mem_cons, List.not_mem_nil, or_false] at hu; rcases hu with rfl | rfl <;> dsimp only <;> klu
  | sparseSoftmaxCrossEntropy ids dim => simp only [NodeOp.bw, List.mem_cons, List.not_mem_nil, or_false] at hu; rcases hu with rfl | rfl <;> dsimp only <;> klu
  | matmul => simp only [NodeOp.bw, List.mem_cons, List.not_mem_nil, or_false] at hu; rcases hu with rfl | rfl <;> dsimp only <;> klu
  | input _ => simp [NodeOp.bw] at hu
  | inputOwner _ => simp [NodeOp.bw] at hu
  | parameter _ => simp [NodeOp.bw] at hu
  | _ => simp only [NodeOp.bw, List.mem_cons, List.not_mem_nil, or_false] at hu; subst hu; dsimp only; klu

/-- An update never makes a gradient null. -/
theorem NodeOp.bw_valid {p : Profile} {d : Nat} {m : Mem α} {op : NodeOp α} {xs ys gys : List (Tensor α)} {ss : List Shape} {u : Nat × (Tensor α → Res (Tensor α))}
    (hu : u ∈ op.bw p d m xs ys gys ss) {t t' : Tensor α} (e : u.2 t = ok t') : t'.valid = t.valid := by
  have := (NodeOp.bw_local p d m op xs ys gys ss hu t t' e).2.2.2
  unfold Tensor.valid
  cases h1 : t.buf <;> cases h2 : t'.buf <;> simp_all

/-- A null tensor cannot be allocated twice: seeding a gradient that is there panics (tensor.rs:51). -/
theorem ones_valid {p : Profile} {m : Nat → α} {t : Tensor α} (h : t.valid = true) (k : α) : allocReset p m k t = panic := by
  unfold allocReset Tensor.alloc
  rw [h, check_false _ (by simp)]
  rfl

end Verif
