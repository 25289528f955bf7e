import Verif.GraphFw
import Verif.GraphBw
import Verif.Operators
import Verif.Safety4

/-!
# Lemmas about the operators of the library: device, shape and host values of results
-/

set_option linter.unusedSectionVars false

namespace Verif
open Res
variable {α : Type} [Flt α]

/-- If the result is a tensor, it is `y` but for the contents. -/
def Keeps (y : Tensor α) (r : Res (Tensor α)) : Prop := ∀ y', r = ok y' → y'.device = y.device ∧ y'.shape = y.shape ∧ y'.host = y.host ∧ (y.buf ≠ none → y'.buf ≠ none)

theorem Keeps.bind {σ : Type} {y : Tensor α} {r : Res σ} {f : σ → Res (Tensor α)} (h : ∀ a, r = ok a → Keeps y (f a)) : Keeps y (r >>= f) := by
  intro y' e
  rw [Res.bind_eq_ok] at e
  obtain ⟨a, ha, e⟩ := e
  exact h a ha y' e

theorem Keeps.ok {y : Tensor α} {b : List α} : Keeps y (Res.ok { y with buf := some b }) := by
  intro y' e; cases e; exact ⟨rfl, rfl, rfl, fun _ => by simp⟩

theorem Keeps.self (y : Tensor α) : Keeps y (Res.ok y) := by
  intro y' e; cases e; exact ⟨rfl, rfl, rfl, fun h => h⟩

theorem Keeps.trans {y y1 : Tensor α} {r r' : Res (Tensor α)} (h : Keeps y r) (h1 : r = Res.ok y1) (h2 : Keeps y1 r') : Keeps y r' := by
  intro y' e
  obtain ⟨a1, a2, a3, a4⟩ := h y1 h1
  obtain ⟨b1, b2, b3, b4⟩ := h2 y' e
  exact ⟨b1.trans a1, b2.trans a2, b3.trans a3, fun h => b4 (a4 h)⟩

theorem loop_imp {σ : Type} {n : Nat} {f : Nat → σ → Res σ} {s s' : σ} (P : σ → Prop) (h0 : P s) (hf : ∀ i a b, i < n → P a → f i a = Res.ok b → P b)
    (h : loop n f s = Res.ok s') : P s' := by
  induction n generalizing s' with
  | zero => simp only [loop, Res.ok.injEq] at h; rwa [← h]
  | succ n ih =>
    rw [loop_succ, Res.bind_eq_ok] at h
    obtain ⟨a, ha, hb⟩ := h
    exact hf n a s' (Nat.lt_succ_self n) (ih (fun i a b hi => hf i a b (Nat.lt_succ_of_lt hi)) ha) hb

/-- A loop over states with a tensor. -/
theorem Keeps.loop {σ : Type} {y : Tensor α} {n : Nat} {f : Nat → σ × Tensor α → Res (σ × Tensor α)} {s : σ}
    (hf : ∀ i a b, f i a = Res.ok b → Keeps a.2 (Res.ok b.2)) {s' : σ × Tensor α} (h : Verif.loop n f (s, y) = Res.ok s') : Keeps y (Res.ok s'.2) :=
  loop_imp (fun st => Keeps y (Res.ok st.2)) (Keeps.self y) (fun i a b _ ha hb => Keeps.trans ha rfl (hf i a b hb)) h

theorem Keeps.panic {y : Tensor α} : Keeps y (Res.panic : Res (Tensor α)) := fun _ e => by cases e
theorem Keeps.ub {y : Tensor α} : Keeps y (Res.ub : Res (Tensor α)) := fun _ e => by cases e

theorem Keeps.ite {y : Tensor α} {c : Prop} [Decidable c] {a b : Res (Tensor α)} (ha : Keeps y a) (hb : Keeps y b) : Keeps y (if c then a else b) := by
  split <;> assumption

theorem concatFw_keeps (p : Profile) (xs : List (Tensor α)) (u : List Nat) (f : List α) (y : Tensor α) : Keeps y (K.concatFw p xs u f y) := by
  unfold K.concatFw
  refine Keeps.bind fun _ _ => Keeps.bind fun _ _ => Keeps.bind fun _ _ => Keeps.bind fun st h => ?_
  refine Keeps.loop (fun i a b h => ?_) h
  simp only [Res.bind_eq_ok, Res.ok.injEq] at h
  obtain ⟨_, _, _, _, _, _, _, _, rfl⟩ := h
  exact Keeps.ok

theorem callFw_keeps (p : Profile) (n : FwName) (xs : List (Tensor α)) (u : List Nat) (f : List α) (y : Tensor α) :
    Keeps y (Dev.callFw p n xs u f y) := by
  cases n
  case concat => exact concatFw_keeps p xs u f y
  case identity =>
    simp only [Dev.callFw, Naive.fwImpl, K.identity]
    refine Keeps.bind fun _ _ => Keeps.bind fun y1 h1 => ?_
    refine Keeps.trans (r := K.resetTensor p [] [] [0] y) ?_ h1 ?_
    · unfold K.resetTensor
      repeat' first
        | exact Keeps.ok
        | refine Keeps.bind fun _ _ => ?_
    · repeat' first
        | exact Keeps.ok
        | refine Keeps.bind fun _ _ => ?_
  all_goals
    simp only [Dev.callFw, Naive.fwImpl, K.fwX, K.fwAb, K.fwConst, K.fwScalar, K.powiFw, K.resetTensor, K.resetBySlice, K.resetByTensor, K.opAssign,
      K.mulAssignConst, K.sumFw, K.maxFw, K.minFw, K.logsumexpFw, K.reduce, K.broadcastFw, K.matmulFw, K.transposeFw, K.triangularFw, K.flipFw,
      K.permuteFw, K.sliceFw, K.pickFw, K.batchConcatFw, K.batchPickFw, K.batchSliceFw, K.batchSumFw]
    repeat' first
      | exact Keeps.ok
      | exact Keeps.panic
      | exact Keeps.ub
      | refine Keeps.bind fun _ _ => ?_

/-- The result of a device function is on the device, has the computed shape and no host values. -/
theorem Dev.fw_frame {op : FwOp α} {p : Profile} {d : Nat} {m : Nat → α} {xs : List (Tensor α)} {y : Tensor α} (h : Dev.fw op p d m xs = ok y) :
    y.device = some d ∧ y.host = none ∧ op.shape p (xs.map Tensor.shape) = ok y.shape ∧ y.buf ≠ none := by
  unfold Dev.fw at h
  simp only [Res.bind_eq_ok] at h
  obtain ⟨_, _, s, hs, y0, ha, hc⟩ := h
  unfold Tensor.alloc at ha
  simp only [Res.bind_eq_ok, Res.ok.injEq] at ha
  obtain ⟨_, _, _, _, _, _, _, _, b, _, rfl⟩ := ha
  obtain ⟨h1, h2, h3, h4⟩ := callFw_keeps p op.name xs op.u32data op.f32data _ y hc
  exact ⟨h1, h3, by rw [hs, h2]; rfl, h4 (by simp)⟩

end Verif
