import Verif.PropsAccum
import Verif.PropsSample2

/-!
# C78: an example
-/

set_option linter.unusedSectionVars false

namespace Verif
open Res
attribute [local instance] realFlt

namespace Graph

theorem ms_pass (p : Profile) (d : Nat) (m0 : Nat → ℝ) (m : Mem ℝ) {n : Nat} (hn : n = 1 ∨ n = 2) {q : Param ℝ} {a : PArr ℝ} (hq : q.Is d a)
    (ha : a.shape = vecShape 1 1) {x : Tensor ℝ} {fx : Arr ℝ} (hx : x.Holds d (vecShape 1 n) fx) :
    Pass p d m0 (msP n q.value x) (msG p d m n q.value x q.gradient) 3 (fun _ => fx) (fun _ => 0) [q] [a] := by
  have hv := hq.value
  have hg := hq.grad
  rw [ha] at hv hg
  have hR := msG_ready p d m0 m hn hv hx hg
  have hm := msG_made p d m0 m hn q.gradient hv.shape hx.shape
  have hi : ∀ i, Needs (msG p d m n q.value x q.gradient) 3 i → i ≤ 3 := fun i h => h.le hm.hist.inv.wf
  have up : ∀ i, Needs (msG p d m n q.value x q.gradient) 3 i → Needs (msG p d m n q.value x q.gradient) 4 i := fun i h =>
    .arg (a := (3, 0)) (by rw [(msG_args p d m).1]; simp) h
  refine ⟨⟨_, hm⟩, show 3 < 5 by omega, ⟨fun k l h1 h2 _ => ?_, fun k q' hk => ?_, fun i t ht => ?_⟩, fun i hne hl hk => ?_, fun i v h => hR.small i v (up i h),
    fun i hne hl => ?_, fun i o h => hR.fresh i o (up i h), fun i v hne _ h1 => ?_⟩
  · have h1 : k < 1 := h1
    have h2 : l < 1 := h2
    omega
  · have hk0 : k = 0 := by
      have := (List.getElem?_eq_some_iff.mp hk).1
      have : k < 1 := this
      omega
    subst hk0
    obtain rfl := Option.some.inj hk
    exact ⟨show 0 < 5 by omega, rfl, rfl⟩
  · refine ⟨0, Nat.one_pos, ?_⟩
    by_contra hne
    cases ho : (msG p d m n q.value x q.gradient)[i]? with
    | none => rw [sinkOf, ho] at ht; cases ht
    | some o =>
      have : i < 5 := (List.getElem?_eq_some_iff.mp ho).1
      rw [sinkOf, ho] at ht
      interval_cases i
      · exact hne rfl
      all_goals (obtain rfl := Option.some.inj ho; cases ht)
  · have := hi i hne
    interval_cases i
    · exact absurd rfl (hk 0 Nat.one_pos)
    · exact ⟨x, rfl, hx⟩
    all_goals cases hl
  · have := hi i hne
    interval_cases i
    · cases hl
    · cases hl
    · exact fun _ _ _ => trivial
    · trivial
  · have := hi i hne
    interval_cases i <;> exact absurd h1 (lt_irrefl 1)

theorem ms_loss3 (p : Profile) (d : Nat) (m : Mem ℝ) {q : Param ℝ} {q' : Nat → Param ℝ} {a : PArr ℝ} {a' : Nat → PArr ℝ} (hq : q.Is d a)
    (hq' : ∀ b, (q' b).Is d (a' b)) (ha : a.shape = vecShape 1 1) (ha' : ∀ b, (a' b).shape = vecShape 1 1 ∧ (a' b).value = a.value)
    {x : Tensor ℝ} {x' : Nat → Tensor ℝ} {x0 : Nat → ℝ} (hx : x.Holds d (vecShape 1 2) (fun _ b => x0 b)) (hx' : ∀ b, (x' b).Holds d (vecShape 1 1) (fun _ _ => x0 b)) :
    LossOf d 2 (msP 2 q.value x) (msG p d m 2 q.value x q.gradient) (fun b => msP 1 (q' b).value (x' b))
      (fun b => msG p d m 1 (q' b).value (x' b) (q' b).gradient) 3 1 := by
  have hw := hq.value
  rw [ha] at hw
  have hw' : ∀ b, (q' b).value.Holds d (vecShape 1 1) a.value := fun b => by
    have := (hq' b).value
    rwa [(ha' b).1, (ha' b).2] at this
  have hwf : (vecShape 1 1).WF := vecShape_wf (n := 1) (b := 1) rfl
  have hm := msG_made p d (fun _ => 0) m (.inr rfl) q.gradient hw.shape hx.shape
  have hi : ∀ i, Needs (msG p d m 2 q.value x q.gradient) 2 i → i ≤ 2 := fun i h => h.le hm.hist.inv.wf
  refine .sum (a := (2, 0)) (fun b hb => ⟨fun i hn => ?_, fun i hn hl => ?_, fun i hn hl => ?_⟩) (msG_batch p d m) msP_sum (msG_args p d m).2
    fun b hb => ⟨msP_sum, (msG_args p d m).2⟩
  · have := hi i hn
    obtain ⟨q0, q1, q2⟩ := msG_args' p d m (n := 2) (w := q.value) (x := x) (gw := q.gradient)
    obtain ⟨k0, k1, k2⟩ := msG_args' p d m (n := 1) (w := (q' b).value) (x := x' b) (gw := (q' b).gradient)
    interval_cases i
    · rw [q0, k0]
    · rw [q1, k1]
    · rw [q2, k2]
  · have := hi i hn
    interval_cases i
    · cases hl
    · cases hl
    · exact ⟨trivial, rfl⟩
  · have := hi i hn
    interval_cases i
    · exact ⟨rfl, q.value, (q' b).value, rfl, rfl, _, _, _, _, hw, hw' b, .inl ⟨rfl, rfl, fun _ _ _ => rfl⟩⟩
    · refine ⟨rfl, x, x' b, rfl, rfl, _, _, _, _, hx, hx' b, .inr ⟨rfl, ⟨hwf, fun i => rfl, rfl⟩, fun c k hv => ?_⟩⟩
      have : k = 0 := Nat.lt_one_iff.mp hv.2
      rw [this]; rfl
    · cases hl

/-- C78, an example that meets the hypotheses: `batch_sum(w * x)` with a parameter `w` (with any gradient) and two samples, as a minibatch and one
after the other. -/
example (p : Profile) (d : Nat) (m0 : Nat → ℝ) (m : Mem ℝ) {q : Param ℝ} {a : PArr ℝ} (hq : q.Is d a) (ha : a.shape = vecShape 1 1) (x0 : Nat → ℝ) :
    ∃ (x : Tensor ℝ) (x' : Nat → Tensor ℝ) (qs : Nat → Param ℝ) (r' : Nat → Res (Graph (Tensor ℝ))), qs 0 = q ∧
      LossOf d 2 (msP 2 q.value x) (msG p d m 2 q.value x q.gradient) (fun b => msP 1 (qs b).value (x' b))
        (fun b => msG p d m 1 (qs b).value (x' b) (qs b).gradient) 3 1 ∧
      Pass p d m0 (msP 2 q.value x) (msG p d m 2 q.value x q.gradient) 3 (fun _ _ b => x0 b) (fun _ => 0) [qs 0] [a] ∧
      (∀ b, b < 2 → Pass p d m0 (msP 1 (qs b).value (x' b)) (msG p d m 1 (qs b).value (x' b) (qs b).gradient) 3 (fun _ _ _ => x0 b) (fun _ => 0) [qs b] [a]) ∧
      (∃ tr order r, Backward (tensorLike p m0) (msG p d m 2 q.value x q.gradient) 3 tr order r) ∧
      (∀ b, b < 2 → ∃ tr order, Backward (tensorLike p m0) (msG p d m 1 (qs b).value (x' b) (qs b).gradient) 3 tr order (r' b)) ∧
      ∀ b gb, b < 2 → r' b = ok gb → [qs (b + 1)] = gb.giveBack (fun _ => 0) [qs b] := by
  have hwf : (vecShape 1 1).WF := vecShape_wf (n := 1) (b := 1) rfl
  have hwf2 : (vecShape 1 2).WF := vecShape_wf (n := 1) (b := 2) rfl
  obtain ⟨x, hx⟩ := exists_holds hwf2 (by decide) d x0
  have hx : x.Holds d (vecShape 1 2) (fun _ b => x0 b) := hx.congr fun c b hv => by rw [offset_one hv]
  choose x' hx' using fun b => exists_holds hwf (by decide) d fun _ => x0 b
  have ex : ∀ (n : Nat) (hn : n = 1 ∨ n = 2) (q : Param ℝ) (a : PArr ℝ), q.Is d a → a.shape = vecShape 1 1 → ∀ (x : Tensor ℝ) (fx : Arr ℝ), x.Holds d (vecShape 1 n) fx →
      ∃ tr order r, Backward (tensorLike p m0) (msG p d m n q.value x q.gradient) 3 tr order r := fun n hn q a hq ha x fx hx => by
    have hv := hq.value
    rw [ha] at hv
    exact C32_backward_total (msG_made p d m0 m hn q.gradient hv.shape hx.shape).hist (show 3 < 5 by omega)
  -- one step: the parameter after a sample
  have step : ∀ (q : Param ℝ) (e : Arr ℝ) (b : Nat), q.Is d { a with grad := e } → ∃ (q' : Param ℝ) (e' : Arr ℝ) (tr order : List Nat) (g1 : Graph (Tensor ℝ)),
      Backward (tensorLike p m0) (msG p d m 1 q.value (x' b) q.gradient) 3 tr order (ok g1) ∧ [q'] = g1.giveBack (fun _ => 0) [q] ∧
      q'.Is d { a with grad := e' } := by
    intro q e b hqe
    obtain ⟨tr, order, r, hb⟩ := ex 1 (.inl rfl) q _ hqe ha (x' b) _ (hx' b)
    obtain ⟨g1, D, rfl, -, hp⟩ := C78_pass (ms_pass p d m0 m (.inl rfl) hqe ha (hx' b)) (List.Forall₂.cons hqe .nil) hb
    obtain ⟨q', e1, hi⟩ := hp.get (k := 0) (by rw [PArr.gained_get]; rfl)
    refine ⟨q', _, tr, order, g1, hb, ?_, hi⟩
    have : g1.giveBack (fun _ => 0) [q] = [{ q with gradient := (g1.sinkOf 0).getD q.gradient }] := rfl
    rw [this] at e1 ⊢
    rw [← Option.some.inj e1]
  obtain ⟨q1, e1, tr0, or0, g0, hb0, hn0, hq1⟩ := step q a.grad 0 hq
  obtain ⟨q2, e2, tr1, or1, g1, hb1, hn1, hq2⟩ := step q1 e1 1 hq1
  have hqs : ∀ b : Nat, (match b with | 0 => q | 1 => q1 | _ => q2).Is d { a with grad := match b with | 0 => a.grad | 1 => e1 | _ => e2 } := fun b => by
    match b with
    | 0 => exact hq
    | 1 => exact hq1
    | _ + 2 => exact hq2
  refine ⟨x, x', fun b => match b with | 0 => q | 1 => q1 | _ => q2, fun b => match b with | 0 => ok g0 | _ => ok g1, rfl,
    ms_loss3 p d m hq hqs ha (fun b => ⟨ha, rfl⟩) hx hx', ms_pass p d m0 m (.inr rfl) hq ha hx, fun b hb => ?_, ex 2 (.inr rfl) q a hq ha x _ hx, fun b hb => ?_,
    fun b gb hb h => ?_⟩
  · have h := ms_pass p d m0 m (.inl rfl) (hqs b) ha (hx' b)
    have e : ∀ f : Arr ℝ, PArr.vals [{ a with grad := f }] = PArr.vals [a] := fun f => by
      funext j
      match j with
      | 0 => rfl
      | _ + 1 => rfl
    exact ⟨h.made, h.root_lt, h.inGraph, h.input, h.small, by have := h.smooth; rw [e] at this; exact this, h.fresh, h.used⟩
  · interval_cases b
    · exact ⟨tr0, or0, hb0⟩
    · exact ⟨tr1, or1, hb1⟩
  · interval_cases b
    · obtain rfl := Res.ok.inj h
      exact hn0
    · obtain rfl := Res.ok.inj h
      exact hn1

end Graph
end Verif
