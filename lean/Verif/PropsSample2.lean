import Verif.PropsSample
import Verif.PropsAd2

/-!
# C77: an example
-/

set_option linter.unusedSectionVars false

namespace Verif
open Res
attribute [local instance] realFlt

namespace Graph

/-- The program `batch_mean(w * x)` for a minibatch of `n` samples: its operators. -/
noncomputable def msP (n : Nat) (w x : Tensor ℝ) : Nat → NodeOp ℝ
  | 0 => .parameter w
  | 1 => .input x
  | 2 => .bi .mul
  | 3 => .batchSum
  | _ => .cn .divR (n : ℝ)

/-- Its graph. -/
noncomputable def msG (p : Profile) (d : Nat) (m : Mem ℝ) (n : Nat) (w x gw : Tensor ℝ) : Graph (Tensor ℝ) :=
  let g := push p d m [] (.parameter w) (some gw) [] [vecShape 1 1]
  let g := push p d m g (.input x) none [] [vecShape 1 n]
  let g := push p d m g (.bi .mul) none [(0, 0), (1, 0)] [vecShape 1 n]
  let g := push p d m g .batchSum none [(2, 0)] [vecShape 1 1]
  push p d m g (.cn .divR (n : ℝ)) none [(3, 0)] [vecShape 1 1]

theorem msG_made (p : Profile) (d : Nat) (m0 : Nat → ℝ) (m : Mem ℝ) {n : Nat} (hn : n = 1 ∨ n = 2) {w x : Tensor ℝ} (gw : Tensor ℝ)
    (hw : w.shape = vecShape 1 1) (hx : x.shape = vecShape 1 n) : Made p d m0 (msP n w x) (msG p d m n w x gw) [] := by
  have h0 : Made p d m0 (msP n w x) _ [] := Made.push .empty (op := .parameter w) rfl rfl (outs := [vecShape 1 1]) (args := [])
    (by show (ok [w.shape] : Res _) = _; rw [hw]) (by simp) m (some gw)
  have h1 := Made.push h0 (op := .input x) rfl rfl (outs := [vecShape 1 n]) (args := []) (by show (ok [x.shape] : Res _) = _; rw [hx]) (by simp) m none
  have h2 := Made.push h1 (op := .bi .mul) rfl rfl (outs := [vecShape 1 n]) (args := [(0, 0), (1, 0)]) (by
      rw [List.map_cons, List.map_cons, List.map_nil, show nodeShape _ (0, 0) = vecShape 1 1 from rfl, show nodeShape _ (1, 0) = vecShape 1 n from rfl]
      rcases hn with rfl | rfl <;> rfl)
    (by intro a ha; simp only [List.mem_cons, List.not_mem_nil, or_false] at ha; rcases ha with rfl | rfl <;> exact Nat.one_pos) m none
  have h3 := Made.push h2 (op := .batchSum) rfl rfl (outs := [vecShape 1 1]) (args := [(2, 0)]) (by
      rw [List.map_cons, List.map_nil, show nodeShape _ (2, 0) = vecShape 1 n from rfl]
      rcases hn with rfl | rfl <;> rfl)
    (by intro a ha; simp only [List.mem_cons, List.not_mem_nil, or_false] at ha; rcases ha with rfl; exact Nat.one_pos) m none
  exact Made.push h3 (op := .cn .divR (n : ℝ)) rfl rfl (outs := [vecShape 1 1]) (args := [(3, 0)]) (by
      rw [List.map_cons, List.map_nil, show nodeShape _ (3, 0) = vecShape 1 1 from rfl]; rfl)
    (by intro a ha; simp only [List.mem_cons, List.not_mem_nil, or_false] at ha; rcases ha with rfl; exact Nat.one_pos) m none

theorem msG_ready (p : Profile) (d : Nat) (m0 : Nat → ℝ) (m : Mem ℝ) {n : Nat} (hn : n = 1 ∨ n = 2) {w x gw : Tensor ℝ} {fw fx fg : Arr ℝ}
    (hw : w.Holds d (vecShape 1 1) fw) (hx : x.Holds d (vecShape 1 n) fx) (hgw : gw.Holds d (vecShape 1 1) fg) :
    Ready p d m0 (msP n w x) (msG p d m n w x gw) 4 (fun a => if a.1 = 0 then fw else fx) := by
  have hm := msG_made p d m0 m hn gw hw.shape hx.shape
  have hi : ∀ i, Needs (msG p d m n w x gw) 4 i → i ≤ 4 := fun i h => h.le hm.hist.inv.wf
  refine ⟨⟨_, hm⟩, show 4 < 5 by omega, ?_, ?_, ?_, ?_, ?_, ?_⟩
  · intro i hn hl
    have := hi i hn
    interval_cases i
    · exact ⟨w, rfl, hw⟩
    · exact ⟨x, rfl, hx⟩
    all_goals cases hl
  · intro i v hne hv
    have := hi i hne
    interval_cases i <;> (have : v = 0 := Nat.lt_one_iff.mp hv) <;> subst this
    · show Shape.size (vecShape 1 1) ≤ _; decide
    · show Shape.size (vecShape 1 n) ≤ _; rcases hn with rfl | rfl <;> decide
    · show Shape.size (vecShape 1 n) ≤ _; rcases hn with rfl | rfl <;> decide
    · show Shape.size (vecShape 1 1) ≤ _; decide
    · show Shape.size (vecShape 1 1) ≤ _; decide
  · intro i hne hl
    have := hi i hne
    interval_cases i
    · cases hl
    · cases hl
    · exact fun _ _ _ => trivial
    · trivial
    · intro c b _
      show ((n : Nat) : ℝ) ≠ 0
      rcases hn with rfl | rfl <;> norm_num
  · intro i o hne ho
    have := hi i hne
    interval_cases i <;> (obtain rfl := Option.some.inj ho) <;> rfl
  · intro i v hne _ h1
    have := hi i hne
    interval_cases i <;> exact absurd h1 (lt_irrefl 1)
  · intro i t hne ht
    have := hi i hne
    interval_cases i
    · obtain rfl := Option.some.inj ht
      exact ⟨rfl, fg, hgw⟩
    all_goals cases ht

theorem msP_sum {n : Nat} {w x : Tensor ℝ} : msP n w x 3 = .batchSum := by rw [msP]

theorem msP_div {n : Nat} {w x : Tensor ℝ} : msP n w x 4 = .cn .divR (n : ℝ) := by
  unfold msP; rfl

theorem msG_args (p : Profile) (d : Nat) (m : Mem ℝ) {n : Nat} {w x gw : Tensor ℝ} : (msG p d m n w x gw).argsOf 4 = [(3, 0)] ∧
    (msG p d m n w x gw).argsOf 3 = [(2, 0)] := ⟨rfl, rfl⟩

theorem msG_args' (p : Profile) (d : Nat) (m : Mem ℝ) {n : Nat} {w x gw : Tensor ℝ} : (msG p d m n w x gw).argsOf 0 = [] ∧
    (msG p d m n w x gw).argsOf 1 = [] ∧ (msG p d m n w x gw).argsOf 2 = [(0, 0), (1, 0)] := ⟨rfl, rfl, rfl⟩

theorem msG_batch (p : Profile) (d : Nat) (m : Mem ℝ) {n : Nat} {w x gw : Tensor ℝ} : ((msG p d m n w x gw).nodeShape (2, 0)).batch = n := rfl

theorem msG_loss (p : Profile) (d : Nat) (m : Mem ℝ) {w x gw : Tensor ℝ} {x' : Nat → Tensor ℝ} {fw : Arr ℝ} {x0 : Nat → ℝ}
    (hw : w.Holds d (vecShape 1 1) fw) (hx : x.Holds d (vecShape 1 2) (fun _ b => x0 b)) (hx' : ∀ b, (x' b).Holds d (vecShape 1 1) (fun _ _ => x0 b)) :
    LossOf d 2 (msP 2 w x) (msG p d m 2 w x gw) (fun b => msP 1 w (x' b)) (fun b => msG p d m 1 w (x' b) gw) 4 (1 / (2 : Nat)) := by
  have hwf : (vecShape 1 1).WF := vecShape_wf (n := 1) (b := 1) rfl
  have hm := msG_made p d (fun _ => 0) m (.inr rfl) gw hw.shape hx.shape
  have hi : ∀ i, Needs (msG p d m 2 w x gw) 2 i → i ≤ 2 := fun i h => h.le hm.hist.inv.wf
  refine .mean (s := 3) (a := (2, 0)) (fun b hb => ⟨fun i hn => ?_, fun i hn hl => ?_, fun i hn hl => ?_⟩) (msG_batch p d m) msP_sum (msG_args p d m).2 msP_div (msG_args p d m).1
    fun b hb => ⟨msP_sum, (msG_args p d m).2, msP_div, (msG_args p d m).1⟩
  · have := hi i hn
    obtain ⟨q0, q1, q2⟩ := msG_args' p d m (n := 2) (w := w) (x := x) (gw := gw)
    obtain ⟨k0, k1, k2⟩ := msG_args' p d m (n := 1) (w := w) (x := x' b) (gw := gw)
    interval_cases i
    · rw [q0, k0]
    · rw [q1, k1]
    · rw [q2, k2]
  · have := hi i hn
    interval_cases i
    · cases hl
    · cases hl
    · exact ⟨trivial, rfl⟩
  · have := hi i hn
    interval_cases i
    · exact ⟨rfl, w, w, rfl, rfl, _, _, _, _, hw, hw, .inl ⟨rfl, rfl, fun _ _ _ => rfl⟩⟩
    · refine ⟨rfl, x, x' b, rfl, rfl, _, _, _, _, hx, hx' b, .inr ⟨rfl, ⟨hwf, fun i => rfl, rfl⟩, fun c k hv => ?_⟩⟩
      have : k = 0 := Nat.lt_one_iff.mp hv.2
      rw [this]; rfl
    · cases hl

theorem offset_one {c : Nat → Nat} {b : Nat} (hv : (vecShape 1 2).Valid c b) : (vecShape 1 2).offset c b = b := by
  have h2 : ∀ i, i < 8 → c i = 0 := fun i hi => by
    have h1 := hv.1 i
    interval_cases i <;> exact Nat.lt_one_iff.mp h1
  have e : offN (vecShape 1 2).get c 8 = 0 := by
    simp only [offN, h2 0 (by omega), h2 1 (by omega), h2 2 (by omega), h2 3 (by omega), h2 4 (by omega), h2 5 (by omega), h2 6 (by omega),
      h2 7 (by omega), Nat.zero_mul, Nat.add_zero]
  have e2 : volN (vecShape 1 2).get 8 = 1 := rfl
  rw [Shape.offset, e, e2]; omega

/-- C77, an example that meets the hypotheses: `batch_mean(w * x)` for a minibatch of two samples, with any elements; the gradient of the
parameter `w` is the mean of the two samples' gradients, `(x₀ + x₁) / 2`. -/
example (p : Profile) (d : Nat) (m0 : Nat → ℝ) (m : Mem ℝ) (w0 : ℝ) (x0 : Nat → ℝ) : ∃ (w x gw : Tensor ℝ) (x' : Nat → Tensor ℝ),
    w.Holds d (vecShape 1 1) (fun _ _ => w0) ∧ x.Holds d (vecShape 1 2) (fun _ b => x0 b) ∧ (∀ b, b < 2 → (x' b).Holds d (vecShape 1 1) (fun _ _ => x0 b)) ∧
    LossOf d 2 (msP 2 w x) (msG p d m 2 w x gw) (fun b => msP 1 w (x' b)) (fun b => msG p d m 1 w (x' b) gw) 4 (1 / (2 : Nat)) ∧
    Ready p d m0 (msP 2 w x) (msG p d m 2 w x gw) 4 (fun a => if a.1 = 0 then fun _ _ => w0 else fun _ b => x0 b) ∧
    (∀ b, b < 2 → Ready p d m0 (msP 1 w (x' b)) (msG p d m 1 w (x' b) gw) 4 (fun a => if a.1 = 0 then fun _ _ => w0 else fun _ _ => x0 b)) ∧
    (∃ tr order r, Backward (tensorLike p m0) (msG p d m 2 w x gw) 4 tr order r) ∧
    (∀ b, b < 2 → ∃ tr order r, Backward (tensorLike p m0) (msG p d m 1 w (x' b) gw) 4 tr order r) := by
  have hwf : (vecShape 1 1).WF := vecShape_wf (n := 1) (b := 1) rfl
  have hwf2 : (vecShape 1 2).WF := vecShape_wf (n := 1) (b := 2) rfl
  obtain ⟨w, hw⟩ := exists_holds hwf (by decide) d fun _ => w0
  obtain ⟨gw, hgw⟩ := exists_holds hwf (by decide) d fun _ => (0 : ℝ)
  obtain ⟨x, hx⟩ := exists_holds hwf2 (by decide) d x0
  have hx : x.Holds d (vecShape 1 2) (fun _ b => x0 b) := hx.congr fun c b hv => by
    rw [offset_one hv]
  choose x' hx' using fun b => exists_holds hwf (by decide) d fun _ => x0 b
  have hm := msG_made p d m0 m (.inr rfl) gw hw.shape hx.shape
  refine ⟨w, x, gw, x', hw, hx, fun b _ => hx' b, msG_loss p d m hw hx hx', msG_ready p d m0 m (.inr rfl) hw hx hgw, fun b _ => msG_ready p d m0 m (.inl rfl) hw (hx' b) hgw,
    C32_backward_total hm.hist (by show 4 < 5; omega),
    fun b _ => C32_backward_total (msG_made p d m0 m (.inl rfl) gw hw.shape (hx' b).shape).hist (by show 4 < 5; omega)⟩

end Graph
end Verif
