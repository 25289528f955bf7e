import Verif.FloatGap
import Verif.PropsFloat4

/-!
# C73: steps of SGD in f32
-/

set_option linter.unusedSectionVars false
set_option linter.style.haveILetI false

namespace Verif
open Fmt Res Shape

section
variable [E : Ieee] {d : Nat}

/-- SGD without weight decay and clipping, whose learning rate (scaling times `eta`, rounded) is the number `ρ`. -/
structure PlainSgd (o : Opt (Fl f32)) (eta : Fl f32) (ρ : ℝ) : Prop where
  kind : o.kind = .sgd eta
  no_decay : Flt.gt o.l2 0 = false
  no_clip : Flt.gt o.clip 0 = false
  rate : (o.lrScale * eta).Is ρ
  epoch : o.epoch + 1 < U32

/-- C73: one update.  No element with a finite value and gradient becomes NaN or moves in the direction of its gradient, even if the step or the result overflows;
as long as value and step are at most `2^126` the result is within `(|v| + 3 ρ|g|) 2^-24 + 2^-148` of `v - ρ g`; and an element whose step is at most `2^-26`
times its value (which is not extremely small) does not move at all. -/
theorem C73_sgd_step {o : Opt (Fl f32)} {eta : Fl f32} {ρ : ℝ} (ho : PlainSgd o eta ρ) (h0 : 0 ≤ ρ)
    {qs : List (Param (Fl f32))} {as : List (PArr (Fl f32))} (h : Params d qs as) (p : Profile) (m : Nat → Nat → Mem (Fl f32)) :
    ∃ qs' as', o.updateParameters p m qs = (qs', ok (o.epoch + 1)) ∧ Params d qs' as' ∧ List.Forall₂ (fun a a' : PArr (Fl f32) =>
      a'.shape = a.shape ∧ ∀ c b, a.shape.Valid c b → ∀ v g, (a.value c b).Is v → (a.grad c b).Is g →
        a'.value c b ≠ .nan ∧ (0 ≤ g → (a'.value c b).rank ≤ (v : EReal)) ∧ (g ≤ 0 → (v : EReal) ≤ (a'.value c b).rank) ∧
        (|v| ≤ 2 ^ 126 → |g * ρ| ≤ 2 ^ 126 → ∃ w, (a'.value c b).Is w ∧ |w - (v - g * ρ)| ≤ (|v| + 3 * |g * ρ|) / 2 ^ 24 + 1 / 2 ^ 148) ∧
        (1 / 2 ^ 99 ≤ |v| → |g * ρ| ≤ |v| / 2 ^ 26 → (a'.value c b).Is v)) as as' := by
  obtain ⟨qs', e, hq⟩ := updateParameters_ok (Fl.mul_comm E.near32) o ho.epoch h (by intro a _; rw [ho.kind]; trivial) p m
  refine ⟨qs', _, e, hq, ?_⟩
  unfold PArr.updated PArr.clipped
  rw [ho.no_clip]
  simp only [Bool.false_and, Bool.false_eq_true, if_false, List.map_map]
  rw [List.forall₂_map_right_iff, List.forall₂_same]
  intro a ha
  have hd : PArr.decayed o.l2 a = a := by unfold PArr.decayed; rw [ho.no_decay]; rfl
  simp only [Function.comp, hd, ho.kind]
  refine ⟨rfl, fun c b hv v g hx hg => ?_⟩
  obtain ⟨k1, k2, k3⟩ := sgd_side (N := E.near32) hx hg ho.rate h0
  exact ⟨k1, k2, k3, fun h1 h2 => sgd_acc hx hg ho.rate h1 h2, fun h1 h2 => sgd_stall hx hg ho.rate h1 h2⟩

/-- A run of `n` iterations: in iteration `k` the parameters hold `as k` (with any gradients), the optimizer is `o k`, and the values of iteration `k + 1` are those the update left. -/
def SgdRun (d n : Nat) (p : Profile) (m : Nat → Nat → Nat → Mem (Fl f32)) (o : Nat → Opt (Fl f32)) (q : Nat → List (Param (Fl f32)))
    (as : Nat → List (PArr (Fl f32))) : Prop :=
  ∀ k, k < n → Params d (q k) (as k) ∧ ∀ q' e as', (o k).updateParameters p (m k) (q k) = (q', ok e) → Params d q' as' →
    List.Forall₂ (fun a' a'' : PArr (Fl f32) => a''.shape = a'.shape ∧ ∀ c b, a'.shape.Valid c b → a''.value c b = a'.value c b) as' (as (k + 1))

/-- C73: an element whose steps are all at most `2^-26` times its value stays where it was, however many updates there are: steps that
together would be as large as one likes have no effect. -/
theorem C73_sgd_stalls {o : Nat → Opt (Fl f32)} {eta : Nat → Fl f32} {ρ : Nat → ℝ} {n : Nat} (ho : ∀ k, k < n → PlainSgd (o k) (eta k) (ρ k))
    (h0 : ∀ k, k < n → 0 ≤ ρ k)
    {p : Profile} {m : Nat → Nat → Nat → Mem (Fl f32)} {q : Nat → List (Param (Fl f32))} {as : Nat → List (PArr (Fl f32))} (h : SgdRun d n p m o q as)
    {i : Nat} {a0 : PArr (Fl f32)} (hi : (as 0)[i]? = some a0) {c : Nat → Nat} {b : Nat} (hv : a0.shape.Valid c b) {v : ℝ} (hx : (a0.value c b).Is v)
    (hv0 : 1 / 2 ^ 99 ≤ |v|) (hg : ∀ k a, k < n → (as k)[i]? = some a → ∃ g, (a.grad c b).Is g ∧ |g * ρ k| ≤ |v| / 2 ^ 26) (j : Nat) (hj : j ≤ n) :
    ∃ a, (as j)[i]? = some a ∧ a.shape = a0.shape ∧ (a.value c b).Is v := by
  induction j with
  | zero => exact ⟨a0, hi, rfl, hx⟩
  | succ n ih =>
    obtain ⟨a, e1, e2, e3⟩ := ih (by omega)
    obtain ⟨hq, hnext⟩ := h n hj
    obtain ⟨q', as', u1, u2, u3⟩ := C73_sgd_step (ho n hj) (h0 n hj) hq p (m n)
    have w3 := hnext _ _ _ u1 u2
    obtain ⟨g, g1, g2⟩ := hg n a hj e1
    have hl : i < (as n).length := by
      rcases Nat.lt_or_ge i (as n).length with h | h
      · exact h
      · rw [List.getElem?_eq_none h] at e1; cases e1
    have ea : (as n)[i] = a := by rw [List.getElem?_eq_getElem hl] at e1; exact Option.some.inj e1
    have hl' : i < as'.length := u3.length_eq ▸ hl
    have hl'' : i < (as (n + 1)).length := w3.length_eq ▸ hl'
    have r1 := List.forall₂_iff_get.mp u3 |>.2 i hl hl'
    have r2 := List.forall₂_iff_get.mp w3 |>.2 i hl' hl''
    simp only [List.get_eq_getElem] at r1 r2
    rw [ea] at r1
    refine ⟨(as (n + 1))[i], List.getElem?_eq_getElem hl'', r2.1.trans (r1.1.trans e2), ?_⟩
    rw [r2.2 c b (by rw [r1.1, e2]; exact hv)]
    exact (r1.2 c b (by rw [e2]; exact hv) v g e3 g1).2.2.2.2 hv0 g2

/-- The number 1 has one representation. -/
theorem eq_fl1 {x : Fl f32} (h : x.Is 1) : x = fl1 := by
  cases x with
  | fin s u hu =>
    obtain rfl : (1 : ℝ) = u := le_antisymm h.1 h.2
    cases s with
    | true => exact absurd (hu.2.2.1 rfl) (by norm_num)
    | false => rfl
  | inf s => exact h.elim
  | nan => exact h.elim

theorem one_rate : (fl1 * fl1 : Fl f32).Is 1 := by
  obtain ⟨z, ez⟩ := Fl.mul_eq (N := E.near32) (show fl1.Is 1 from ⟨le_rfl, le_rfl⟩) (show fl1.Is 1 from ⟨le_rfl, le_rfl⟩)
  have := Fl.Appr.round_is (N := E.near32) z (w := 1 * 1) (by unfold maxF32; norm_num)
  rw [← ez, mul_one, E.near32.near_grid has1.1] at this
  exact this

/-- SGD with rate 1 and `k` updates behind it. -/
noncomputable def sgdOne (k : Nat) : Opt (Fl f32) := ⟨k, fl1, 0, 0, .sgd fl1⟩

theorem sgdOne_plain {k : Nat} (h : k + 1 < U32) : PlainSgd (sgdOne k) fl1 1 := ⟨rfl, gt_zero_zero, gt_zero_zero, one_rate, h⟩

/-- Six elements 1 with gradient `2^100` (so that the step dwarfs the value): the hypotheses hold, and the value ends within the error bound of `1 - 2^100`. -/
example (p : Profile) (m : Nat → Nat → Mem (Fl f32)) : ∃ (qs qs' : List (Param (Fl f32))) (a a' : PArr (Fl f32)), a.shape.size = 6 ∧ Params 0 qs [a] ∧
    (sgdOne 0).updateParameters p m qs = (qs', ok 1) ∧ Params 0 qs' [a'] ∧ a'.shape = a.shape ∧ ∀ c b, a.shape.Valid c b →
      (a.value c b).Is 1 ∧ (a.grad c b).Is ((2 : ℝ) ^ (100 : ℤ)) ∧ ∃ w, (a'.value c b).Is w ∧ |w - (1 - 2 ^ 100)| ≤ 2 ^ 78 + 1 := by
  obtain ⟨q, a, h, n, v, g⟩ := grad_exists 0 fl1 (flPos (has_pow 100 (by norm_num) (by norm_num)) (by positivity))
  obtain ⟨qs', as', e, h1, h2⟩ := C73_sgd_step (sgdOne_plain (k := 0) (by decide)) zero_le_one (.cons h .nil) p m
  cases h2 with
  | cons h3 h4 =>
    cases h4
    refine ⟨_, _, a, _, n, .cons h .nil, e, h1, h3.1, fun c b hv => ⟨by rw [v]; exact ⟨le_rfl, le_rfl⟩, by rw [g]; exact flPos_is _ _, ?_⟩⟩
    obtain ⟨-, -, -, k, -⟩ := h3.2 c b hv 1 (2 ^ (100 : ℤ)) (by rw [v]; exact ⟨le_rfl, le_rfl⟩) (by rw [g]; exact flPos_is _ _)
    obtain ⟨w, w1, w2⟩ := k (by norm_num) (by rw [abs_of_nonneg (by positivity)]; norm_num)
    refine ⟨w, w1, ?_⟩
    rw [abs_of_nonneg (show (0 : ℝ) ≤ 2 ^ (100 : ℤ) * 1 by positivity)] at w2
    norm_num at w2 ⊢
    linarith

/-- A million (or any number below `2^32 - 1`) of iterations with gradient `2^-26`, of which `2^26` should have moved the value from 1 to 0: the run exists and the value is still 1. -/
example (n : Nat) (hn : n < U32) (p : Profile) (m : Nat → Nat → Nat → Mem (Fl f32)) : ∃ (q : Nat → List (Param (Fl f32))) (as : Nat → List (PArr (Fl f32))),
    SgdRun 0 n p m sgdOne q as ∧ (∀ k, ∀ a ∈ as k, a.shape.size = 6 ∧ ∀ c b, (a.grad c b).Is (1 / 2 ^ 26)) ∧
    ∀ k, k ≤ n → ∃ a, (as k)[0]? = some a ∧ (a.value czero 0).Is 1 := by
  have h26 : (2 : ℝ) ^ (-26 : ℤ) = 1 / 2 ^ 26 := by norm_num
  obtain ⟨q, a, h, hs, v, g⟩ := grad_exists 0 fl1 (flPos (has_pow (-26) (by norm_num) (by norm_num)) (by positivity))
  have hg : ∀ c b, (a.grad c b).Is (1 / 2 ^ 26) := fun c b => by rw [g, ← h26]; exact flPos_is _ _
  have h1 : ∀ c b, (a.value c b).Is 1 := fun c b => by rw [v]; exact ⟨le_rfl, le_rfl⟩
  have hplain : ∀ k, k < n → PlainSgd (sgdOne k) fl1 1 := fun k hk => sgdOne_plain (by omega)
  have hsmall : |(1 / 2 ^ 26 * 1 : ℝ)| ≤ |(1 : ℝ)| / 2 ^ 26 := by norm_num
  have hrun : SgdRun 0 n p m sgdOne (fun _ => [q]) (fun _ => [a]) := by
    intro k hk
    refine ⟨.cons h .nil, fun q' e as' hu hp => ?_⟩
    obtain ⟨q'', as'', e2, hp2, hf⟩ := C73_sgd_step (hplain k hk) zero_le_one (.cons h .nil) p (m k)
    rw [hu] at e2
    obtain ⟨rfl, -⟩ := Prod.mk.inj e2
    cases hf with
    | cons f1 f2 =>
      cases f2
      cases hp2 with
      | cons p1 p2 =>
        cases p2
        cases hp with
        | cons r1 r2 =>
          cases r2
          obtain ⟨-, s1, s2⟩ := r1.value.unique p1.value
          refine .cons ⟨(s1.trans f1.1).symm, fun c b hv => ?_⟩ .nil
          rw [s2 c b hv, v]
          exact (eq_fl1 ((f1.2 c b (by rw [← f1.1, ← s1]; exact hv) 1 _ (h1 c b) (hg c b)).2.2.2.2 (by norm_num) hsmall)).symm
  have hpos := h.value.wf
  refine ⟨_, _, hrun, fun k a' ha => ?_, fun k hk => ?_⟩
  · rw [List.mem_singleton.mp ha]; exact ⟨hs, hg⟩
  · obtain ⟨a', e1, -, e3⟩ := C73_sgd_stalls (eta := fun _ => fl1) (ρ := fun _ => 1) hplain (fun _ _ => zero_le_one) hrun (i := 0) (a0 := a) rfl
      (c := czero) (b := 0) ⟨fun i => hpos.get_pos i, hpos.batch_pos⟩ (h1 _ _) (by norm_num)
      (fun k a' _ ha => by
        obtain rfl : a = a' := by simpa using ha
        exact ⟨_, hg _ _, hsmall⟩) k hk
    exact ⟨a', e1, e3⟩

end
end Verif
