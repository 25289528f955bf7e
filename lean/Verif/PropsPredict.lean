import Verif.PropsMono2
import Verif.PropsFloat5
import Verif.PropsFloat2
import Verif.PropsOrder
import Verif.FloatSum

/-!
# C93: the predicted class, from logits and from probabilities
-/

set_option linter.unusedSectionVars false
set_option linter.style.haveILetI false

namespace Verif
open Fmt Res Shape

theorem Fl.Is.eq_of_ne {F : Fmt} {u v : Fl F} {a : ℝ} (h : u.Is a) (h' : v.Is a) (ha : a ≠ 0) : u = v := by
  cases u with
  | nan => exact h.elim
  | inf t => exact h.elim
  | fin t u hu =>
    cases v with
    | nan => exact h'.elim
    | inf t => exact h'.elim
    | fin t' u' hu' =>
      obtain rfl : a = u := le_antisymm h.1 h.2
      obtain rfl : a = u' := le_antisymm h'.1 h'.2
      have : t = t' := by
        cases t <;> cases t' <;> first | rfl | exfalso
        · exact ha (le_antisymm (hu'.2.2.1 rfl) (hu.2.2.2 rfl))
        · exact ha (le_antisymm (hu.2.2.1 rfl) (hu'.2.2.2 rfl))
      subst this
      rfl

section
variable [E : Ieee] {d : Nat} {x : Tensor (Fl f32)} {sx : Shape} {f : Arr (Fl f32)}

theorem reduced_valid {s : Shape} {dim : Nat} (hs : s.Is (cset sx.get dim 1) sx.batch) {c : Nat → Nat} {b : Nat} (hv : s.Valid c b) {j : Nat} (hj : j < sx.get dim) :
    sx.Valid (cset c dim j) b := by
  refine ⟨fun i => ?_, hs.2.2 ▸ hv.2⟩
  have := hv.1 i
  rw [hs.2.1] at this
  unfold cset at this ⊢
  split at this
  · rename_i e; rw [if_pos e, e]; exact hj
  · rename_i e; rw [if_neg e]; exact this

/-- C93: let `k` be the class `argmax` gives for the logits and `k'` the one it gives for their `softmax` (or `ln_softmax`). Then `k` has the greatest
probability, too: `k'` has the same one, and can differ from `k` only by being an earlier class whose smaller logit was rounded to the same probability. -/
theorem C93_argmax_softmax (hW : E.libm64.Special) (hexp : Libm.KeepsOrder E.libm32.exp) (hx : x.Holds d sx f) {dim : Nat} (hd : dim < 8) (p : Profile)
    (m : Mem (Fl f32)) :
    ∃ (s : Shape) (y z : Tensor (Fl f32)) (g h : Arr (Fl f32)) (r rg rh : List Nat), s.Is (cset sx.get dim 1) sx.batch ∧
      TF.lnSoftmax p m x dim = ok y ∧ y.Holds d sx g ∧ TF.softmax p m x dim = ok z ∧ z.Holds d sx h ∧
      TF.argmax p x dim = ok r ∧ TF.argmax p y dim = ok rg ∧ TF.argmax p z dim = ok rh ∧
      ∀ c b, s.Valid c b → LogitAxis (axisOf sx f dim c b) → ∃ k kg kh, r[s.offset c b]? = some k ∧ rg[s.offset c b]? = some kg ∧ rh[s.offset c b]? = some kh ∧
        k < sx.get dim ∧ kg ≤ k ∧ kh ≤ k ∧
        (∀ j, j < sx.get dim → Fl.le (g (cset c dim j) b) (g (cset c dim k) b) = true ∧ Fl.le (h (cset c dim j) b) (h (cset c dim k) b) = true) ∧
        Fl.feq (g (cset c dim kg) b) (g (cset c dim k) b) = true ∧ Fl.feq (h (cset c dim kh) b) (h (cset c dim k) b) = true := by
  obtain ⟨g, h, ⟨y, ey, hy⟩, ⟨z, ez, hz⟩, ho⟩ := C92_softmax_order hW hexp hx hd p m
  obtain ⟨s, F, r, hs, -, e1, -, a1⟩ := C71_max hx hd p (m 0)
  obtain ⟨s', G, rg, hs', -, e2, -, a2⟩ := C71_max hy hd p (m 0)
  obtain ⟨s'', H, rh, hs'', -, e3, -, a3⟩ := C71_max hz hd p (m 0)
  obtain rfl : s' = s := hs'.1.ext hs.1 (by rw [hs.2.2, hs'.2.2]) (fun i => by rw [hs.2.1 i, hs'.2.1 i])
  obtain rfl : s'' = s' := hs''.1.ext hs.1 (by rw [hs.2.2, hs''.2.2]) (fun i => by rw [hs.2.1 i, hs''.2.1 i])
  refine ⟨s'', y, z, g, h, r, rg, rh, hs, ey, hy, ez, hz, e1, e2, e3, fun c b hv hl => ?_⟩
  obtain ⟨k, i1, G1⟩ := a1 c b hv
  obtain ⟨kg, i2, G2⟩ := a2 c b hv
  obtain ⟨kh, i3, G3⟩ := a3 c b hv
  have hax : ∀ j, axisOf sx f dim (cset c dim j) b = axisOf sx f dim c b := fun j => by unfold axisOf; simp only [cset_cset]
  have hval : ∀ j, j < sx.get dim → sx.Valid (cset c dim j) b := fun j hj => reduced_valid hs hv hj
  have hnn : ∀ j, j < sx.get dim → f (cset c dim j) b ≠ .nan := fun j hj e => by
    have := hl.1 (f (cset c dim j) b) (List.mem_map.mpr ⟨j, List.mem_range.mpr hj, rfl⟩)
    rw [e] at this
    rcases this with h | h
    · exact h.elim
    · cases h
  have ord : ∀ i j, i < sx.get dim → j < sx.get dim → Fl.le (f (cset c dim i) b) (f (cset c dim j) b) = true →
      Fl.le (g (cset c dim i) b) (g (cset c dim j) b) = true ∧ Fl.le (h (cset c dim i) b) (h (cset c dim j) b) = true := fun i j hi hj hle => by
    have := ho (cset c dim i) b (hval i hi) (by rw [hax]; exact hl) j hj (by rw [cset_cset]; exact hle)
    rwa [cset_cset] at this
  have hn : 0 < sx.get dim := hx.wf.get_pos dim
  have self : ∀ j, j < sx.get dim → g (cset c dim j) b ≠ .nan ∧ h (cset c dim j) b ≠ .nan := fun j hj => by
    obtain ⟨q1, q2⟩ := ord j j hj hj (Fl.le_refl' (hnn j hj))
    exact ⟨(Fl.le_iff.mp q1).1, (Fl.le_iff.mp q2).1⟩
  have top : ∀ j, j < sx.get dim → Fl.le (f (cset c dim j) b) (f (cset c dim k) b) = true := fun j hj =>
    Fl.le_iff.mpr ⟨hnn j hj, hnn k G1.lt, by have := G1.le (hnn 0 hn) j hj (hnn j hj); rwa [G1.at_] at this⟩
  have best := fun j hj => ord j k hj G1.lt (top j hj)
  refine ⟨k, kg, kh, i1, i2, i3, G1.lt, ?_, ?_, best, ?_, ?_⟩
  · by_contra hlt
    have q := G2.first (self 0 hn).1 k (by omega) (self k G1.lt).1
    rw [G2.at_] at q
    exact absurd (Fl.le_iff.mp (best kg G2.lt).1).2.2 (not_le.mpr q)
  · by_contra hlt
    have q := G3.first (self 0 hn).2 k (by omega) (self k G1.lt).2
    rw [G3.at_] at q
    exact absurd (Fl.le_iff.mp (best kh G3.lt).2).2.2 (not_le.mpr q)
  · have q := G2.le (self 0 hn).1 k G1.lt (self k G1.lt).1
    rw [G2.at_] at q
    exact Fl.feq_iff.mpr ⟨(self kg G2.lt).1, (self k G1.lt).1, le_antisymm (Fl.le_iff.mp (best kg G2.lt).1).2.2 q⟩
  · have q := G3.le (self 0 hn).2 k G1.lt (self k G1.lt).2
    rw [G3.at_] at q
    exact Fl.feq_iff.mpr ⟨(self kh G3.lt).2, (self k G1.lt).2, le_antisymm (Fl.le_iff.mp (best kh G3.lt).2).2.2 q⟩

/-- The logits `[0, 1]`: `argmax` predicts class 1, which has the greatest probability. -/
example (hW : E.libm64.Special) (hexp : Libm.KeepsOrder E.libm32.exp) (p : Profile) (m : Mem (Fl f32)) :
    ∃ (x z : Tensor (Fl f32)) (h : Arr (Fl f32)) (r : List Nat), TF.softmax p m x 0 = ok z ∧ z.Holds 0 (vecShape 2 1) h ∧ TF.argmax p x 0 = ok r ∧
      r[0]? = some 1 ∧ ∀ j, j < 2 → Fl.le (h (cset (fun _ => 0) 0 j) 0) (h (cset (fun _ => 0) 0 1) 0) = true := by
  obtain ⟨x, f, hx, hf⟩ := pair_exists (0 : Fl f32) (1 : Fl f32)
  obtain ⟨s, y, z, g, h, r, rg, rh, hs, -, -, ez, hz, er, -, -, H⟩ := C93_argmax_softmax hW hexp hx (dim := 0) (by omega) p m
  obtain ⟨s', F, r', hs', -, er', -, H'⟩ := C71_max hx (dim := 0) (by omega) p (m 0)
  obtain rfl : s' = s := hs'.1.ext hs.1 (by rw [hs.2.2, hs'.2.2]) (fun i => by rw [hs.2.1 i, hs'.2.1 i])
  rw [er] at er'; cases er'
  have hv : s'.Valid (fun _ => 0) 0 := ⟨fun i => hs.1.get_pos i, hs.1.batch_pos⟩
  have h0 : s'.offset (fun _ => 0) 0 = 0 := by
    have := hs.1.offset_lt hv
    have e : s'.size = 1 := by
      unfold Shape.size
      rw [hs.1.vol, volN_congr (fun i _ => hs.2.1 i), hs.2.2]
      decide
    omega
  have hv' : ∀ j, j < 2 → (vecShape 2 1).Valid (cset (fun _ => 0) 0 j) 0 := fun j hj => reduced_valid hs hv hj
  have hl : LogitAxis (axisOf (vecShape 2 1) f 0 (fun _ => 0) 0) := by
    rw [pair_axis hf (show (vecShape 2 1).Valid (fun _ => 0) 0 from ⟨fun i => hx.wf.get_pos i, hx.wf.batch_pos⟩)]
    refine ⟨fun a ha => ?_, ⟨0, by simp, nofun⟩, fun h => ?_⟩
    · simp only [List.mem_cons, List.not_mem_nil, or_false] at ha
      rcases ha with rfl | rfl <;> exact .inl trivial
    · cases (List.cons_prefix_cons.mp h).1
  obtain ⟨k, -, -, i1, -, -, k1, -, -, best, -⟩ := H _ _ hv hl
  obtain ⟨k', i1', G⟩ := H' _ _ hv
  obtain rfl : k = k' := Option.some.inj (i1.symm.trans i1')
  have hk : k = 1 := by
    have k2 : k < 2 := k1
    by_contra hk
    obtain rfl : k = 0 := by omega
    have e0 : f (cset (fun _ => 0) 0 0) 0 = 0 := by rw [hf _ _ (hv' 0 (by omega))]; rfl
    have e1 : f (cset (fun _ => 0) 0 1) 0 = 1 := by rw [hf _ _ (hv' 1 (by omega))]; rfl
    have q := G.le (by rw [e0]; nofun) 1 (show 1 < 2 by omega) (by rw [e1]; nofun)
    rw [G.at_] at q
    rw [e0, e1, Fl.Is.rank (show (1 : Fl f32).Is 1 from ⟨le_rfl, le_rfl⟩), Fl.Is.rank (show (0 : Fl f32).Is 0 from ⟨le_rfl, le_rfl⟩)] at q
    exact absurd (EReal.coe_le_coe_iff.mp q) (by norm_num)
  subst hk
  exact ⟨x, z, h, r, ez, hz, er, by rw [← h0]; exact i1, fun j hj => (best j hj).2⟩

theorem list_single {l : List Nat} {k : Nat} (h : l.length = 1) (h' : l[0]? = some k) : l = [k] := by
  match l, h with
  | [a], _ => simp at h'; rw [h']

/-- C93: the two predictions do differ for some logits, with every accurate mathematical library: of the logits 0 and 2⁻¹⁰⁰ `argmax` picks the second, of their
probabilities the first. -/
theorem C93_predictions_differ (hA : E.libm64.Accurate (1 / 2 ^ 52)) (p : Profile) (m : Mem (Fl f32)) :
    ∃ (x z : Tensor (Fl f32)) (f : Arr (Fl f32)), x.Holds 0 (vecShape 2 1) f ∧
      (∀ c b, (vecShape 2 1).Valid c b → (f c b).Is (if c 0 = 0 then 0 else 1 / 2 ^ 100)) ∧ TF.softmax p m x 0 = ok z ∧
      TF.argmax p x 0 = ok [1] ∧ TF.argmax p z 0 = ok [0] := by
  have hδ : f32.Has (1 / 2 ^ 100 : ℝ) := by
    have := has_pow (-100) (by omega) (by omega)
    rwa [show ((2 : ℝ) ^ (-100 : ℤ)) = 1 / 2 ^ 100 by norm_num] at this
  obtain ⟨x, f, hx, hf⟩ := pair_exists (0 : Fl f32) (.fin false (1 / 2 ^ 100) ⟨hδ.1, hδ.2, nofun, fun _ => by positivity⟩)
  have hfi : ∀ c b, (vecShape 2 1).Valid c b → (f c b).Is (if c 0 = 0 then 0 else 1 / 2 ^ 100) := fun c b hv => by
    rw [hf c b hv]
    split
    · exact ⟨le_rfl, le_rfl⟩
    · exact ⟨le_rfl, le_rfl⟩
  have H : Moderate (vecShape 2 1) f (fun c _ => if c 0 = 0 then 0 else 1 / 2 ^ 100) 0 (1 / 2 ^ 52) 1 1 :=
    ⟨by omega, rfl, hfi, fun c b _ => by split <;> norm_num [abs_le], by positivity, by norm_num, by unfold stepErr; norm_num⟩
  obtain ⟨z, ez, hz⟩ := (softmax_yields hx (dim := 0) (by omega) p m).2
  obtain ⟨s, F, r, hs, -, e1, l1, a1⟩ := C71_max hx (dim := 0) (by omega) p (m 0)
  obtain ⟨s', G, rh, hs', -, e2, l2, a2⟩ := C71_max hz (dim := 0) (by omega) p (m 0)
  obtain rfl : s' = s := hs'.1.ext hs.1 (by rw [hs.2.2, hs'.2.2]) (fun i => by rw [hs.2.1 i, hs'.2.1 i])
  have hv : s'.Valid (fun _ => 0) 0 := ⟨fun i => hs.1.get_pos i, hs.1.batch_pos⟩
  have hsz : s'.size = 1 := by
    unfold Shape.size
    rw [hs.1.vol, volN_congr (fun i _ => hs.2.1 i), hs.2.2]
    decide
  have h0 : s'.offset (fun _ => 0) 0 = 0 := by
    have := hs.1.offset_lt hv
    omega
  have hv' : ∀ j, j < 2 → (vecShape 2 1).Valid (cset (fun _ => 0) 0 j) 0 := fun j hj => reduced_valid hs hv hj
  obtain ⟨k, i1, G1⟩ := a1 _ _ hv
  obtain ⟨kh, i2, G2⟩ := a2 _ _ hv
  rw [h0] at i1 i2
  refine ⟨x, z, f, hx, hfi, ez, ?_, ?_⟩
  · rw [e1, list_single (l1.trans hsz) i1]
    have k2 : k < 2 := G1.lt
    have hk : k = 1 := by
      by_contra hk
      obtain rfl : k = 0 := by omega
      have q0 : (f (cset (fun _ => 0) 0 0) 0).Is 0 := hfi _ _ (hv' 0 (by omega))
      have q1 : (f (cset (fun _ => 0) 0 1) 0).Is (1 / 2 ^ 100) := hfi _ _ (hv' 1 (by omega))
      have q := G1.le (fun e => by rw [e] at q0; exact q0.elim) 1 (show 1 < 2 by omega) (fun e => by rw [e] at q1; exact q1.elim)
      rw [G1.at_, q0.rank, q1.rank] at q
      exact absurd (EReal.coe_le_coe_iff.mp q) (by norm_num)
    rw [hk]
  · rw [e2, list_single (l2.trans hsz) i2]
    have k2 : kh < 2 := G2.lt
    have hk : kh = 0 := by
      by_contra hk
      obtain rfl : kh = 1 := by omega
      have hax : ∀ j, axisOf (vecShape 2 1) f 0 (cset (fun _ => 0) 0 j) 0 = axisOf (vecShape 2 1) f 0 (fun _ => 0) 0 := fun j => by unfold axisOf; simp only [cset_cset]
      obtain ⟨w, hw, hw'⟩ := lse_at hA H (c := fun _ => 0) (b := 0) ⟨fun i => hx.wf.get_pos i, hx.wf.batch_pos⟩
      rw [down_lse hx.wf] at hw
      have hsum : Real.log 2 ≤ Real.log (∑ j ∈ Finset.range (1 + 1), Real.exp (if cset (fun _ => 0) 0 j 0 = 0 then (0 : ℝ) else 1 / 2 ^ 100)) := by
        refine Real.log_le_log (by norm_num) ?_
        rw [Finset.sum_range_succ, Finset.sum_range_one]
        have t1 : Real.exp (if cset (fun _ => 0) 0 0 0 = 0 then (0 : ℝ) else 1 / 2 ^ 100) = 1 := by rw [if_pos (by rw [cset_at]), Real.exp_zero]
        have t2 : (1 : ℝ) ≤ Real.exp (if cset (fun _ => 0) 0 1 0 = 0 then (0 : ℝ) else 1 / 2 ^ 100) := by
          rw [if_neg (by rw [cset_at]; omega)]
          exact Real.one_le_exp (by positivity)
        linarith
      have herr : lseErr (1 / 2 ^ 52) 1 1 ≤ 1 / 10 := by unfold lseErr stepErr; norm_num
      have hwl : 1 / 4 ≤ w := by
        have := (abs_le.mp hw').1
        have : 1 - (2 : ℝ)⁻¹ ≤ Real.log 2 := Real.one_sub_inv_le_log_of_pos (by norm_num)
        linarith
      have hneg := Fl.neg_is hw
      have hc : f32.Has (-w) := (Fl.Appr.has_of_is hw).neg
      have s0 : (Fl.sub E.near32 (f (cset (fun _ => 0) 0 0) 0) (lseList (axisOf (vecShape 2 1) f 0 (fun _ => 0) 0))).Is (-w) :=
        absorbed_add (hfi _ _ (hv' 0 (by omega))) hneg hc (by
          rw [if_pos (by rw [cset_at]), abs_neg, abs_of_pos (show 0 < w by linarith)]
          norm_num
          linarith)
      have s1 : (Fl.sub E.near32 (f (cset (fun _ => 0) 0 1) 0) (lseList (axisOf (vecShape 2 1) f 0 (fun _ => 0) 0))).Is (-w) :=
        absorbed_add (hfi _ _ (hv' 1 (by omega))) hneg hc (by
          rw [if_neg (by rw [cset_at]; omega), abs_neg, abs_of_pos (show 0 < w by linarith), sub_neg_eq_add, neg_add_cancel_right, abs_of_pos (by positivity)]
          have : (1 : ℝ) / 2 ^ 100 < 1 / 4 / 2 ^ 24 / 2 := by norm_num
          have : (1 : ℝ) / 4 / 2 ^ 24 / 2 ≤ w / 2 ^ 24 / 2 := div_le_div_of_nonneg_right (div_le_div_of_nonneg_right hwl (by positivity)) (by norm_num)
          linarith)
      have hE := s0.eq_of_ne s1 (by linarith)
      have hval : E.libm32.exp (Fl.sub E.near32 (f (cset (fun _ => 0) 0 0) 0) (lseList (axisOf (vecShape 2 1) f 0 (cset (fun _ => 0) 0 0) 0))) =
          E.libm32.exp (Fl.sub E.near32 (f (cset (fun _ => 0) 0 1) 0) (lseList (axisOf (vecShape 2 1) f 0 (cset (fun _ => 0) 0 1) 0))) := by
        rw [hax, hax, hE]
      have hat := G2.at_
      rcases Classical.em (E.libm32.exp (Fl.sub E.near32 (f (cset (fun _ => 0) 0 0) 0) (lseList (axisOf (vecShape 2 1) f 0 (cset (fun _ => 0) 0 0) 0))) = .nan) with hn | hn
      · exact absurd (G2.nan hn).2 (by omega)
      · have q := G2.first hn 0 (by omega) hn
        rw [hat] at q
        rw [hval] at q
        exact lt_irrefl _ q
    rw [hk]

/-- There is such a library. -/
example : ∃ E : Ieee, E.libm64.Accurate (1 / 2 ^ 52) := by
  obtain ⟨E, h1, h2⟩ := Ieee.exists_ideal
  exact ⟨E, h2 ▸ ideal_acc64 _⟩

end
end Verif
