import Verif.FloatAdam
import Verif.FloatIdeal

/-!
# C87: Adam in f32
-/

set_option linter.unusedSectionVars false
set_option linter.style.haveILetI false

namespace Verif
open Fmt Res Shape

/-- Numbers in (0, 1] to a power of at least 1 do not grow: what `powf` needs to satisfy for C87. -/
def Libm.Shrinks (L : Libm f32) : Prop := ∀ (x t : Fl f32) (v s : ℝ), x.Is v → 0 < v → v ≤ 1 → t.Is s → 1 ≤ s → (L.powf x t).In 0 v

section
variable [E : Ieee] {d : Nat}

/-- Adam without weight decay and clipping, with a rate of at most 1, and decay rates in (0, 1 - 2^-20]. -/
structure PlainAdam (o : Opt (Fl f32)) (alpha beta1 beta2 eps : Fl f32) : Prop where
  kind : o.kind = .adam alpha beta1 beta2 eps
  no_decay : Flt.gt o.l2 0 = false
  no_clip : Flt.gt o.clip 0 = false
  epoch : o.epoch + 1 < U32
  rate : (o.lrScale * alpha).In (-1) 1
  beta1 : ∃ v, beta1.Is v ∧ 0 < v ∧ v ≤ 1 - 1 / 2 ^ 20
  beta2 : ∃ v, beta2.Is v ∧ 0 < v ∧ v ≤ 1 - 1 / 2 ^ 20

/-- A run of `n` iterations: in iteration `k` the parameters `q k` hold `as k` (with any gradients, and configured for the optimizer `o k`), and the values and
statistics of iteration `k + 1` are those the update of iteration `k` leaves. -/
structure AdamRun (d n : Nat) (p : Profile) (m : Nat → Nat → Nat → Mem (Fl f32)) (o : Nat → Opt (Fl f32)) (q : Nat → List (Param (Fl f32)))
    (as : Nat → List (PArr (Fl f32))) : Prop where
  holds : ∀ k, k ≤ n → Params d (q k) (as k)
  ready : ∀ k, k < n → ∀ a ∈ as k, a.Ready (o k).kind
  next : ∀ k, k < n → ∃ q' e, (o k).updateParameters p (m k) (q k) = (q', ok e) ∧
    List.Forall₂ (fun x y : Param (Fl f32) => y.value = x.value ∧ ∀ name, y.stat name = x.stat name) q' (q (k + 1))

theorem one_sub_in {x : Fl f32} (h : x.In 0 (1 - 1 / 2 ^ 20)) : (1 - x : Fl f32).In (1 / 2 ^ 20) 1 := by
  have h20 : f32.Has (1 / 2 ^ 20) := by
    have := has_pow (-20) (by norm_num) (by norm_num)
    rw [zpow_neg] at this
    norm_num at this ⊢
    exact this
  have h1 : (1 : Fl f32).In 1 1 := ⟨le_rfl, le_rfl⟩
  exact Fl.sub_in (N := E.near32) h1 h h20 has1 (by norm_num) (by norm_num)

theorem epoch_is {n : Nat} (h : n + 1 < U32) : ∃ s : ℝ, (Flt.ofInt ((n : Int) + 1) : Fl f32).Is s ∧ 1 ≤ s := by
  have hn : (n : ℝ) + 1 ≤ 2 ^ 32 := by have : n + 1 ≤ 2 ^ 32 := by unfold U32 at h; omega
                                       exact_mod_cast this
  have h2 : (Flt.ofInt ((n : Int) + 1) : Fl f32).In 1 (2 ^ 32) :=
    Fl.round_in has1 (Fl.hasTwo 32 (by norm_num)) (by push_cast; linarith [show (0 : ℝ) ≤ n from Nat.cast_nonneg n]) (by push_cast; exact hn)
  obtain ⟨s, _, h3, h4, _⟩ := h2.exists_in
  exact ⟨s, h3, h4⟩

variable {n : Nat} {p : Profile} {m : Nat → Nat → Nat → Mem (Fl f32)} {o : Nat → Opt (Fl f32)} {q : Nat → List (Param (Fl f32))}
  {as : Nat → List (PArr (Fl f32))}

theorem read_of {a : PArr (Fl f32)} {q : Param (Fl f32)} (h : q.Is d a) {name : String} {t : Tensor (Fl f32)} (ht : q.stat name = some t) {s : Shape}
    {f : Arr (Fl f32)} (hf : t.Holds d s f) {c : Nat → Nat} {b : Nat} (hv : s.Valid c b) : a.read name c b = f c b := by
  unfold PArr.read
  cases hs : a.stat name with
  | none => rw [h.stat_none name hs] at ht; cases ht
  | some sf =>
    obtain ⟨s', f'⟩ := sf
    obtain ⟨t', e, ht'⟩ := h.stat_some name s' f' hs
    rw [ht] at e
    cases e
    exact ((hf.unique ht').2.2 c b hv).symm

theorem run_next {alpha beta1 beta2 eps : Nat → Fl f32} (ho : ∀ k, k < n → PlainAdam (o k) (alpha k) (beta1 k) (beta2 k) (eps k))
    (h : AdamRun d n p m o q as) {i : Nat} {a : Nat → PArr (Fl f32)} (ha : ∀ k, k ≤ n → (as k)[i]? = some (a k)) {k : Nat} (hk : k < n) :
    (a (k + 1)).shape = (a k).shape ∧ ∀ c b, (a k).shape.Valid c b →
      (a (k + 1)).value c b = ((a k).rule (.adam (alpha k) (beta1 k) (beta2 k) (eps k)) (Flt.ofInt ((o k).epoch + 1)) (o k).lrScale).value c b ∧
      (a (k + 1)).read "Adam.m1" c b = (a k).read "Adam.m1" c b * beta1 k + (a k).grad c b * (1 - beta1 k) ∧
      (a (k + 1)).read "Adam.m2" c b = (a k).read "Adam.m2" c b * beta2 k + (a k).grad c b * (1 - beta2 k) * (a k).grad c b := by
  have ho := ho k hk
  obtain ⟨q', e, hu, hn⟩ := h.next k hk
  obtain ⟨qs', e', hq⟩ := updateParameters_ok (Fl.mul_comm E.near32) (o k) ho.epoch (h.holds k hk.le) (h.ready k hk) p (m k)
  rw [hu] at e'
  cases e'
  have hupd : PArr.updated (o k) (as k) = (as k).map fun a =>
      (a.rule (.adam (alpha k) (beta1 k) (beta2 k) (eps k)) (Flt.ofInt ((o k).epoch + 1)) (o k).lrScale).zeroed := by
    unfold PArr.updated PArr.clipped
    rw [ho.no_clip]
    simp only [Bool.false_and, Bool.false_eq_true, if_false, List.map_map]
    refine List.map_congr_left fun a _ => ?_
    have hd : PArr.decayed (o k).l2 a = a := by unfold PArr.decayed; rw [ho.no_decay]; rfl
    simp only [Function.comp, hd, ho.kind]
  rw [hupd] at hq
  have e1 := ha k hk.le
  have e2 := ha (k + 1) hk
  obtain ⟨l1, g1⟩ := List.getElem?_eq_some_iff.mp e1
  obtain ⟨l2, g2⟩ := List.getElem?_eq_some_iff.mp e2
  have lq : i < q'.length := by rw [hq.length_eq, List.length_map]; exact l1
  have lq' : i < (q (k + 1)).length := by rw [← hn.length_eq]; exact lq
  have i1 := (List.forall₂_iff_get.mp hq).2 i lq (by rw [List.length_map]; exact l1)
  have i2 := (List.forall₂_iff_get.mp hn).2 i lq lq'
  have i3 := (List.forall₂_iff_get.mp (h.holds (k + 1) hk)).2 i lq' l2
  simp only [List.get_eq_getElem, List.getElem_map] at i1 i2 i3
  rw [g1] at i1
  rw [g2] at i3
  have hv := i3.value
  rw [i2.1] at hv
  obtain ⟨_, hsh, hval⟩ := i1.value.unique hv
  refine ⟨hsh.symm, fun c b hcb => ⟨(hval c b hcb).symm, ?_, ?_⟩⟩
  · obtain ⟨t, ht, hh⟩ := i1.stat_some "Adam.m1" _ _ rfl
    exact read_of i3 ((i2.2 _).trans ht) hh hcb
  · obtain ⟨t, ht, hh⟩ := i1.stat_some "Adam.m2" _ _ rfl
    exact read_of i3 ((i2.2 _).trans ht) hh hcb

theorem adam_next {alpha beta1 beta2 eps : Nat → Fl f32} (hL : E.libm32.Shrinks) (ho : ∀ k, k < n → PlainAdam (o k) (alpha k) (beta1 k) (beta2 k) (eps k))
    (h : AdamRun d n p m o q as) {i : Nat} {a : Nat → PArr (Fl f32)} (ha : ∀ k, k ≤ n → (as k)[i]? = some (a k)) {k : Nat} (hk : k < n)
    {c : Nat → Nat} {b : Nat} (hv : (a k).shape.Valid c b) (heps : ∃ v, (eps k).Is v ∧ 0 < v) {γ : ℝ} (hg : ((a k).grad c b).Is γ) (h80 : |γ| ≤ 2 ^ 80)
    (h1 : ((a k).read "Adam.m1" c b).In (-2 ^ 100) (2 ^ 100)) (h2 : ((a k).read "Adam.m2" c b).NonNeg) :
    ((a (k + 1)).read "Adam.m1" c b).In (-2 ^ 100) (2 ^ 100) ∧ ((a (k + 1)).read "Adam.m2" c b).NonNeg ∧
      ((a k).read "Adam.m2" c b = .inf false ∨ 2 ^ 75 ≤ |γ| → (a (k + 1)).read "Adam.m2" c b = .inf false) ∧
      ∀ v, ((a k).value c b).Is v → (a (k + 1)).value c b ≠ .nan ∧ ((a (k + 1)).read "Adam.m2" c b = .inf false → ((a (k + 1)).value c b).Is v) := by
  obtain ⟨_, hr⟩ := run_next ho h ha hk
  obtain ⟨r1, r2, r3⟩ := hr c b hv
  have ho := ho k hk
  obtain ⟨v1, b1, p1, q1⟩ := ho.beta1
  obtain ⟨v2, b2, p2, q2⟩ := ho.beta2
  obtain ⟨e, he, e0⟩ := heps
  obtain ⟨t, ht, t1⟩ := epoch_is ho.epoch
  have i1 : (beta1 k).In 0 (1 - 1 / 2 ^ 20) := Fl.In.mono (a := v1) (b := v1) b1 p1.le q1
  have i2 : (beta2 k).In 0 (1 - 1 / 2 ^ 20) := Fl.In.mono (a := v2) (b := v2) b2 p2.le q2
  have s1 := one_sub_in i1
  have s2 := one_sub_in i2
  have c1 := one_sub_in ((hL _ _ _ _ b1 p1 (q1.trans (by norm_num)) ht t1).mono le_rfl q1)
  have c2 := one_sub_in ((hL _ _ _ _ b2 p2 (q2.trans (by norm_num)) ht t1).mono le_rfl q2)
  have g1 : ((a k).grad c b).In (-2 ^ 80) (2 ^ 80) := Fl.In.mono (a := γ) (b := γ) hg (abs_le.mp h80).1 (abs_le.mp h80).2
  have m1 : ((a (k + 1)).read "Adam.m1" c b).In (-2 ^ 100) (2 ^ 100) := by
    rw [r2]
    exact Fl.moment_in (N := E.near32) h1 g1 i1 (s1.mono (by positivity) le_rfl)
  obtain ⟨n1, n2⟩ := Fl.mul_nonneg' (N := E.near32) h2 b2 p2
  have n3 := Fl.square_nonneg (N := E.near32) hg s2
  have m2 : ((a (k + 1)).read "Adam.m2" c b).NonNeg := by
    rw [r3]
    exact Fl.add_nonneg (N := E.near32) n1 n3
  refine ⟨m1, m2, fun hi => ?_, fun v hx => ?_⟩
  · rw [r3]
    show Fl.add E.near32 (Fl.mul E.near32 _ _) (Fl.mul E.near32 (Fl.mul E.near32 _ _) _) = _
    rcases hi with hi | hi
    · rw [n2 hi]
      exact Fl.inf_add n3
    · rw [Fl.square_inf hg hi h80 s2]
      exact Fl.add_inf n1
  · rw [r1]
    have key := Fl.adam_value (N := E.near32) (c := 1 - Flt.powf (beta1 k) (Flt.ofInt (((o k).epoch : Int) + 1)))
      (c' := 1 - Flt.powf (beta2 k) (Flt.ofInt (((o k).epoch : Int) + 1))) (r := (o k).lrScale * alpha k) hx m1 m2 c1 c2 ho.rate he e0
    rw [r2, r3] at key
    rw [r3]
    exact key

/-- The statistics of the element are in range: the first is at most `2^100`, the second is not negative and not NaN. -/
def Sound (a : PArr (Fl f32)) (c : Nat → Nat) (b : Nat) : Prop := (a.read "Adam.m1" c b).In (-2 ^ 100) (2 ^ 100) ∧ (a.read "Adam.m2" c b).NonNeg

/-- C87: as long as the gradients are at most `2^80`, the statistics of Adam remain in range and a finite value does not become NaN. -/
theorem C87_adam_no_nan {alpha beta1 beta2 eps : Nat → Fl f32} (hL : E.libm32.Shrinks)
    (ho : ∀ k, k < n → PlainAdam (o k) (alpha k) (beta1 k) (beta2 k) (eps k)) (heps : ∀ k, k < n → ∃ v, (eps k).Is v ∧ 0 < v)
    (h : AdamRun d n p m o q as) {i : Nat} {a : Nat → PArr (Fl f32)}
    (ha : ∀ k, k ≤ n → (as k)[i]? = some (a k)) {c : Nat → Nat} {b : Nat} (hv : (a 0).shape.Valid c b) (h0 : Sound (a 0) c b) (γ : Nat → ℝ)
    (hg : ∀ k, k < n → ((a k).grad c b).Is (γ k) ∧ |γ k| ≤ 2 ^ 80) :
    ∀ k, k ≤ n → (a k).shape = (a 0).shape ∧ Sound (a k) c b ∧ (k < n → ((a k).value c b).Finite → (a (k + 1)).value c b ≠ .nan) := by
  have key : ∀ k, k ≤ n → (a k).shape = (a 0).shape ∧ Sound (a k) c b := by
    intro k hk
    induction k with
    | zero => exact ⟨rfl, h0⟩
    | succ k ih =>
      obtain ⟨ih1, ih2⟩ := ih (by omega)
      obtain ⟨e1, _⟩ := run_next ho h ha (k := k) (by omega)
      obtain ⟨x1, x2, _⟩ := adam_next hL ho h ha (k := k) (by omega) (by rw [ih1]; exact hv) (heps k (by omega)) (hg k (by omega)).1 (hg k (by omega)).2 ih2.1 ih2.2
      exact ⟨e1.trans ih1, x1, x2⟩
  intro k hk
  obtain ⟨k1, k2⟩ := key k hk
  refine ⟨k1, k2, fun hlt hfin => ?_⟩
  exact ((adam_next hL ho h ha hlt (by rw [k1]; exact hv) (heps k hlt) (hg k hlt).1 (hg k hlt).2 k2.1 k2.2).2.2.2 _ hfin.is_val).1

/-- C87: one gradient between `2^75` and `2^80` stops an element forever: its second moment overflows to infinity and remains there, and its value stays
exactly where it was, whatever gradients (of at most `2^80`) follow. -/
theorem C87_adam_frozen {alpha beta1 beta2 eps : Nat → Fl f32} (hL : E.libm32.Shrinks)
    (ho : ∀ k, k < n → PlainAdam (o k) (alpha k) (beta1 k) (beta2 k) (eps k)) (heps : ∀ k, k < n → ∃ v, (eps k).Is v ∧ 0 < v)
    (h : AdamRun d n p m o q as) {i : Nat} {a : Nat → PArr (Fl f32)}
    (ha : ∀ k, k ≤ n → (as k)[i]? = some (a k)) {c : Nat → Nat} {b : Nat} (hv : (a 0).shape.Valid c b) (h0 : Sound (a 0) c b) (γ : Nat → ℝ)
    (hg : ∀ k, k < n → ((a k).grad c b).Is (γ k) ∧ |γ k| ≤ 2 ^ 80) {k₀ : Nat} (hbig : 2 ^ 75 ≤ |γ k₀|) {v : ℝ}
    (hx : ((a k₀).value c b).Is v) :
    ∀ k, k₀ ≤ k → k ≤ n → ((a k).value c b).Is v ∧ (k₀ < k → (a k).read "Adam.m2" c b = .inf false) := by
  intro k hk hkn
  induction k, hk using Nat.le_induction with
  | base => exact ⟨hx, fun h => absurd h (lt_irrefl _)⟩
  | succ k hk ih =>
    obtain ⟨ih1, ih2⟩ := ih (by omega)
    obtain ⟨s1, s2, _⟩ := C87_adam_no_nan hL ho heps h ha hv h0 γ hg k (by omega)
    obtain ⟨_, _, x3, x4⟩ := adam_next hL ho h ha (k := k) (by omega) (by rw [s1]; exact hv) (heps k (by omega)) (hg k (by omega)).1 (hg k (by omega)).2 s2.1 s2.2
    have hinf := x3 (by
      rcases Nat.eq_or_lt_of_le hk with e | e
      · right; rw [← e]; exact hbig
      · left; exact ih2 e)
    exact ⟨(x4 v ih1).2 hinf, fun _ => hinf⟩

/-- C87: with `eps = 0`, an element whose gradient has been zero so far becomes NaN in the next update. -/
theorem C87_adam_eps_zero {alpha beta1 beta2 eps : Nat → Fl f32} (hL : E.libm32.Shrinks)
    (ho : ∀ k, k < n → PlainAdam (o k) (alpha k) (beta1 k) (beta2 k) (eps k)) (h : AdamRun d n p m o q as) {i : Nat} {a : Nat → PArr (Fl f32)}
    (ha : ∀ k, k ≤ n → (as k)[i]? = some (a k)) {k : Nat} (hk : k < n) {c : Nat → Nat} {b : Nat} (hv : (a k).shape.Valid c b)
    (heps : (eps k).Is 0) (hg : ((a k).grad c b).Is 0) (h1 : ((a k).read "Adam.m1" c b).Is 0) (h2 : ((a k).read "Adam.m2" c b).Is 0) :
    (a (k + 1)).value c b = .nan := by
  obtain ⟨_, hr⟩ := run_next ho h ha hk
  obtain ⟨r1, _⟩ := hr c b hv
  have ho := ho k hk
  obtain ⟨v1, b1, p1, q1⟩ := ho.beta1
  obtain ⟨v2, b2, p2, q2⟩ := ho.beta2
  obtain ⟨t, ht, t1⟩ := epoch_is ho.epoch
  have s1 := one_sub_in (Fl.In.mono (a := v1) (b := v1) b1 p1.le q1)
  have s2 := one_sub_in (Fl.In.mono (a := v2) (b := v2) b2 p2.le q2)
  have c1 := one_sub_in ((hL _ _ _ _ b1 p1 (q1.trans (by norm_num)) ht t1).mono le_rfl q1)
  have c2 := one_sub_in ((hL _ _ _ _ b2 p2 (q2.trans (by norm_num)) ht t1).mono le_rfl q2)
  rw [r1]
  exact Fl.adam_zero (N := E.near32) (x := (a k).value c b)
    (Fl.add_zeros (Fl.mul_zero_in h1 b1) (Fl.mul_zero_in hg s1))
    (Fl.add_zeros (Fl.mul_zero_in h2 b2) (Fl.mul_zero_in (Fl.mul_zero_in hg s2) hg)) c1 c2 ho.rate heps

/-- Adam with rate 1, decay rates 1/2 and `k` updates behind it. -/
noncomputable def adamOne (eps : Fl f32) (k : Nat) : Opt (Fl f32) :=
  ⟨k, fl1, 0, 0, .adam fl1 (flPos (has_pow (-1) (by norm_num) (by norm_num)) (by positivity)) (flPos (has_pow (-1) (by norm_num) (by norm_num)) (by positivity)) eps⟩

theorem adamOne_plain {eps : Fl f32} {k : Nat} (h : k + 1 < U32) : PlainAdam (adamOne eps k) fl1 (flPos (has_pow (-1) (by norm_num) (by norm_num)) (by positivity))
    (flPos (has_pow (-1) (by norm_num) (by norm_num)) (by positivity)) eps :=
  ⟨rfl, gt_zero_zero, gt_zero_zero, h, by
    obtain ⟨z, ez⟩ := Fl.mul_eq (N := E.near32) (show fl1.Is 1 from ⟨le_rfl, le_rfl⟩) (show fl1.Is 1 from ⟨le_rfl, le_rfl⟩)
    show (Fl.mul E.near32 fl1 fl1).In _ _
    rw [ez]
    exact Fl.round_in has1.neg has1 (by norm_num) (by norm_num),
    ⟨_, flPos_is _ _, by positivity, by norm_num⟩, ⟨_, flPos_is _ _, by positivity, by norm_num⟩⟩

/-- Runs on one 2×3 parameter with value 1 and any gradients exist. -/
theorem adam_run_exists (eps : Fl f32) (g : Nat → Fl f32) (n : Nat) (hn : n < U32) (p : Profile) (m : Nat → Nat → Nat → Mem (Fl f32)) :
    ∃ (q : Nat → List (Param (Fl f32))) (a : Nat → PArr (Fl f32)), AdamRun 0 n p m (adamOne eps) q (fun k => [a k]) ∧ (a 0).shape = matShape 2 3 1 ∧
      (∀ k c b, (a k).grad c b = g k) ∧ (∀ c b, (a 0).value c b = fl1 ∧ (a 0).read "Adam.m1" c b = 0 ∧ (a 0).read "Adam.m2" c b = 0) := by
  have hs := matShape_wf (n := 2) (m := 3) (b := 1) rfl
  have hsz : (matShape 2 3 1).size ≤ 2 ^ 31 := by decide
  obtain ⟨t1, e1⟩ := exists_holds hs hsz 0 (fun _ => fl1)
  obtain ⟨t3, e3⟩ := exists_holds hs hsz 0 (fun _ => (0 : Fl f32))
  have hgr : ∀ k, ∃ t : Tensor (Fl f32), t.Holds 0 (matShape 2 3 1) (fun _ _ => g k) := fun k => exists_holds hs hsz 0 (fun _ => g k)
  choose t2 e2 using hgr
  let a0 : PArr (Fl f32) := ⟨matShape 2 3 1, fun _ _ => fl1, fun _ _ => g 0,
    fun s => if s = "Adam.m1" then some (matShape 2 3 1, fun _ _ => 0) else if s = "Adam.m2" then some (matShape 2 3 1, fun _ _ => 0) else none⟩
  let q0 : Param (Fl f32) := ⟨t1, t2 0, [("Adam.m1", t3), ("Adam.m2", t3)]⟩
  have hq0 : q0.Is 0 a0 := by
    refine ⟨rfl, e1, e2 0, fun s h => ?_, by simp [q0], fun s s' f h => ?_⟩
    · simp only [a0] at h
      split_ifs at h with k1 k2
      show List.lookup s _ = none
      simp [q0, List.lookup, beq_eq_false_iff_ne.mpr k1, beq_eq_false_iff_ne.mpr k2]
    · simp only [a0] at h
      split_ifs at h with k1 k2
      · cases h
        subst k1
        exact ⟨t3, rfl, e3⟩
      · cases h
        subst k2
        exact ⟨t3, rfl, e3⟩
  let a : Nat → PArr (Fl f32) := fun k => Nat.rec a0 (fun k a =>
    ((a.rule (adamOne eps k).kind (Flt.ofInt ((adamOne eps k).epoch + 1)) (adamOne eps k).lrScale).zeroed).withGrad fun _ _ => g (k + 1)) k
  let q : Nat → List (Param (Fl f32)) := fun k => Nat.rec [q0] (fun k q =>
    ((adamOne eps k).updateParameters p (m k) q).1.map fun x => { x with gradient := t2 (k + 1) }) k
  have hsh : ∀ k, (a k).shape = matShape 2 3 1 := by
    intro k
    induction k with
    | zero => rfl
    | succ k ih => exact ih
  have hready : ∀ k, (a k).Ready (adamOne eps k).kind := by
    intro k
    cases k with
    | zero => exact ⟨⟨_, rfl⟩, ⟨_, rfl⟩⟩
    | succ k => exact ⟨⟨_, rfl⟩, ⟨_, rfl⟩⟩
  have hupd : ∀ k, PArr.updated (adamOne eps k) [a k] =
      [((a k).rule (adamOne eps k).kind (Flt.ofInt ((adamOne eps k).epoch + 1)) (adamOne eps k).lrScale).zeroed] := by
    intro k
    unfold PArr.updated PArr.clipped PArr.decayed
    rw [show Flt.gt (adamOne eps k).clip 0 = false from gt_zero_zero, show Flt.gt (adamOne eps k).l2 0 = false from gt_zero_zero]
    rfl
  have hall : ∀ k, k ≤ n → Params 0 (q k) [a k] := by
    intro k hk
    induction k with
    | zero => exact .cons hq0 .nil
    | succ k ih =>
      obtain ⟨qs', x1, x2⟩ := updateParameters_ok (Fl.mul_comm E.near32) (adamOne eps k) (show k + 1 < U32 by omega) (ih (by omega))
        (by intro x hx; rw [List.mem_singleton.mp hx]; exact hready k) p (m k)
      rw [hupd] at x2
      show Params 0 (((adamOne eps k).updateParameters p (m k) (q k)).1.map fun x => { x with gradient := t2 (k + 1) }) _
      rw [x1]
      cases x2 with
      | cons y1 y2 =>
        cases y2
        refine .cons ⟨y1.batch, y1.value, ?_, y1.stat_none, y1.nodup, y1.stat_some⟩ .nil
        have : (a (k + 1)).shape = matShape 2 3 1 := hsh (k + 1)
        rw [this]
        exact e2 (k + 1)
  refine ⟨q, a, ⟨hall, fun k _ x hx => ?_, fun k hk => ?_⟩, rfl, fun k c b => ?_, fun c b => ⟨rfl, rfl, rfl⟩⟩
  · rw [List.mem_singleton.mp hx]; exact hready k
  · obtain ⟨qs', x1, x2⟩ := updateParameters_ok (Fl.mul_comm E.near32) (adamOne eps k) (show k + 1 < U32 by omega) (hall k hk.le)
      (by intro x hx; rw [List.mem_singleton.mp hx]; exact hready k) p (m k)
    refine ⟨qs', _, x1, ?_⟩
    show List.Forall₂ _ qs' (((adamOne eps k).updateParameters p (m k) (q k)).1.map fun x => { x with gradient := t2 (k + 1) })
    rw [x1, List.forall₂_map_right_iff, List.forall₂_same]
    exact fun x _ => ⟨rfl, fun _ => rfl⟩
  · cases k with
    | zero => rfl
    | succ k => rfl

end

theorem Libm.ideal_shrinks (N : Near f32) : (Libm.ideal N).Shrinks := by
  intro x t v s hx h0 h1 ht hs
  have hv := Fl.Appr.has_of_is hx
  cases x with
  | fin _ u hu =>
    obtain rfl : u = v := le_antisymm hx.2 hx.1
    cases t with
    | fin _ r hr =>
      obtain rfl : r = s := le_antisymm ht.2 ht.1
      show (if 0 < u then Fl.round N false (u ^ r) else .nan).In 0 u
      rw [if_pos h0]
      refine Fl.round_in has0 hv (Real.rpow_nonneg h0.le r) ?_
      have := Real.rpow_le_rpow_of_exponent_ge h0 h1 hs
      rwa [Real.rpow_one] at this
    | inf _ => exact ht.elim
    | nan => exact ht.elim
  | inf _ => exact hx.elim
  | nan => exact hx.elim

/-- A run of any number of iterations with a gradient of `2^76` in the first and of 1 in all others: it exists, with the arithmetic that rounds exact
results, and the values are 1 after every iteration. -/
example : ∃ E : Ieee, E.libm32.Shrinks ∧ ∀ (n : Nat) (_ : n < U32) (p : Profile) (m : Nat → Nat → Nat → Mem (Fl f32)),
    ∃ (q : Nat → List (Param (Fl f32))) (a : Nat → PArr (Fl f32)), AdamRun 0 n p m (adamOne fl1) q (fun k => [a k]) ∧ (a 0).shape.size = 6 ∧
      (∀ k, ((a k).grad czero 0).Is (if k = 0 then 2 ^ 76 else 1)) ∧ ∀ k, k ≤ n → ((a k).value czero 0).Is 1 := by
  obtain ⟨E, h1, -⟩ := Ieee.exists_ideal
  have hL : E.libm32.Shrinks := h1 ▸ Libm.ideal_shrinks _
  refine ⟨E, hL, fun n hn p m => ?_⟩
  have hs := matShape_wf (n := 2) (m := 3) (b := 1) rfl
  obtain ⟨q, a, hrun, hsh, hg, h0⟩ := adam_run_exists fl1
    (fun k => if k = 0 then flPos (has_pow 76 (by norm_num) (by norm_num)) (by positivity) else fl1) n hn p m
  have hgrad : ∀ k, ((a k).grad czero 0).Is (if k = 0 then 2 ^ 76 else 1) := by
    intro k
    rw [hg]
    split
    · have h76 : (2 : ℝ) ^ (76 : ℤ) = 2 ^ 76 := by norm_num
      rw [← h76]
      exact flPos_is (has_pow 76 (by norm_num) (by norm_num)) (by positivity)
    · exact ⟨le_rfl, le_rfl⟩
  refine ⟨q, a, hrun, by rw [hsh]; rfl, hgrad, fun k hk => ?_⟩
  exact (C87_adam_frozen hL (alpha := fun _ => fl1) (eps := fun _ => fl1) (fun k hk => adamOne_plain (by omega)) (fun _ _ => ⟨1, ⟨le_rfl, le_rfl⟩, one_pos⟩) hrun (i := 0)
    (fun _ _ => rfl) (c := czero) (b := 0) ⟨fun i => by rw [hsh]; exact hs.get_pos i, by rw [hsh]; exact hs.batch_pos⟩
    ⟨by rw [(h0 _ _).2.1]; exact ⟨by show (-2 ^ 100 : ℝ) ≤ 0; norm_num, by show (0 : ℝ) ≤ 2 ^ 100; norm_num⟩, by rw [(h0 _ _).2.2]; exact le_refl (0 : ℝ)⟩ _
    (fun k _ => ⟨hgrad k, by split <;> norm_num⟩) (k₀ := 0) (by norm_num) (v := 1) (by rw [(h0 _ _).1]; exact ⟨le_rfl, le_rfl⟩) k (Nat.zero_le k) hk).1

/-- One update with `eps = 0` and a gradient of zero turns a parameter with the value 1 into NaN. -/
example : ∃ E : Ieee, ∀ (p : Profile) (m : Nat → Nat → Nat → Mem (Fl f32)),
    ∃ (q : Nat → List (Param (Fl f32))) (a : Nat → PArr (Fl f32)), AdamRun 0 1 p m (adamOne 0) q (fun k => [a k]) ∧
      ((a 0).value czero 0).Is 1 ∧ ((a 0).grad czero 0).Is 0 ∧ (a 1).value czero 0 = .nan := by
  obtain ⟨E, h1, -⟩ := Ieee.exists_ideal
  have hL : E.libm32.Shrinks := h1 ▸ Libm.ideal_shrinks _
  refine ⟨E, fun p m => ?_⟩
  have hs := matShape_wf (n := 2) (m := 3) (b := 1) rfl
  obtain ⟨q, a, hrun, hsh, hg, h0⟩ := adam_run_exists 0 (fun _ => 0) 1 (by decide) p m
  refine ⟨q, a, hrun, by rw [(h0 _ _).1]; exact ⟨le_rfl, le_rfl⟩, by rw [hg]; exact zero_is, ?_⟩
  exact C87_adam_eps_zero hL (alpha := fun _ => fl1) (eps := fun _ => 0) (fun k hk => adamOne_plain (by unfold U32; omega)) hrun (i := 0) (fun _ _ => rfl) (k := 0) one_pos
    (c := czero) (b := 0) ⟨fun i => by rw [hsh]; exact hs.get_pos i, by rw [hsh]; exact hs.batch_pos⟩ zero_is (by rw [hg]; exact zero_is)
    (by rw [(h0 _ _).2.1]; exact zero_is) (by rw [(h0 _ _).2.2]; exact zero_is)

end Verif
