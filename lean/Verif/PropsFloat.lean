import Verif.FloatIdeal
import Verif.PropsSerde

/-!
# C67: sigmoid, softplus, logsumexp and softmax do not overflow in f32
-/

set_option linter.unusedSectionVars false
set_option linter.style.haveILetI false

namespace Verif
open Fmt Res Shape

section
variable [E : Ieee] {d : Nat} {x t : Tensor (Fl f32)} {s sx : Shape} {f : Arr (Fl f32)}

/-- `2^126`. -/
noncomputable def big : ℝ := 2 ^ 126

/-- C67: the elements of `sigmoid(x)` are numbers in [0, 1], for every input but NaN (infinities included). -/
theorem C67_sigmoid (hx : x.Holds d sx f) (hf : ∀ c b, sx.Valid c b → f c b ≠ .nan) (p : Profile) (m : Nat → Fl f32) :
    ∃ g, Yields (TF.sigmoid p m x) d sx g ∧ ∀ c b, sx.Valid c b → (g c b).In 0 1 :=
  ⟨_, TF.un_yields .sigmoid hx p m, fun c b hv => sigmoid_in E.sane32 _ (hf c b hv)⟩

/-- C67: the elements of `softplus(x)`, for finite inputs, are finite, at least `max(0, x)` and at most `max(0, x) + 1` rounded. -/
theorem C67_softplus (hx : x.Holds d sx f) (hf : ∀ c b, sx.Valid c b → (f c b).Finite) (p : Profile) (m : Nat → Fl f32) :
    ∃ g, Yields (TF.softplus p m x) d sx g ∧ ∀ c b, sx.Valid c b →
      (g c b).Finite ∧ ∀ v, (f c b).Is v → (g c b).In (max 0 v) (E.near32.near (max 0 v + 1)) := by
  refine ⟨_, TF.un_yields .softplus hx p m, fun c b hv => ?_⟩
  obtain ⟨v, hv1, hv2⟩ := (hf c b hv).exists_in
  obtain ⟨h1, h2⟩ := softplus_in (N := E.near32) (M := E.near64) (L := E.libm32) (W := E.libm64) E.sane32 hv1 hv2
  refine ⟨h2, fun v' hv' => ?_⟩
  rw [Fl.Is.unique hv' hv2]
  exact h1

/-- C67, the limit of the claim: `softplus` of `-∞` is NaN (the exact value is 0), because the implementation multiplies `0` by `-∞`. -/
theorem C67_softplus_neg_inf (hx : x.Holds d sx f) (p : Profile) (m : Nat → Fl f32) :
    ∃ g, Yields (TF.softplus p m x) d sx g ∧ ∀ c b, sx.Valid c b → f c b = .inf true → g c b = .nan := by
  refine ⟨_, TF.un_yields .softplus hx p m, fun c b hv h => ?_⟩
  show Scalar.softplusFw (f c b) = .nan
  rw [h]
  have h1 : Fl.mul E.near32 (Fl.lit 0 Fl.zero_ok le_rfl) (.inf true) = .nan := if_pos rfl
  show Fl.add E.near32 _ (Fl.mul E.near32 (Fl.lit 0 Fl.zero_ok le_rfl) (.inf true)) = .nan
  rw [h1]
  cases (Flt.ln (1 + Flt.exp (-Flt.abs (Fl.inf true : Fl f32))) : Fl f32) <;> rfl

theorem lse_yields (hx : x.Holds d sx f) {dim : Nat} (hd : dim < 8) (hs : s.Is (cset sx.get dim 1) sx.batch) (p : Profile) (m : Nat → Fl f32) :
    Yields (TF.logsumexp p m x dim) d s (fun c b =>
      Flt.down (foldN (sx.get dim - 1) (fun j a => Scalar.lseStep a (Flt.up (f (cset c dim (j + 1)) b))) (Flt.up (f (cset c dim 0) b)))) := by
  obtain ⟨h1, h2, -, -⟩ := resize1 hx.wf hd hs
  exact TF.call1 (op := .logsumexp dim) hx h1 (h2.trans hx.small) trivial p m

/-- Bounds of the sums: the largest finite number, and `2^126`. -/
theorem near64_max (M : Near f64) : M.near (maxF32 + 1) = maxF32 :=
  M.absorb (b := (2 ^ 24 - 1) * 2 ^ 29) (j := 75) (grid_up maxF32_has.1) (by unfold maxF32; norm_num) (by norm_num) (by
    show (2 : ℝ) ^ 53 * 2 ^ 74 < maxF32
    unfold maxF32; norm_num)

theorem big_has : f32.Has big := ⟨grid_nat (2 ^ 22) 104 (by unfold big; norm_num) (by norm_num [f32]) (by norm_num [f32]) (by norm_num [f32]), by
  rw [top32]; unfold big; rw [abs_of_pos (by positivity)]; norm_num⟩

theorem near64_big (M : Near f64) : M.near (big + 1) = big :=
  M.absorb (b := 2 ^ 53) (j := 73) (grid_up big_has.1) (by unfold big; norm_num) (by norm_num) (by
    show (2 : ℝ) ^ 53 * 2 ^ 72 < big
    unfold big; norm_num)

theorem twice_has {B : ℝ} (h : f32.Has B) : f64.Has (2 * B) := by
  obtain ⟨⟨m, e, h1, h2, h3, rfl⟩, h4⟩ := h
  change |m| ≤ 2 ^ 24 at h1
  change -149 ≤ e at h2
  change e ≤ 104 at h3
  refine ⟨⟨m, e + 1, h1.trans (by norm_num [f64]), ?_, ?_, ?_⟩, ?_⟩
  · show (-1074 : ℤ) ≤ e + 1; omega
  · show e + 1 ≤ (971 : ℤ); omega
  · rw [zpow_add_one₀ (by norm_num)]; ring
  · rw [abs_mul, abs_of_pos (by norm_num : (0 : ℝ) < 2), top64]
    rw [top32] at h4
    calc 2 * |(m : ℝ) * 2 ^ e| < 2 * 2 ^ 128 := by linarith
      _ = 2 ^ 129 := by norm_num
      _ < 2 ^ 1024 := pow_lt_pow_right₀ (by norm_num) (by norm_num)

/-- logsumexp of finite numbers of magnitude at most `B`. -/
theorem lse_bound {B : ℝ} (hB : f32.Has B) (hM : E.near64.near (B + 1) = B) (hw : sx.WF) {dim : Nat} {c : Nat → Nat} {b : Nat}
    (hf : ∀ j, j < sx.get dim → (f (cset c dim j) b).In (-B) B) :
    ∃ l, (Flt.down (foldN (sx.get dim - 1) (fun j a => Scalar.lseStep a (Flt.up (f (cset c dim (j + 1)) b))) (Flt.up (f (cset c dim 0) b))) : Fl f32).In l B ∧
      ∀ j v, j < sx.get dim → (f (cset c dim j) b).Is v → v ≤ l := by
  have hn := hw.get_pos dim
  let v : Nat → ℝ := fun j => (f (cset c dim j) b).val
  have hv : ∀ j, j ≤ sx.get dim - 1 → (f (cset c dim j) b).In (v j) (v j) ∧ |v j| ≤ B := by
    intro j hj
    have h := hf j (by omega)
    show (f (cset c dim j) b).In (f (cset c dim j) b).val (f (cset c dim j) b).val ∧ |(f (cset c dim j) b).val| ≤ B
    cases e : f (cset c dim j) b with
    | fin s u hu => rw [e] at h; exact ⟨⟨le_rfl, le_rfl⟩, abs_le.mpr h⟩
    | inf s => rw [e] at h; exact h.elim
    | nan => rw [e] at h; exact h.elim
  obtain ⟨l, h1, h2⟩ := lse_in (N := E.near32) (L := E.libm32) E.sane64 hB.up (twice_has hB) hM (fun j => f (cset c dim j) b) v (sx.get dim - 1)
    (fun j hj => (hv j hj).1) (fun j hj => (hv j hj).2)
  obtain ⟨w, -, hw1, hw2, hw3⟩ := h1.exists_in
  -- the largest input is a number of f32
  have h3 : ∃ k, k ≤ sx.get dim - 1 ∧ ∀ j, j ≤ sx.get dim - 1 → v j ≤ v k := by
    obtain ⟨k, hk, hm⟩ := Finset.exists_max_image (Finset.range (sx.get dim - 1 + 1)) v ⟨0, by simp⟩
    exact ⟨k, by simpa [Nat.lt_succ_iff] using hk, fun j hj => hm j (by simp; omega)⟩
  obtain ⟨k, hk, hm⟩ := h3
  have hvk : f32.Has (v k) := by
    obtain ⟨u, hu, hu1, hu2, hu3⟩ := (hv k hk).1.exists_in
    rwa [le_antisymm hu2 hu3]
  refine ⟨v k, Fl.narrow_in (h1.mono (h2 k hk) le_rfl) hvk hB, fun j u hj hu => ?_⟩
  rw [Fl.Is.unique hu (hv j (by omega)).1]
  exact hm j (by omega)

theorem finite_in {x : Fl f32} (h : x.Finite) : x.In (-maxF32) maxF32 := by
  obtain ⟨v, hv, h1⟩ := h.exists_in
  exact h1.mono (abs_le.mp hv.le_max).1 (abs_le.mp hv.le_max).2

theorem le_of_in {x y : Fl f32} {l u : ℝ} (hy : y.In l u) (hx : x.Finite) (h : ∀ v, x.Is v → v ≤ l) : Fl.le x y = true := by
  obtain ⟨v, -, hv⟩ := hx.exists_in
  obtain ⟨w, -, hw, h1, -⟩ := hy.exists_in
  exact (Fl.le_in hv hw).mpr ((h v hv).trans h1)

/-- C67: `logsumexp` of finite numbers is finite and at least each of them. -/
theorem C67_logsumexp (hx : x.Holds d sx f) (hf : ∀ c b, sx.Valid c b → (f c b).Finite) {dim : Nat} (hd : dim < 8)
    (hs : s.Is (cset sx.get dim 1) sx.batch) (p : Profile) (m : Nat → Fl f32) :
    ∃ g, Yields (TF.logsumexp p m x dim) d s g ∧ ∀ c b, s.Valid c b →
      (g c b).Finite ∧ ∀ j, j < sx.get dim → Fl.le (f (cset c dim j) b) (g c b) = true := by
  refine ⟨_, lse_yields hx hd hs p m, fun c b hv => ?_⟩
  have hv' := Valid.unreduced hs hx.wf hv
  have hfin : ∀ j, j < sx.get dim → (f (cset c dim j) b).Finite := fun j hj => hf _ _ (Valid.cset hv' hj)
  obtain ⟨l, h1, h2⟩ := lse_bound (f := f) (c := c) (b := b) maxF32_has (near64_max E.near64) hx.wf fun j hj => finite_in (hfin j hj)
  exact ⟨h1.finite, fun j hj => le_of_in h1 (hfin j hj) fun v hv => h2 j v hj hv⟩

theorem lnSoftmax_yields (hx : x.Holds d sx f) {dim : Nat} (hd : dim < 8) (p : Profile) (m : Mem (Fl f32)) :
    Yields (TF.lnSoftmax p m x dim) d sx (fun c b => Fl.sub E.near32 (f c b)
      (Flt.down (foldN (sx.get dim - 1) (fun j a => Scalar.lseStep a (Flt.up (f (cset c dim (j + 1)) b))) (Flt.up (f (cset c dim 0) b))))) := by
  obtain ⟨s, hs⟩ := exists_reduced hx.wf hd
  unfold TF.lnSoftmax
  refine (lse_yields hx hd hs p (m 0)).bind fun a ha => ?_
  rw [hx.shape]
  refine (TF.broadcast_back hs hx.wf hx.small hd ha p (m 1)).bind fun b hb => ?_
  refine Yields.congr (TF.sub_same hx hb p (m 2)) fun c b _ => ?_
  show _ = Fl.sub E.near32 (f c b) _
  simp only [cset_cset]

/-- A difference that is not positive. -/
theorem sub_nonPos {N : Near f32} {x y : Fl f32} {v l u : ℝ} (hx : x.Is v) (hy : y.In l u) (h : v ≤ l) : (Fl.sub N x y).NonPos := by
  obtain ⟨w, -, hw, h1, -⟩ := hy.exists_in
  obtain ⟨z, e⟩ := Fl.sub_eq (N := N) hx hw
  rw [e]
  have h2 : N.near (v - w) ≤ 0 := N.near_le has0.1 (by linarith)
  unfold Fl.round
  split
  · split <;> exact h2
  · rename_i h3
    refine decide_eq_true (lt_of_le_of_ne h2 fun h4 => h3 ?_)
    rw [h4, abs_zero]; exact top_pos

/-- C67: the elements of `ln_softmax`, for finite inputs, are at most 0 and not NaN; they are finite if the inputs are at most `2^126` in
magnitude (otherwise they may be `-∞`). -/
theorem C67_ln_softmax (hx : x.Holds d sx f) (hf : ∀ c b, sx.Valid c b → (f c b).Finite) {dim : Nat} (hd : dim < 8) (p : Profile) (m : Mem (Fl f32)) :
    ∃ g, Yields (TF.lnSoftmax p m x dim) d sx g ∧ (∀ c b, sx.Valid c b → (g c b).NonPos) ∧
      ((∀ c b, sx.Valid c b → (f c b).In (-big) big) → ∀ c b, sx.Valid c b → (g c b).In (-2 * big) 0) := by
  refine ⟨_, lnSoftmax_yields hx hd p m, fun c b hv => ?_, fun hbig c b hv => ?_⟩
  · have hfin : ∀ j, j < sx.get dim → (f (cset c dim j) b).Finite := fun j hj => hf _ _ (Valid.cset hv hj)
    obtain ⟨l, h1, h2⟩ := lse_bound (f := f) (c := c) (b := b) maxF32_has (near64_max E.near64) hx.wf fun j hj => finite_in (hfin j hj)
    obtain ⟨v, -, hv1⟩ := (hf c b hv).exists_in
    exact sub_nonPos hv1 h1 (h2 (c dim) v (hv.1 dim) (by rw [cset_self]; exact hv1))
  · obtain ⟨l, h1, h2⟩ := lse_bound (f := f) (c := c) (b := b) big_has (near64_big E.near64) hx.wf fun j hj => hbig _ _ (Valid.cset hv hj)
    obtain ⟨v, -, hv1, hv2, hv3⟩ := (hbig c b hv).exists_in
    have h3 := h2 (c dim) v (hv.1 dim) (by rw [cset_self]; exact hv1)
    obtain ⟨w, -, hw1, hw2, hw3⟩ := h1.exists_in
    have hb2 : f32.Has (-2 * big) := ⟨grid_nat (-2 ^ 23) 104 (by unfold big; norm_num) (by norm_num [f32]) (by norm_num [f32]) (by norm_num [f32]), by
      rw [top32]; unfold big; rw [abs_mul, abs_neg, abs_of_pos (by norm_num), abs_of_pos (by positivity)]; norm_num⟩
    exact Fl.sub_in hv1 hw1 hb2 has0 (by linarith) (by linarith)

/-- C67: the elements of `softmax`, for finite inputs, are numbers in [0, 1]. -/
theorem C67_softmax (hx : x.Holds d sx f) (hf : ∀ c b, sx.Valid c b → (f c b).Finite) {dim : Nat} (hd : dim < 8) (p : Profile) (m : Mem (Fl f32)) :
    ∃ g, Yields (TF.softmax p m x dim) d sx g ∧ ∀ c b, sx.Valid c b → (g c b).In 0 1 := by
  obtain ⟨g, h1, h2, -⟩ := C67_ln_softmax hx hf hd p m
  refine ⟨fun c b => E.libm32.exp (g c b), ?_, fun c b hv => E.sane32.exp _ (h2 c b hv)⟩
  unfold TF.softmax
  exact h1.bind fun a ha => TF.un_yields .exp ha p (m 3)

/-- C67: `sparse_softmax_cross_entropy`, for inputs of magnitude at most `2^126`, is finite and not negative; for finite inputs it is not NaN. -/
theorem C67_sparse_cross_entropy (hx : x.Holds d sx f) (hf : ∀ c b, sx.Valid c b → (f c b).Finite) {dim : Nat} {ids : List Nat}
    (hs : ShapeOps.pick .debug sx ids dim = ok s) (hsz : s.size ≤ 2 ^ 31) (p : Profile) (m : Mem (Fl f32)) :
    ∃ g, Yields (TF.sparseSoftmaxCrossEntropy p m x ids dim) d s g ∧ (∀ c b, s.Valid c b → (Fl.neg (g c b)).NonPos) ∧
      ((∀ c b, sx.Valid c b → (f c b).In (-big) big) → ∀ c b, s.Valid c b → (g c b).In 0 (2 * big)) := by
  obtain ⟨hd, hne, hbt, hid, his⟩ := (Shape.pick_iff hx.wf).mp hs
  obtain ⟨g, h1, h2, h3⟩ := C67_ln_softmax hx hf hd p m
  let G : Arr (Fl f32) := fun c b => g (cset c dim (ids.getD (if ids.length = 1 then 0 else b) 0)) (bb sx b)
  have hG : ∀ c b, s.Valid c b → sx.Valid (cset c dim (ids.getD (if ids.length = 1 then 0 else b) 0)) (bb sx b) := by
    intro c b hv
    have hb : b < max sx.batch ids.length := by rw [← his.2.2]; exact hv.2
    have hlen : 0 < ids.length := List.length_pos_iff.mpr hne
    have hi : (if ids.length = 1 then 0 else b) < ids.length := by
      split
      · omega
      · rcases hbt with h | h | h
        · omega
        · rw [h] at hb; have := le_max_right 1 ids.length; omega
        · omega
    refine ⟨fun i => ?_, ?_⟩
    · unfold cset; split
      · rename_i h
        rw [h]
        have : ids.getD (if ids.length = 1 then 0 else b) 0 = ids[(if ids.length = 1 then 0 else b)]'hi := by simp [List.getD, List.getElem?_eq_getElem hi]
        rw [this]
        exact hid _ (List.getElem_mem hi)
      · rename_i h
        have := hv.1 i
        rw [his.2.1] at this
        unfold setC at this
        rwa [if_neg h] at this
    · unfold bb; split
      · have := hx.wf.batch_pos; omega
      · rcases hbt with h | h | h
        · rw [h, max_self] at hb; omega
        · omega
        · have := hx.wf.batch_pos; rw [h] at hb; omega
  refine ⟨fun c b => Fl.neg (G c b), ?_, fun c b hv => ?_, fun hbig c b hv => ?_⟩
  · unfold TF.sparseSoftmaxCrossEntropy
    refine h1.bind fun a ha => ?_
    exact (TF.call1 (op := .pick ids dim) ha hs hsz trivial p (m 3)).bind fun y hy => TF.un_yields .neg hy p (m 4)
  · have h := h2 _ _ (hG c b hv)
    show (Fl.neg (Fl.neg (G c b))).NonPos
    have e : Fl.neg (Fl.neg (G c b)) = G c b := by
      cases G c b with
      | fin s u hu => simp only [Fl.neg, neg_neg, Bool.not_not]
      | inf s => simp only [Fl.neg, Bool.not_not]
      | nan => rfl
    rw [e]; exact h
  · have h := Fl.neg_in (h3 hbig _ _ (hG c b hv))
    rw [neg_zero, show -(-2 * big) = 2 * big by ring] at h
    exact h

theorem fl_mul_comm (a b : Fl f32) : a * b = b * a := by
  show Fl.mul E.near32 a b = Fl.mul E.near32 b a
  cases a <;> cases b <;> simp only [Fl.mul, Bool.xor_comm, mul_comm]

theorem add_nan_left (a : Fl f32) : (Fl.nan : Fl f32) + a = .nan := rfl
theorem add_nan_right (a : Fl f32) : a + (Fl.nan : Fl f32) = .nan := by cases a <;> rfl

/-- NaN in a term of a sum. -/
theorem sumTo_nan (n : Nat) (r : Nat → Fl f32) {j : Nat} (hj : j < n) (h : r j = .nan) : sumTo n r = .nan := by
  unfold sumTo
  induction n with
  | zero => omega
  | succ n ih =>
    rw [foldN_succ]
    by_cases e : j = n
    · subst e; rw [h, add_nan_right]
    · rw [ih (by omega), add_nan_left]

/-- C67, the limit of the claim: `softmax_cross_entropy` of finite inputs can be NaN.  If one class has the largest finite logit, another one its
negative, and the target probability of the latter is 0, the loss is NaN (`0 * -∞`), whatever the other targets are. -/
theorem C67_cross_entropy_nan {u : Arr (Fl f32)} (hx : x.Holds d sx f) (hf : ∀ c b, sx.Valid c b → (f c b).Finite) (ht : t.Holds d sx u) {dim : Nat} (hd : dim < 8)
    (hs : s.Is (cset sx.get dim 1) sx.batch) (p : Profile) (m : Mem (Fl f32)) :
    ∃ g, Yields (TF.softmaxCrossEntropy p m x t dim) d s g ∧ ∀ c b, s.Valid c b →
      (∃ j k, j < sx.get dim ∧ k < sx.get dim ∧ (u (cset c dim j) b).Is 0 ∧ (f (cset c dim j) b).Is (-maxF32) ∧ (f (cset c dim k) b).Is maxF32) →
      g c b = .nan := by
  obtain ⟨h1, h2, -, -⟩ := resize1 hx.wf hd hs
  have key : ∃ g, Yields (TF.softmaxCrossEntropy p m x t dim) d s g ∧ ∀ c b, g c b = Fl.neg (sumTo (sx.get dim) fun j => u (cset c dim j) b *
      Fl.sub E.near32 (f (cset c dim j) b)
        (Flt.down (foldN (sx.get dim - 1) (fun j a => Scalar.lseStep a (Flt.up (f (cset c dim (j + 1)) b))) (Flt.up (f (cset c dim 0) b))))) := by
    refine ⟨_, ?_, fun c b => rfl⟩
    unfold TF.softmaxCrossEntropy
    refine (lnSoftmax_yields hx hd p m).bind fun a ha => ?_
    refine (TF.mul_same fl_mul_comm ht ha p (m 3)).bind fun y hy => ?_
    refine (TF.call1 (op := .sum dim) hy h1 (h2.trans hx.small) trivial p (m 4)).bind fun z hz => ?_
    refine Yields.congr (TF.un_yields .neg hz p (m 5)) fun c b _ => ?_
    show _ = Fl.neg (sumTo (sx.get dim) _)
    simp only [cset_cset]
  obtain ⟨g, hg, hg'⟩ := key
  refine ⟨g, hg, fun c b hv hjk => ?_⟩
  obtain ⟨j, k, hj, hk, hu, hfj, hfk⟩ := hjk
  have hv' := Valid.unreduced hs hx.wf hv
  obtain ⟨l, h3, h4⟩ := lse_bound (f := f) (c := c) (b := b) maxF32_has (near64_max E.near64) hx.wf fun j hj => finite_in (hf _ _ (Valid.cset hv' hj))
  have h5 := h4 k maxF32 hk hfk
  have h6 := h3.mono h5 le_rfl
  rw [hg', sumTo_nan (sx.get dim) _ hj]
  · rfl
  generalize (Flt.down (foldN (sx.get dim - 1) (fun j a => Scalar.lseStep a (Flt.up (f (cset c dim (j + 1)) b))) (Flt.up (f (cset c dim 0) b))) : Fl f32) = y at h6 ⊢
  obtain ⟨z, e⟩ := Fl.sub_eq (N := E.near32) hfj h6
  have htop : -f32.top ∈ f32.grid := by
    refine grid_neg (grid_nat (2 ^ 24) 104 ?_ (by norm_num [f32]) (by norm_num [f32]) (by norm_num [f32]))
    rw [top32]; norm_num
  have h7 : E.near32.near (-maxF32 - maxF32) ≤ -f32.top := E.near32.near_le htop (by rw [top32]; unfold maxF32; norm_num)
  have h8 : Fl.round E.near32 z (-maxF32 - maxF32) = .inf true := by
    have := top_pos (F := f32)
    unfold Fl.round
    rw [dif_neg (by rw [abs_of_neg (by linarith)]; linarith), decide_eq_true (by linarith)]
  rw [e, h8]
  show Fl.mul E.near32 (u (cset c dim j) b) (.inf true) = .nan
  cases hu' : u (cset c dim j) b with
  | fin s w hw =>
    rw [hu'] at hu
    exact if_pos (le_antisymm hu.2 hu.1)
  | inf s => rw [hu'] at hu; exact hu.elim
  | nan => rfl

/-! ## Concrete cases -/

/-- The largest finite f32 and its negative. -/
noncomputable def maxFl : Fl f32 := .fin false maxF32 ⟨maxF32_has.1, maxF32_has.2, fun h => (by cases h), fun _ => by unfold maxF32; norm_num⟩
noncomputable def minFl : Fl f32 := Fl.neg maxFl

/-- A tensor of shape [2] with the elements `u` and `v`. -/
theorem pair_exists (u v : Fl f32) : ∃ (x : Tensor (Fl f32)) (f : Arr (Fl f32)), x.Holds 0 (vecShape 2 1) f ∧
    (∀ c b, (vecShape 2 1).Valid c b → f c b = if c 0 = 0 then u else v) := by
  have hw := vecShape_wf (n := 2) (b := 1) rfl
  obtain ⟨x, hx⟩ := exists_holds hw (by decide) 0 (fun i => if i = 0 then u else v)
  refine ⟨x, _, hx, fun c b hv => ?_⟩
  have h0 : c 0 < 2 := hv.1 0
  have h1 : (vecShape 2 1).offset c b < 2 := hw.offset_lt hv
  have h2 : (vecShape 2 1).offset c b = 0 + 1 * (c 0 + 2 * (vecShape 2 1).hi 0 c b) := hw.offset_split hv 0
  have h3 : (vecShape 2 1).offset c b = 0 ↔ c 0 = 0 := by omega
  simp only [h3]

theorem maxFl_is : maxFl.Is maxF32 := ⟨le_rfl, le_rfl⟩
theorem minFl_is : minFl.Is (-maxF32) := ⟨le_rfl, le_rfl⟩

/-- The premises of the theorems of C67 are met by the logits `[MAX, MIN]`, whose `softplus`, `logsumexp` and `softmax` are therefore finite, and of
the negative statement with the target `[1, 0]`: the loss is NaN. -/
example (p : Profile) (m : Mem (Fl f32)) : ∃ (x t : Tensor (Fl f32)) (f : Arr (Fl f32)) (s : Shape) (g : Arr (Fl f32)), x.Holds 0 (vecShape 2 1) f ∧
    (∀ c b, (vecShape 2 1).Valid c b → (f c b).Finite) ∧ Yields (TF.softmaxCrossEntropy p m x t 0) 0 s g ∧ s.Valid (fun _ => 0) 0 ∧ g (fun _ => 0) 0 = .nan := by
  have hw := vecShape_wf (n := 2) (b := 1) rfl
  obtain ⟨x, f, hx, hf⟩ := pair_exists maxFl minFl
  obtain ⟨t, u, ht, hu⟩ := pair_exists (1 : Fl f32) (0 : Fl f32)
  obtain ⟨s, hs⟩ := exists_reduced (dim := 0) hw (by omega)
  have hfin : ∀ c b, (vecShape 2 1).Valid c b → (f c b).Finite := fun c b hv => by
    rw [hf c b hv]; split
    · exact maxFl_is.finite
    · exact minFl_is.finite
  obtain ⟨g, h1, h2⟩ := C67_cross_entropy_nan hx hfin ht (dim := 0) (by omega) hs p m
  have hv0 : (vecShape 2 1).Valid (fun _ => 0) 0 := ⟨fun i => hw.get_pos i, by decide⟩
  have hv1 : (vecShape 2 1).Valid (cset (fun _ => 0) 0 1) 0 := Valid.cset hv0 (by decide)
  have hv2 : s.Valid (fun _ => 0) 0 := ⟨fun i => hs.1.get_pos i, hs.1.batch_pos⟩
  have hv3 : (vecShape 2 1).Valid (cset (fun _ => 0) 0 0) 0 := Valid.cset hv0 (by decide)
  refine ⟨x, t, f, s, g, hx, hfin, h1, hv2, h2 _ _ hv2 ⟨1, 0, by decide, by decide, ?_, ?_, ?_⟩⟩
  · rw [hu _ _ hv1, cset_at, if_neg (by omega)]; exact ⟨le_rfl, le_rfl⟩
  · rw [hf _ _ hv1, cset_at, if_neg (by omega)]; exact minFl_is
  · rw [hf _ _ hv3, cset_at, if_pos rfl]; exact maxFl_is

/-- The environment of these statements exists. -/
example : Nonempty Ieee := ⟨Ieee.exists_ideal.choose⟩

end
end Verif
