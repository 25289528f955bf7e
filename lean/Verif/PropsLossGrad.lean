import Verif.PropsMask

/-!
# C91: the gradients of the cross entropies in f32
-/

set_option linter.unusedSectionVars false
set_option linter.style.haveILetI false

namespace Verif
open Fmt Res Shape
open scoped List

/-- The logits of one axis that `softmax` can handle (C90): finite numbers and `-∞`, at least one of them finite, not beginning with two `-∞`. -/
def LogitAxis (l : List (Fl f32)) : Prop :=
  (∀ a ∈ l, a.Finite ∨ a = .inf true) ∧ (∃ a ∈ l, a ≠ .inf true) ∧ ¬ [.inf true, .inf true] <+: l

section
variable [E : Ieee] {d : Nat} {x t gy gx : Tensor (Fl f32)} {s sx : Shape} {f u fgy fg : Arr (Fl f32)}

/-- What `softmax` computes for one element. -/
noncomputable def softmaxAt (sx : Shape) (f : Arr (Fl f32)) (dim : Nat) (c : Nat → Nat) (b : Nat) : Fl f32 :=
  E.libm32.exp (Fl.sub E.near32 (f c b) (lseList (axisOf sx f dim c b)))

theorem softmaxAt_in (hW : E.libm64.Special) {dim : Nat} {c : Nat → Nat} {b : Nat} (hv : sx.Valid c b) (h : LogitAxis (axisOf sx f dim c b)) :
    (softmaxAt sx f dim c b).In 0 1 ∧ (E.libm32.Special → f c b = .inf true → (softmaxAt sx f dim c b).Is 0) := by
  obtain ⟨ha, h0, h2⟩ := h
  obtain ⟨a, hal, v, hav⟩ := exists_unmasked ha h0
  have hge := lseList_ge hW ha h2 hal hav
  have hmem := mem_axisOf (f := f) (b := b) (hv.1 dim)
  unfold softmaxAt
  refine ⟨E.sane32.exp _ ?_, fun hL hf => by rw [hf, sub_ninf hge]; exact hL.exp_neg_inf⟩
  rcases ha _ hmem with hf | hf
  · obtain ⟨w, -, hw⟩ := hf.exists_in
    exact sub_nonPos hw (lseList_ge hW ha h2 hmem hw) le_rfl
  · rw [hf, sub_ninf hge]; exact rfl

/-- A product with a number in [0, 1] lies between 0 and the other factor. -/
theorem unit_mul {a g : Fl f32} {w : ℝ} (ha : a.In 0 1) (hg : g.Is w) : (Fl.mul E.near32 a g).In (min 0 w) (max 0 w) := by
  have hw : f32.Has w := Fl.Finite.has hg
  obtain ⟨v, -, hv, h1, h2⟩ := ha.exists_in
  obtain ⟨z, e⟩ := Fl.mul_eq (N := E.near32) hv hg
  rw [e]
  refine Fl.round_in (by rcases min_choice 0 w with e | e <;> rw [e]; exacts [has0, hw]) (by rcases max_choice 0 w with e | e <;> rw [e]; exacts [has0, hw]) ?_ ?_
  · rcases le_total 0 w with h | h
    · rw [min_eq_left h]; positivity
    · rw [min_eq_right h]; nlinarith
  · rcases le_total 0 w with h | h
    · rw [max_eq_right h]; nlinarith
    · rw [max_eq_left h]; nlinarith

/-- A product with a number in [-1, 1] is at most as large as the other factor. -/
theorem signed_mul {a g : Fl f32} {w : ℝ} (ha : a.In (-1) 1) (hg : g.Is w) : (Fl.mul E.near32 a g).In (-|w|) |w| := by
  have hw : f32.Has w := Fl.Finite.has hg
  have hw' : f32.Has |w| := by rcases abs_choice w with e | e <;> rw [e]; exacts [hw, hw.neg]
  obtain ⟨v, -, hv, h1, h2⟩ := ha.exists_in
  obtain ⟨z, e⟩ := Fl.mul_eq (N := E.near32) hv hg
  rw [e]
  have h3 : |v * w| ≤ |w| := by
    rw [abs_mul]
    have := abs_le.mpr ⟨h1, h2⟩
    have := abs_nonneg w
    nlinarith
  exact Fl.round_in hw'.neg hw' (abs_le.mp h3).1 (abs_le.mp h3).2

/-- C91: the backward function of `softmax_cross_entropy`, for logits as in C90 and targets in [0, 1], adds to the gradient of each logit a number that is not larger in
magnitude than the gradient `g` of the loss: no overflow, no NaN, even where the loss itself is NaN or infinite (C67, C90); masked logits with target 0 receive exactly 0. -/
theorem C91_cross_entropy_gradient (hW : E.libm64.Special) (hL : E.libm32.Special) (hx : x.Holds d sx f) (ht : t.Holds d sx u) {dim : Nat} (hd : dim < 8)
    (hs : s.Is (cset sx.get dim 1) sx.batch) (hgy : gy.Holds d s fgy) (hgx : gx.Holds d sx fg) (p : Profile) (m : Mem (Fl f32)) (ys : List (Tensor (Fl f32)))
    (ss : List Shape) :
    ∃ (B B' : Tensor (Fl f32) → Res (Tensor (Fl f32))) (T : Arr (Fl f32)), NodeOp.bw p d m (.softmaxCrossEntropy dim) [x, t] ys [gy] ss = [(0, B), (1, B')] ∧
      Yields (B gx) d sx (fun c b => fg c b + T c b) ∧
      ∀ c b, sx.Valid c b → LogitAxis (axisOf sx f dim c b) → ∀ τ g : ℝ, (u c b).Is τ → 0 ≤ τ → τ ≤ 1 → (fgy (cset c dim 0) b).Is g →
        (T c b).In (-|g|) |g| ∧ (f c b = .inf true → τ = 0 → (T c b).Is 0) := by
  refine ⟨_, _, fun c b => Fl.mul E.near32 (Fl.sub E.near32 (softmaxAt sx f dim c b) (u c b)) (fgy (cset c dim 0) b), rfl, ?_, fun c b hv hl τ g hτ h0 h1 hg => ?_⟩
  · simp only [Graph.at', List.getElem?_cons_zero, List.getElem?_cons_succ]
    simp only [ok_bind, hx.shape]
    refine (softmax_yields hx hd p m).1.bind fun l hl => ?_
    refine (TF.broadcast_back hs hx.wf hx.small hd hgy p (m 3)).bind fun z hz => ?_
    refine (TF.un_yields .exp hl p (m 4)).bind fun e he => ?_
    refine (TF.sub_same he ht p (m 5)).bind fun w hw => ?_
    refine (TF.mul_same fl_mul_comm hw hz p (m 6)).bind fun v hv => ?_
    exact TF.addAssign_same hgx hv p
  · obtain ⟨k1, k2⟩ := softmaxAt_in hW hv hl
    have k3 : (Fl.sub E.near32 (softmaxAt sx f dim c b) (u c b)).In (-1) 1 :=
      Fl.sub_in k1 (Fl.In.mono hτ h0 h1 : (u c b).In 0 1) has1.neg has1 (by norm_num) (by norm_num)
    refine ⟨signed_mul k3 hg, fun hf hτ0 => ?_⟩
    subst hτ0
    have k4 : (Fl.sub E.near32 (softmaxAt sx f dim c b) (u c b)).In 0 0 := Fl.sub_in (k2 hL hf) hτ has0 has0 (by norm_num) (by norm_num)
    obtain ⟨z, e⟩ := Fl.mul_eq (N := E.near32) k4 hg
    show (Fl.mul E.near32 _ _).Is 0
    rw [e, zero_mul]
    exact Fl.round_in has0 has0 le_rfl le_rfl

/-- C91: the backward function of `sparse_softmax_cross_entropy` on a zero gradient (logits as in C90, as many samples of logits as of losses): the gradient of the target
class lies between 0 and `-g`, those of the other classes between 0 and `g`, where `g` is the gradient of the loss; masked classes other than the target receive exactly 0. -/
theorem C91_sparse_cross_entropy_gradient (hW : E.libm64.Special) (hL : E.libm32.Special) (hx : x.Holds d sx f) {dim : Nat} {ids : List Nat}
    (hs : ShapeOps.pick .debug sx ids dim = ok s) (hb : s.batch = sx.batch) (hgy : gy.Holds d s fgy) (hgx : gx.Holds d sx fg)
    (hg0 : ∀ c b, sx.Valid c b → (fg c b).Is 0) (p : Profile) (m : Mem (Fl f32)) (ys : List (Tensor (Fl f32))) (ss : List Shape) :
    ∃ (B B' : Tensor (Fl f32) → Res (Tensor (Fl f32))) (G : Arr (Fl f32)),
      NodeOp.bw p d m (.sparseSoftmaxCrossEntropy ids dim) [x] ys [gy] ss = [(0, B), (0, B')] ∧
      Yields (B gx >>= B') d sx G ∧
      ∀ c b, sx.Valid c b → LogitAxis (axisOf sx f dim c b) → ∀ k, k = ids.getD (if ids.length = 1 then 0 else b) 0 → ∀ g : ℝ, (fgy (cset c dim 0) b).Is g →
        (c dim = k → (G c b).In (min 0 (-g)) (max 0 (-g))) ∧
        (c dim ≠ k → (G c b).In (min 0 g) (max 0 g) ∧ (f c b = .inf true → (G c b).Is 0)) := by
  obtain ⟨hd, hne, hbt, hid, his⟩ := (Shape.pick_iff hx.wf).mp hs
  have his' : s.Is (cset sx.get dim 1) sx.batch := ⟨his.1, his.2.1, hb⟩
  let T : Arr (Fl f32) := fun c b => fg c b + Fl.mul E.near32 (softmaxAt sx f dim c b) (fgy (cset c dim 0) b)
  refine ⟨_, _, fun c b => if c dim = ids.getD (if ids.length = 1 then 0 else b) 0 then T c b + Fl.neg (fgy (cset c dim 0) b) else T c b, rfl, ?_,
    fun c b hv hl k hk g hg => ?_⟩
  · simp only [Graph.at', List.getElem?_cons_zero]
    simp only [ok_bind, hx.shape, Tensor.dev, hgy.device, unwrap]
    have h1 : Yields (do
        let s ← TF.softmax p m x dim
        let b ← TF.broadcast p (m 4) gy dim (sx.get dim)
        let e ← TF.mul p (m 5) s b
        TF.addAssign p gx e) d sx T := by
      refine (softmax_yields hx hd p m).2.bind fun l hl => ?_
      refine (TF.broadcast_back his' hx.wf hx.small hd hgy p (m 4)).bind fun z hz => ?_
      refine (TF.mul_same fl_mul_comm hl hz p (m 5)).bind fun v hv => ?_
      exact TF.addAssign_same hgx hv p
    refine h1.bind fun g1 hg1 => ?_
    refine (TF.un_yields .neg hgy p (m 6)).bind fun n hn => ?_
    refine Yields.congr (C29_pick hd hne hbt hid his hn hg1 p _) fun c b hv => ?_
    rw [K.overBatch_same hb hv.2]
    rfl
  · obtain ⟨k1, k2⟩ := softmaxAt_in hW hv hl
    have hgh : f32.Has g := Fl.Finite.has hg
    have hmin : f32.Has (min 0 g) := by rcases min_choice 0 g with e | e <;> rw [e]; exacts [has0, hgh]
    have hmax : f32.Has (max 0 g) := by rcases max_choice 0 g with e | e <;> rw [e]; exacts [has0, hgh]
    have hmin' : f32.Has (min 0 (-g)) := by rcases min_choice 0 (-g) with e | e <;> rw [e]; exacts [has0, hgh.neg]
    have hmax' : f32.Has (max 0 (-g)) := by rcases max_choice 0 (-g) with e | e <;> rw [e]; exacts [has0, hgh.neg]
    have hT : (T c b).In (min 0 g) (max 0 g) := Fl.add_in (hg0 c b hv) (unit_mul k1 hg) hmin hmax (by linarith) (by linarith)
    beta_reduce
    rw [← hk]
    refine ⟨fun hc => ?_, fun hc => ?_⟩
    · rw [if_pos hc]
      refine Fl.add_in hT (Fl.neg_is hg) hmin' hmax' ?_ ?_
      · rcases le_total 0 g with h | h
        · rw [min_eq_left h, min_eq_right (by linarith)]; linarith
        · rw [min_eq_right h, min_eq_left (by linarith)]; linarith
      · rcases le_total 0 g with h | h
        · rw [max_eq_right h, max_eq_left (by linarith)]; linarith
        · rw [max_eq_left h, max_eq_right (by linarith)]; linarith
    · rw [if_neg hc]
      refine ⟨hT, fun hf => ?_⟩
      obtain ⟨z, e⟩ := Fl.mul_eq (N := E.near32) (k2 hL hf) hg
      have hz : (Fl.mul E.near32 (softmaxAt sx f dim c b) (fgy (cset c dim 0) b)).In 0 0 := by
        rw [e, zero_mul]
        exact Fl.round_in has0 has0 le_rfl le_rfl
      exact Fl.add_in (hg0 c b hv) hz has0 has0 (by norm_num) (by norm_num)

/-- C91: the backward function of `logsumexp`, `y` being what `logsumexp` returned for `x`: what each logit (as in C90) receives lies between 0 and the gradient `g` of the
result. -/
theorem C91_logsumexp_gradient {y : Tensor (Fl f32)} (hW : E.libm64.Special) (hx : x.Holds d sx f) {dim : Nat} (hd : dim < sx.depth)
    (hs : s.Is (cset sx.get dim 1) sx.batch) {p0 : Profile} {m0 : Nat → Fl f32} (hy : TF.logsumexp p0 m0 x dim = ok y) (hgy : gy.Holds d s fgy)
    (hgx : gx.Holds d sx fg) (p : Profile) (m : Mem (Fl f32)) (ss : List Shape) :
    ∃ (B : Tensor (Fl f32) → Res (Tensor (Fl f32))) (T : Arr (Fl f32)), NodeOp.bw p d m (.logsumexp dim) [x] [y] [gy] ss = [(0, B)] ∧
      Yields (B gx) d sx (fun c b => fg c b + T c b) ∧
      ∀ c b, sx.Valid c b → LogitAxis (axisOf sx f dim c b) → ∀ g : ℝ, (fgy (cset c dim 0) b).Is g → (T c b).In (min 0 g) (max 0 g) := by
  have h8 : dim < 8 := lt_of_lt_of_le hd hx.wf.depth_le
  obtain ⟨y', hy', hyh⟩ := lse_yields hx h8 hs p0 m0
  obtain rfl : y = y' := by rw [hy] at hy'; exact Res.ok.inj hy'
  simp only [down_lse hx.wf] at hyh
  refine ⟨_, fun c b => Fl.mul E.near32 (softmaxAt sx f dim c b) (fgy (cset c dim 0) b), rfl, ?_, fun c b hv hl g hg => unit_mul (softmaxAt_in hW hv hl).1 hg⟩
  simp only [Graph.at', List.getElem?_cons_zero]
  have hdim : NodeOp.dimOf x dim = ok (sx.get dim) := by
    have hlen : sx.dims.length = 8 := hx.wf.len
    unfold NodeOp.dimOf Shape.dimsSlice ix Shape.get
    rw [hx.shape, if_pos hd]
    simp [hd, Shape.raw, hlen, List.getD_eq_getElem?_getD, h8]
  simp only [ok_bind, hdim]
  refine (TF.broadcast_back hs hx.wf hx.small h8 hyh p (m 0)).bind fun z hz => ?_
  refine (TF.sub_same hx hz p (m 1)).bind fun u hu => ?_
  refine (TF.un_yields .exp hu p (m 2)).bind fun w hw => ?_
  refine (TF.broadcast_back hs hx.wf hx.small h8 hgy p (m 3)).bind fun g hg => ?_
  refine (TF.mul_same fl_mul_comm hw hg p (m 4)).bind fun v hv => ?_
  refine (TF.addAssign_same hgx hv p).congr fun c b _ => ?_
  have e : axisOf sx f dim (cset c dim 0) b = axisOf sx f dim c b := by unfold axisOf; simp only [cset_cset]
  beta_reduce
  rw [e]
  rfl

/-! ## Concrete cases -/

/-- Finite logits are logits in the sense of C91. -/
theorem LogitAxis.of_finite {l : List (Fl f32)} (h0 : l ≠ []) (h : ∀ a ∈ l, a.Finite) : LogitAxis l := by
  have hn : ∀ a ∈ l, a ≠ .inf true := fun a ha e => by have := h a ha; rw [e] at this; exact this.elim
  refine ⟨fun a ha => .inl (h a ha), ?_, fun hp => hn _ (hp.subset (List.mem_cons_self ..)) rfl⟩
  obtain ⟨a, ha⟩ := List.exists_mem_of_ne_nil l h0
  exact ⟨a, ha, hn a ha⟩

theorem logits_one_masked : LogitAxis [(1 : Fl f32), .inf true] := by
  refine ⟨fun a ha => ?_, ⟨1, by simp, nofun⟩, fun h => by cases (List.cons_prefix_cons.mp h).1⟩
  simp only [List.mem_cons, List.not_mem_nil, or_false] at ha
  rcases ha with rfl | rfl
  exacts [.inl trivial, .inr rfl]

/-- The logits `[1, -∞]` with the targets `[1, 0]`, whose loss is NaN (C90): the gradient that the logits receive is in [-1, 1], and 0 at the masked one. -/
example (hW : E.libm64.Special) (hL : E.libm32.Special) (p : Profile) (m : Mem (Fl f32)) (ys : List (Tensor (Fl f32))) (ss : List Shape) :
    ∃ (x t gy gx : Tensor (Fl f32)) (B B' : Tensor (Fl f32) → Res (Tensor (Fl f32))) (F T : Arr (Fl f32)),
      NodeOp.bw p 0 m (.softmaxCrossEntropy 0) [x, t] ys [gy] ss = [(0, B), (1, B')] ∧ Yields (B gx) 0 (vecShape 2 1) (fun c b => F c b + T c b) ∧
      ∀ c b, (vecShape 2 1).Valid c b → (T c b).In (-1) 1 ∧ (c 0 = 1 → (T c b).Is 0) := by
  have hw := vecShape_wf (n := 2) (b := 1) rfl
  obtain ⟨x, f, hx, hf⟩ := pair_exists (1 : Fl f32) (.inf true)
  obtain ⟨t, u, ht, hu⟩ := pair_exists (1 : Fl f32) (0 : Fl f32)
  obtain ⟨s, hs⟩ := exists_reduced (dim := 0) hw (by omega)
  obtain ⟨-, h2, -, -⟩ := resize1 hw (dim := 0) (by omega) hs
  obtain ⟨y, hy⟩ := exists_holds hs.1 (h2.trans hx.small) 0 (fun _ => (1 : Fl f32))
  obtain ⟨B, B', T, h3, h4, h5⟩ := C91_cross_entropy_gradient hW hL hx ht (dim := 0) (by omega) hs hy ht p m ys ss
  refine ⟨x, t, y, t, B, B', u, T, h3, h4, fun c b hv => ?_⟩
  have hl : LogitAxis (axisOf (vecShape 2 1) f 0 c b) := by rw [pair_axis hf hv]; exact logits_one_masked
  have h1 : (1 : Fl f32).Is 1 := ⟨le_rfl, le_rfl⟩
  have h0 : (0 : Fl f32).Is 0 := ⟨le_rfl, le_rfl⟩
  by_cases hc : c 0 = 0
  · have := h5 c b hv hl 1 1 (by rw [hu c b hv, if_pos hc]; exact h1) (by norm_num) (by norm_num) h1
    rw [abs_one] at this
    exact ⟨this.1, fun h => absurd h (by omega)⟩
  · have := h5 c b hv hl 0 1 (by rw [hu c b hv, if_neg hc]; exact h0) (by norm_num) (by norm_num) h1
    rw [abs_one] at this
    exact ⟨this.1, fun _ => this.2 (by rw [hf c b hv, if_neg hc]) rfl⟩

/-- The logits `[1, -∞]`: what they receive from their logsumexp with gradient 1 is in [0, 1]. -/
example (hW : E.libm64.Special) (p : Profile) (m : Mem (Fl f32)) (ss : List Shape) :
    ∃ (x y gy gx : Tensor (Fl f32)) (B : Tensor (Fl f32) → Res (Tensor (Fl f32))) (F T : Arr (Fl f32)), TF.logsumexp p (m 0) x 0 = ok y ∧
      NodeOp.bw p 0 m (.logsumexp 0) [x] [y] [gy] ss = [(0, B)] ∧ Yields (B gx) 0 (vecShape 2 1) (fun c b => F c b + T c b) ∧
      ∀ c b, (vecShape 2 1).Valid c b → (T c b).In 0 1 := by
  have hw := vecShape_wf (n := 2) (b := 1) rfl
  obtain ⟨x, f, hx, hf⟩ := pair_exists (1 : Fl f32) (.inf true)
  obtain ⟨s, hs⟩ := exists_reduced (dim := 0) hw (by omega)
  obtain ⟨-, h2, -, -⟩ := resize1 hw (dim := 0) (by omega) hs
  obtain ⟨g, hg⟩ := exists_holds hs.1 (h2.trans hx.small) 0 (fun _ => (1 : Fl f32))
  obtain ⟨y, hy, -⟩ := lse_yields hx (dim := 0) (by omega) hs p (m 0)
  obtain ⟨B, T, h3, h4, h5⟩ := C91_logsumexp_gradient hW hx (dim := 0) (by decide) hs hy hg hx p m ss
  refine ⟨x, y, g, x, B, f, T, hy, h3, h4, fun c b hv => ?_⟩
  have := h5 c b hv (by rw [pair_axis hf hv]; exact logits_one_masked) 1 ⟨le_rfl, le_rfl⟩
  rwa [min_eq_left (by norm_num), max_eq_right (by norm_num)] at this

/-- The logits `[1, -∞]` with the target class 0: the gradient is in [-1, 0] at the class 0 and 0 at the masked class. -/
example (hW : E.libm64.Special) (hL : E.libm32.Special) (p : Profile) (m : Mem (Fl f32)) (ys : List (Tensor (Fl f32))) (ss : List Shape) :
    ∃ (x gy gx : Tensor (Fl f32)) (B B' : Tensor (Fl f32) → Res (Tensor (Fl f32))) (G : Arr (Fl f32)),
      NodeOp.bw p 0 m (.sparseSoftmaxCrossEntropy [0] 0) [x] ys [gy] ss = [(0, B), (0, B')] ∧ Yields (B gx >>= B') 0 (vecShape 2 1) G ∧
      ∀ c b, (vecShape 2 1).Valid c b → (c 0 = 0 → (G c b).In (-1) 0) ∧ (c 0 = 1 → (G c b).Is 0) := by
  have hw := vecShape_wf (n := 2) (b := 1) rfl
  obtain ⟨x, f, hx, hf⟩ := pair_exists (1 : Fl f32) (.inf true)
  obtain ⟨z, hz⟩ := exists_holds hw hx.small 0 (fun _ => (0 : Fl f32))
  obtain ⟨s, hs⟩ := exists_reduced (dim := 0) hw (by omega)
  obtain ⟨-, h2, -, -⟩ := resize1 hw (dim := 0) (by omega) hs
  obtain ⟨y, hy⟩ := exists_holds hs.1 (h2.trans hx.small) 0 (fun _ => (1 : Fl f32))
  have hp : ShapeOps.pick .debug (vecShape 2 1) [0] 0 = ok s := (Shape.pick_iff hw).mpr
    ⟨by omega, by simp, .inl rfl, fun i hi => by rw [List.mem_singleton.mp hi]; show 0 < 2; omega, hs⟩
  have h1 : (1 : Fl f32).Is 1 := ⟨le_rfl, le_rfl⟩
  obtain ⟨B, B', G, h3, h4, h5⟩ := C91_sparse_cross_entropy_gradient hW hL hx hp hs.2.2 hy hz (fun _ _ _ => ⟨le_rfl, le_rfl⟩) p m ys ss
  refine ⟨x, y, z, B, B', G, h3, h4, fun c b hv => ?_⟩
  have hl : LogitAxis (axisOf (vecShape 2 1) f 0 c b) := by rw [pair_axis hf hv]; exact logits_one_masked
  have h6 := h5 c b hv hl 0 (by simp) 1 h1
  refine ⟨fun hc => ?_, fun hc => (h6.2 (by omega)).2 (by rw [hf c b hv, if_neg (by omega)])⟩
  have := h6.1 hc
  rwa [min_eq_right (by norm_num), max_eq_left (by norm_num)] at this

end
end Verif
