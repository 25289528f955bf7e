import Verif.PropsNode

/-!
# C38: where node functions and tensor functions differ, `pow`, and examples
-/

set_option linter.unusedSectionVars false

namespace Verif
open Res
variable {α : Type} [Flt α]

namespace NF
variable {p : Profile} {m0 : Nat → α} {g : Graph (Tensor α)}

/-- C38: `pow` with exactly one scalar operand panics on tensors as well. -/
theorem C38_pow_mixed {t u : Tensor α} (hk : t.shape.isScalar ≠ u.shape.isScalar) (q : Nat → α) : ∀ y, TF.pow p q t u ≠ ok y := by
  intro y h
  unfold TF.pow TF.call at h
  rw [Res.bind_eq_ok] at h
  obtain ⟨d, _, h⟩ := h
  obtain ⟨_, _, h3, _⟩ := Dev.fw_frame h
  simp only [List.map_cons, List.map_nil, FwOp.shape, elementwise_mixed hk] at h3
  cases h3

/-- C38: `pow` of two scalars: both functions compute `t ^ u`. -/
theorem C38_pow_scalars (hr : Ready p m0 g) {x y : Node} (hx : IsNode p g x) (hy : IsNode p g y) {t u : Tensor α} (hcx : Computes g x t)
    (hcy : Computes g y u) {d : Nat} {sx sy s : Shape} {f f' : Arr α} (ht : t.Holds d sx f) (hu : u.Holds d sy f')
    (h1 : ∀ i, sx.get i = 1) (h2 : ∀ i, sy.get i = 1) (hb : BatchCompat sx sy) (hs : s.Is sx.get (Max.max sx.batch sy.batch)) (hsz : s.size ≤ 2 ^ 31) (m : Mem α) :
    Yields (TF.pow p (m 0) t u) d s (fun c b => Flt.powf (f c (bb sx b)) (f' c (bb sy b))) ∧
    ∃ g' n z, NF.pow p m g x y = ok (g', n) ∧ IsNode p g' n ∧ Computes g' n z ∧
      z.Holds d s (fun c b => Flt.powf (f (bc sx c) (bb sx b)) (f' (bc sy c) (bb sy b))) := by
  refine ⟨C20_pow ht hu (fun i => (h1 i).trans (h2 i).symm) hb hs hsz p (m 0), ?_⟩
  have hn := hr.nodeVal hx hcx
  have hn' := hr.nodeVal hy hcy
  obtain ⟨z, hz, hh⟩ := abOp_yields (o := .powf) (l := .powfL) (r := .powfR) (fun _ _ => rfl) (fun _ _ => rfl) ht hu ⟨.inr (.inl h1), hb⟩
    (s := s) ⟨hs.1, fun i => by rw [hs.2.1 i]; show _ = Max.max (sx.get i) (sy.get i); rw [h1, h2]; rfl, hs.2.2⟩ hsz p (m 0)
  have e1 : t.shape.isScalar = true := by rw [ht.shape]; exact ht.wf.isScalar_iff.mpr h1
  have e2 : u.shape.isScalar = true := by rw [hu.shape]; exact hu.wf.isScalar_iff.mpr h2
  have ha : Agrees p m0 (NF.pow p m g x y) (TF.abOp .powf .powfL .powfR p (m 0) t u) :=
    .of hr (fun _ _ e => ab_made e) (fun _ => ab_iff hn hn' (e1.trans e2.symm) _ _ _)
  obtain ⟨g', n, e, _, hi, hc⟩ := ha.1 z hz
  exact ⟨g', n, z, e, hi, hc, hh⟩

/-- A graph with two nodes made from tensors. -/
theorem exists_two (p : Profile) (m0 : Nat → α) (m : Mem α) {t u : Tensor α} {d e : Nat} (hd : t.device = some d) (hh : t.host = none)
    (he : u.device = some e) (hh' : u.host = none) :
    ∃ g x y, Ready p m0 g ∧ IsNode p g x ∧ IsNode p g y ∧ Computes g x t ∧ Computes g y u := by
  obtain ⟨⟨g1, x, e1, r1, i1, c1⟩, _⟩ := C38_leaf (p := p) (m0 := m0) ready_nil hd hh t m
  obtain ⟨⟨g2, y, e2, r2, i2, c2⟩, _⟩ := C38_leaf (p := p) (m0 := m0) r1 he hh' t m
  simp only [ofTensor, Res.bind_eq_ok] at e2
  obtain ⟨_, _, e2⟩ := e2
  obtain ⟨ns, e2, _⟩ := create1_create e2
  obtain ⟨i3, c3⟩ := C38_others_unchanged r1 e2 i1 c1
  exact ⟨g2, x, y, r2, i3, i2, c3, c2⟩

/-- Beside the theorems above: for all `x` and `y` with two rows and three columns there are nodes that evaluate to them, and the tensor functions
succeed, so that the nodes can be created and evaluated: for example `x - y`, `exp(x)` and `x.transpose()`. -/
example (f f' : Nat → α) (m : Mem α) (m0 : Nat → α) : ∃ (t u : Tensor α) (g : Graph (Tensor α)) (x y : Node), Ready .debug m0 g ∧ IsNode .debug g x ∧ IsNode .debug g y ∧
    Computes g x t ∧ Computes g y u ∧ t.Holds 0 (matShape 2 3 1) (fun c b => f ((matShape 2 3 1).offset c b)) ∧
    (∃ g' n z, NF.sub .debug m g x y = ok (g', n) ∧ Computes g' n z ∧ TF.sub .debug (m 0) t u = ok z) ∧
    (∃ g' n z, NF.exp .debug m g x = ok (g', n) ∧ Computes g' n z ∧ TF.exp .debug (m 0) t = ok z) := by
  have w : (matShape 2 3 1).WF := matShape_wf (n := 2) (m := 3) (b := 1) rfl
  obtain ⟨t, ht⟩ := exists_holds w (by decide) 0 f
  obtain ⟨u, hu⟩ := exists_holds w (by decide) 0 f'
  obtain ⟨g, x, y, hr, ix, iy, cx, cy⟩ := exists_two .debug m0 m ht.device ht.host hu.device hu.host
  refine ⟨t, u, g, x, y, hr, ix, iy, cx, cy, ht, ?_, ?_⟩
  · obtain ⟨z, hz, _⟩ := (C20_sub_div ht hu ⟨.inl fun _ => rfl, .inl rfl⟩ (s := matShape 2 3 1) ⟨w, fun i => by simp, by simp⟩ (by decide) .debug (m 0)).1
    obtain ⟨g', n, e, _, _, c⟩ := (C38_arith hr ix iy cx cy (by rw [ht.shape, hu.shape]) m).2.1.1 z hz
    exact ⟨g', n, z, e, c, hz⟩
  · obtain ⟨z, hz, _⟩ := TF.call1 (op := .un .exp) ht rfl ht.small trivial .debug (m 0)
    obtain ⟨g', n, e, _, _, c⟩ := (C38_unary hr ix cx .exp m).1 z hz
    exact ⟨g', n, z, e, c, hz⟩

/-- C38, false of the code: `elu` on nodes does not agree with `elu` on tensors: over the reals, at -1 with slope 1, the node gives -1, the tensor
function exp(-1) - 1. -/
theorem C38_elu_differs (m0 : Nat → ℝ) (m : Mem ℝ) : let _ := realFlt
    ∃ (g : Graph (Tensor ℝ)) (x : Node) (t : Tensor ℝ), Ready .debug m0 g ∧ IsNode .debug g x ∧ Computes g x t ∧
      Yields (TF.elu .debug (m 0) t 1) 0 one1 (fun _ _ => Real.exp (-1) - 1) ∧
      (∃ g' n z, NF.elu .debug m g x 1 = ok (g', n) ∧ Computes g' n z ∧ z.Holds 0 one1 (fun _ _ => -1)) ∧
      ¬ Agrees .debug m0 (NF.elu .debug m g x 1) (TF.elu .debug (m 0) t 1) := by
  intro _
  obtain ⟨t, ht⟩ := exists_holds (α := ℝ) one1_wf (by decide) 0 (fun _ => (-1 : ℝ))
  obtain ⟨g, x, _, hr, ix, _, cx, _⟩ := exists_two .debug m0 m ht.device ht.host ht.device ht.host
  obtain ⟨_, _, _, _, _, _, _, _, _, _, _, hp, he⟩ := C20_const ht .debug (m 0) 1
  obtain ⟨z, hz, hzh⟩ := hp
  obtain ⟨g', n, e, hr', hi, hc⟩ := (C38_elu_is_prelu hr ix cx 1 m).1 z hz
  have hgt : realFlt.gt (-1 : ℝ) 0 = false := by show decide _ = false; simp
  have hle : realFlt.le (-1 : ℝ) 0 = true := by show decide _ = true; simp
  have h1 : z.Holds 0 one1 (fun _ _ => (-1 : ℝ)) := by
    refine hzh.congr ?_
    intro c b _
    symm
    show (-1 : ℝ) * ((if realFlt.gt (-1 : ℝ) 0 then 1 else 0) + (if realFlt.le (-1 : ℝ) 0 then 1 else 0) * 1) = -1
    rw [hgt, hle]; norm_num
  have h2 : Yields (TF.elu .debug (m 0) t 1) 0 one1 (fun _ _ => Real.exp (-1) - 1) := by
    obtain ⟨w, hw, hwh⟩ := he
    refine ⟨w, hw, hwh.congr ?_⟩
    intro c b _
    symm
    show (if realFlt.gt (-1 : ℝ) 0 then (-1 : ℝ) else 1 * (Real.exp (-1 : ℝ) - 1)) = _
    rw [hgt]; simp
  refine ⟨g, x, t, hr, ix, cx, h2, ⟨g', n, z, e, hc, h1⟩, ?_⟩
  intro ha
  obtain ⟨w, hw, hwh⟩ := h2
  obtain ⟨g2, n2, e2, _, _, hc2⟩ := ha.1 w hw
  rw [e] at e2
  simp only [Res.ok.injEq, Prod.mk.injEq] at e2
  obtain ⟨rfl, rfl⟩ := e2
  obtain ⟨_, _, ⟨g3, tr, r, hf⟩, h3⟩ := hc
  obtain ⟨_, v1⟩ := h3 g3 tr r hf
  obtain ⟨_, v2⟩ := hc2.2.2.2 g3 tr r hf
  rw [v1] at v2
  obtain rfl := Res.ok.inj v2
  obtain ⟨l, hl, _, hl1⟩ := h1.buf
  obtain ⟨l', hl', _, hl2⟩ := hwh.buf
  rw [hl] at hl'
  obtain rfl := Option.some.inj hl'
  have hv : one1.Valid (fun _ => 0) 0 := ⟨fun i => one1_wf.get_pos i, by decide⟩
  have := (hl1 _ _ hv).symm.trans (hl2 _ _ hv)
  simp at this
  have hpos := Real.exp_pos (-1)
  linarith

/-- C38, false of the code: a vector minus a scalar works on tensors but not on nodes. -/
theorem C38_mixed_differs (m0 : Nat → α) (m : Mem α) (a k : α) :
    ∃ (g : Graph (Tensor α)) (x y : Node) (t u : Tensor α), Ready .debug m0 g ∧ IsNode .debug g x ∧ IsNode .debug g y ∧ Computes g x t ∧ Computes g y u ∧
      (∃ s, Yields (TF.sub .debug (m 0) t u) 0 s (fun _ _ => a - k)) ∧ NF.sub .debug m g x y = panic ∧
      ¬ Agrees .debug m0 (NF.sub .debug m g x y) (TF.sub .debug (m 0) t u) := by
  have w1 : (vecShape 3 1).WF := vecShape_wf (n := 3) (b := 1) rfl
  obtain ⟨t, ht⟩ := exists_holds w1 (by decide) 0 (fun _ => a)
  obtain ⟨u, hu⟩ := exists_holds one1_wf (by decide) 0 (fun _ => k)
  obtain ⟨g, x, y, hr, ix, iy, cx, cy⟩ := exists_two .debug m0 m ht.device ht.host hu.device hu.host
  have hsc : ∀ i, one1.get i = 1 := one1_wf.isScalar_iff.mp rfl
  have hy := (C20_sub_div ht hu ⟨.inr (.inr hsc), .inl rfl⟩ (s := vecShape 3 1) ⟨w1, fun i => by
    show _ = Max.max ((vecShape 3 1).get i) (one1.get i)
    rw [hsc i]; exact (max_eq_left (w1.get_pos i)).symm, rfl⟩ (by decide) .debug (m 0)).1
  have hp := (C38_arith_mixed_panics hr ix iy cx cy (by rw [ht.shape, hu.shape]; decide) m).2.1
  refine ⟨g, x, y, t, u, hr, ix, iy, cx, cy, ⟨_, hy⟩, hp, ?_⟩
  intro ha
  obtain ⟨z, hz, _⟩ := hy
  obtain ⟨g', n, e, _⟩ := ha.1 z hz
  rw [hp] at e
  cases e

end NF
end Verif
