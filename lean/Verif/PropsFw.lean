import Verif.TFLemmas
import Verif.PropsSafety

/-!
# Properties C20 – C24: what the forward functions on tensors compute

`x.Holds d s f`: the tensor `x` lives on device `d`, has shape `s`, and its element at coordinates `c` of batch `b` is `f c b`.
The element type `α` is arbitrary; laws are hypotheses where they are needed.  `m` is the stale content of the memory of the result.
-/

set_option linter.unusedSectionVars false

namespace Verif
open Res
variable {α : Type} [Flt α] {d : Nat} {x y : Tensor α} {s sx sy : Shape} {f g : Arr α}

/-! ### C20 -/

/-- C20: the unary functions apply the operation to every element. -/
theorem C20_unary (hx : x.Holds d s f) (p : Profile) (m : Nat → α) :
    Yields (TF.neg p m x) d s (fun c b => -(f c b)) ∧
    Yields (TF.sqrt p m x) d s (fun c b => Flt.sqrt (f c b)) ∧
    Yields (TF.abs p m x) d s (fun c b => Flt.abs (f c b)) ∧
    Yields (TF.sin p m x) d s (fun c b => Flt.sin (f c b)) ∧
    Yields (TF.cos p m x) d s (fun c b => Flt.cos (f c b)) ∧
    Yields (TF.tan p m x) d s (fun c b => Flt.tan (f c b)) ∧
    Yields (TF.exp p m x) d s (fun c b => Flt.exp (f c b)) ∧
    Yields (TF.ln p m x) d s (fun c b => Flt.ln (f c b)) ∧
    Yields (TF.tanh p m x) d s (fun c b => Flt.tanh (f c b)) ∧
    Yields (TF.sigmoid p m x) d s (fun c b => Flt.half + Flt.half * Flt.tanh (Flt.half * f c b)) ∧
    Yields (TF.softplus p m x) d s (fun c b =>
      Flt.ln (1 + Flt.exp (-(Flt.abs (f c b)))) + (if Flt.gt (f c b) 0 then 1 else 0) * f c b) := by
  have h : ∀ u : Un, Yields (TF.call (.un u) p m x [x]) d s (fun c b => u.fn (f c b)) :=
    fun u => TF.call1 (op := .un u) hx rfl hx.small trivial p m
  exact ⟨h .neg, h .sqrt, h .abs, h .sin, h .cos, h .tan, h .exp, h .ln, h .tanh, h .sigmoid, h .softplus⟩

/-- C20: operations with an f32 constant on either side. -/
theorem C20_const (hx : x.Holds d s f) (p : Profile) (m : Nat → α) (k : α) :
    Yields (TF.addC p m x k) d s (fun c b => f c b + k) ∧ Yields (TF.cAdd p m k x) d s (fun c b => f c b + k) ∧
    Yields (TF.subC p m x k) d s (fun c b => f c b - k) ∧ Yields (TF.cSub p m k x) d s (fun c b => k - f c b) ∧
    Yields (TF.mulC p m x k) d s (fun c b => f c b * k) ∧ Yields (TF.cMul p m k x) d s (fun c b => f c b * k) ∧
    Yields (TF.divC p m x k) d s (fun c b => f c b / k) ∧ Yields (TF.cDiv p m k x) d s (fun c b => k / f c b) ∧
    Yields (TF.powf p m x k) d s (fun c b => Flt.powf (f c b) k) ∧
    Yields (TF.relu p m x) d s (fun c b => f c b * ((if Flt.gt (f c b) 0 then 1 else 0) + (if Flt.le (f c b) 0 then 1 else 0) * 0)) ∧
    Yields (TF.lrelu p m x) d s
      (fun c b => f c b * ((if Flt.gt (f c b) 0 then 1 else 0) + (if Flt.le (f c b) 0 then 1 else 0) * Flt.cent)) ∧
    Yields (TF.prelu p m x k) d s (fun c b => f c b * ((if Flt.gt (f c b) 0 then 1 else 0) + (if Flt.le (f c b) 0 then 1 else 0) * k)) ∧
    Yields (TF.elu p m x k) d s (fun c b => if Flt.gt (f c b) 0 then f c b else k * (Flt.exp (f c b) - 1)) := by
  have h : ∀ (o : Cn) (k : α), Yields (TF.call (.cn o k) p m x [x]) d s (fun c b => o.fn (f c b) k) :=
    fun o k => TF.call1 (op := .cn o k) hx rfl hx.small trivial p m
  exact ⟨h .add k, h .add k, h .subR k, h .subL k, h .mul k, h .mul k, h .divR k, h .divL k, h .powfR k, h .prelu 0,
    h .prelu Flt.cent, h .prelu k, h .elu k⟩

/-- C20: `powi` with every i32 exponent (also negative ones). -/
theorem C20_powi (hx : x.Holds d s f) (p : Profile) (m : Nat → α) (k : Int) (h1 : -2147483648 ≤ k) (h2 : k ≤ 2147483647) :
    Yields (TF.powi p m x k) d s (fun c b => Flt.powi (f c b) k) :=
  TF.call1 (op := .powi k) hx rfl hx.small ⟨h1, h2⟩ p m

theorem abOp_yields {o : Bi} {l r : Sc} (hl : ∀ u v : α, l.fn u v = o.fn v u) (hr : ∀ u v : α, r.fn u v = o.fn u v)
    (hx : x.Holds d sx f) (hy : y.Holds d sy g) (h : OpFits sx sy) (hs : s.IsJoin sx sy) (hsz : s.size ≤ 2 ^ 31)
    (p : Profile) (m : Nat → α) :
    Yields (TF.abOp o l r p m x y) d s (fun c b => o.fn (f (bc sx c) (bb sx b)) (g (bc sy c) (bb sy b))) := by
  unfold TF.abOp
  rw [hx.shape, hy.shape]
  have bz : ∀ {t : Shape}, (∀ i, t.get i = 1) → ∀ c, bc t c = czero := by
    intro t ht c; funext i; unfold bc czero; rw [if_pos (ht i)]
  have bi : ∀ {t : Shape}, (∀ i, s.get i = t.get i) → ∀ c b, s.Valid c b → bc t c = c := by
    intro t ht c b hv
    funext i; unfold bc
    have := hv.1 i
    split <;> rename_i h1
    · rw [ht i, h1] at this; omega
    · rfl
  by_cases h1 : sx.isScalar = true
  · have h1' := hx.wf.isScalar_iff.mp h1
    rw [if_pos h1]
    have hd : ∀ i, s.get i = sy.get i := fun i => by
      refine (hs.2.1 i).trans ?_
      show max (sx.get i) (sy.get i) = _
      rw [h1' i]; exact max_eq_right (hy.wf.get_pos i)
    refine (TF.call2 (op := .sc l) hx.device hy hx (s := s) ((Shape.scalarOp_iff hy.wf hx.wf).mpr ⟨h1', ?_, hs.1, hd, ?_⟩) hsz trivial p m).congr ?_
    · rcases h.2 with h | h | h
      · exact .inl h.symm
      · exact .inr (.inr h)
      · exact .inr (.inl h)
    · rw [hs.2.2, max_comm]
    · intro c b hv
      show o.fn _ _ = l.fn (g c (bb sy b)) (f czero (bb sx b))
      rw [hl, bz h1', bi hd c b hv]
  · rw [if_neg h1]
    have h1' : ¬ ∀ i, sx.get i = 1 := fun q => h1 (hx.wf.isScalar_iff.mpr q)
    by_cases h2 : sy.isScalar = true
    · have h2' := hy.wf.isScalar_iff.mp h2
      rw [if_pos h2]
      have hd : ∀ i, s.get i = sx.get i := fun i => by
        refine (hs.2.1 i).trans ?_
        show max (sx.get i) (sy.get i) = _
        rw [h2' i]; exact max_eq_left (hx.wf.get_pos i)
      refine (TF.call2 (op := .sc r) hx.device hx hy (s := s) ((Shape.scalarOp_iff hx.wf hy.wf).mpr ⟨h2', h.2, hs.1, hd, hs.2.2⟩) hsz trivial p m).congr ?_
      intro c b hv
      show o.fn _ _ = r.fn (f c (bb sx b)) (g czero (bb sy b))
      rw [hr, bz h2', bi hd c b hv]
    · rw [if_neg h2]
      have h2' : ¬ ∀ i, sy.get i = 1 := fun q => h2 (hy.wf.isScalar_iff.mpr q)
      have hxy : ∀ i, sx.get i = sy.get i := by
        rcases h.1 with h | h | h
        · exact h
        · exact absurd h h1'
        · exact absurd h h2'
      have hd : ∀ i, s.get i = sx.get i := fun i => by
        refine (hs.2.1 i).trans ?_
        show max (sx.get i) (sy.get i) = _
        rw [hxy i]; exact max_self _
      refine (TF.call2 (op := .bi o) hx.device hx hy (s := s) ((Shape.elementwise_iff hx.wf hy.wf).mpr ⟨hxy, h.2, hs.1, hd, hs.2.2⟩) hsz trivial p m).congr ?_
      intro c b hv
      show o.fn _ _ = o.fn (f c (bb sx b)) (g c (bb sy b))
      rw [bi hd c b hv, bi (fun i => (hd i).trans (hxy i)) c b hv]

/-- C20: `x - y` and `x / y`, with scalars and batches broadcast on either side: the operand order is kept. -/
theorem C20_sub_div (hx : x.Holds d sx f) (hy : y.Holds d sy g) (h : OpFits sx sy) (hs : s.IsJoin sx sy)
    (hsz : s.size ≤ 2 ^ 31) (p : Profile) (m : Nat → α) :
    Yields (TF.sub p m x y) d s (fun c b => f (bc sx c) (bb sx b) - g (bc sy c) (bb sy b)) ∧
    Yields (TF.div p m x y) d s (fun c b => f (bc sx c) (bb sx b) / g (bc sy c) (bb sy b)) :=
  ⟨abOp_yields (o := .sub) (l := .subL) (r := .subR) (fun _ _ => rfl) (fun _ _ => rfl) hx hy h hs hsz p m,
    abOp_yields (o := .div) (l := .divL) (r := .divR) (fun _ _ => rfl) (fun _ _ => rfl) hx hy h hs hsz p m⟩

/-- C20: `x + y` and `x * y` (the code computes `y + x` when `x` is a scalar, so commutativity is needed). -/
theorem C20_add_mul (hadd : ∀ u v : α, u + v = v + u) (hmul : ∀ u v : α, u * v = v * u)
    (hx : x.Holds d sx f) (hy : y.Holds d sy g) (h : OpFits sx sy) (hs : s.IsJoin sx sy)
    (hsz : s.size ≤ 2 ^ 31) (p : Profile) (m : Nat → α) :
    Yields (TF.add p m x y) d s (fun c b => f (bc sx c) (bb sx b) + g (bc sy c) (bb sy b)) ∧
    Yields (TF.mul p m x y) d s (fun c b => f (bc sx c) (bb sx b) * g (bc sy c) (bb sy b)) :=
  ⟨abOp_yields (o := .add) (l := .add) (r := .add) (fun u v => hadd u v) (fun _ _ => rfl) hx hy h hs hsz p m,
    abOp_yields (o := .mul) (l := .mul) (r := .mul) (fun u v => hmul u v) (fun _ _ => rfl) hx hy h hs hsz p m⟩

/-- C20: `pow` broadcasts batches but not scalars. -/
theorem C20_pow (hx : x.Holds d sx f) (hy : y.Holds d sy g) (h : ∀ i, sx.get i = sy.get i) (hb : BatchCompat sx sy)
    (hs : s.Is sx.get (max sx.batch sy.batch)) (hsz : s.size ≤ 2 ^ 31) (p : Profile) (m : Nat → α) :
    Yields (TF.pow p m x y) d s (fun c b => Flt.powf (f c (bb sx b)) (g c (bb sy b))) :=
  TF.call2 (op := .bi .powf) hx.device hx hy ((Shape.elementwise_iff hx.wf hy.wf).mpr ⟨h, hb, hs⟩) hsz trivial p m

/-- C20: the device functions with a scalar operand that the operators do not use (`powf_scalar_l/r`). -/
theorem C20_powf_scalar (hx : x.Holds d sx f) (hy : y.Holds d sy g) (h : ∀ i, sy.get i = 1) (hb : BatchCompat sx sy)
    (hs : s.Is sx.get (max sx.batch sy.batch)) (hsz : s.size ≤ 2 ^ 31) (p : Profile) (m : Nat → α) :
    Yields (Dev.fw (.sc .powfL) p d m [x, y]) d s (fun c b => Flt.powf (g czero (bb sy b)) (f c (bb sx b))) ∧
    Yields (Dev.fw (.sc .powfR) p d m [x, y]) d s (fun c b => Flt.powf (f c (bb sx b)) (g czero (bb sy b))) :=
  ⟨Dev.fw_ok (op := .sc .powfL) (ins := [(sx, f), (sy, g)]) (xs := [x, y]) (.cons hx (.cons hy .nil)) ((Shape.scalarOp_iff hx.wf hy.wf).mpr ⟨h, hb, hs⟩) hsz trivial p m,
    Dev.fw_ok (op := .sc .powfR) (ins := [(sx, f), (sy, g)]) (xs := [x, y]) (.cons hx (.cons hy .nil)) ((Shape.scalarOp_iff hx.wf hy.wf).mpr ⟨h, hb, hs⟩) hsz trivial p m⟩

/-- C20: outside these conditions the operators panic (in a build with overflow checks), whatever the tensors are. -/
theorem C20_operators_panic (hx : x.Holds d sx f) (hy : y.Holds d sy g) (h : ¬ OpFits sx sy) (m : Nat → α) :
    TF.add .debug m x y = panic ∧ TF.sub .debug m x y = panic ∧ TF.mul .debug m x y = panic ∧ TF.div .debug m x y = panic := by
  have key : ∀ o l r, TF.abOp (α := α) o l r .debug m x y = panic := by
    intro o l r
    have fx := hx.fine
    have fy := hy.fine
    unfold TF.abOp TF.call Tensor.dev unwrap
    rw [hx.device, hx.shape, hy.shape]
    simp only [ok_bind]
    by_cases h1 : sx.isScalar = true
    · rw [if_pos h1]
      refine Dev.fw_panics (op := .sc l) (by simp [fx, fy]) trivial ?_ m
      rintro ⟨s, hp⟩
      have hs := hp.shape
      simp only [List.map, hx.shape, hy.shape] at hs
      obtain ⟨q1, q2, q3⟩ := (Shape.scalarOp_iff hy.wf hx.wf).mp hs
      exact h ⟨.inr (.inl q1), by
        rcases q2 with q | q | q
        · exact .inl q.symm
        · exact .inr (.inr q)
        · exact .inr (.inl q)⟩
    · rw [if_neg h1]
      by_cases h2 : sy.isScalar = true
      · rw [if_pos h2]
        refine Dev.fw_panics (op := .sc r) (by simp [fx, fy]) trivial ?_ m
        rintro ⟨s, hp⟩
        have hs := hp.shape
        simp only [List.map, hx.shape, hy.shape] at hs
        obtain ⟨q1, q2, q3⟩ := (Shape.scalarOp_iff hx.wf hy.wf).mp hs
        exact h ⟨.inr (.inr q1), q2⟩
      · rw [if_neg h2]
        refine Dev.fw_panics (op := .bi o) (by simp [fx, fy]) trivial ?_ m
        rintro ⟨s, hp⟩
        have hs := hp.shape
        simp only [List.map, hx.shape, hy.shape] at hs
        obtain ⟨q1, q2, q3⟩ := (Shape.elementwise_iff hx.wf hy.wf).mp hs
        exact h ⟨.inl q1, q2⟩
  exact ⟨key _ _ _, key _ _ _, key _ _ _, key _ _ _⟩

/-- C20: the shape of the result always exists. -/
theorem join_exists (ha : sx.WF) (hb : sy.WF) (h : OpFits sx sy) : ∃ s : Shape, s.IsJoin sx sy := by
  have key : ∀ {a b : Shape}, a.WF → b.WF → (∀ i, b.get i ≤ a.get i) → ∀ n, 1 ≤ n →
      ∃ s : Shape, s.Is (fun i => max (a.get i) (b.get i)) n := by
    intro a b ha hb hle n hn
    have e : ∀ i, max (a.get i) (b.get i) = a.get i := fun i => max_eq_left (hle i)
    refine Shape.exists_is (fun i => by rw [e]; exact ha.get_pos i) (fun i hi => by rw [e]; exact ha.get_big hi) ?_ hn
    rw [volN_congr (fun i _ => e i), ← ha.vol]; exact ha.vol_lt
  have hn : 1 ≤ max sx.batch sy.batch := le_trans ha.batch_pos (le_max_left _ _)
  rcases h.1 with h | h | h
  · exact key ha hb (fun i => (h i).ge) _ hn
  · obtain ⟨s, h1, h2, h3⟩ := key hb ha (fun i => by rw [h i]; exact hb.get_pos i) _ hn
    exact ⟨s, h1, fun i => (h2 i).trans (max_comm _ _), h3⟩
  · exact key ha hb (fun i => by rw [h i]; exact ha.get_pos i) _ hn

/-- C20: a vector with two batches minus a scalar, and the scalar minus the vector: the operand order is visible. -/
example (a k : α) (m : Nat → α) : ∃ x y s, Dev.newByConstant .debug 0 m (vecShape 3 2) a = ok x ∧ Dev.newByConstant .debug 0 m (vecShape 1 1) k = ok y ∧
    Yields (TF.sub .debug m x y) 0 s (fun _ _ => a - k) ∧ Yields (TF.sub .debug m y x) 0 s (fun _ _ => k - a) ∧
    TF.sub .debug m x y ≠ panic := by
  have w1 : (vecShape 3 2).WF := (vecShape_reachable rfl).wf
  have w2 : (vecShape 1 1).WF := (vecShape_reachable rfl).wf
  obtain ⟨x, e1, h1⟩ := Dev.newByConstant_ok (α := α) w1 (by decide) .debug 0 m a
  obtain ⟨y, e2, h2⟩ := Dev.newByConstant_ok (α := α) w2 (by decide) .debug 0 m k
  have hsc : ∀ i, (vecShape 1 1).get i = 1 := w2.isScalar_iff.mp rfl
  have hf : OpFits (vecShape 3 2) (vecShape 1 1) := ⟨.inr (.inr hsc), .inr (.inr rfl)⟩
  have hf' : OpFits (vecShape 1 1) (vecShape 3 2) := ⟨.inr (.inl hsc), .inr (.inl rfl)⟩
  obtain ⟨s, hs⟩ := join_exists w1 w2 hf
  have hs' : s.IsJoin (vecShape 1 1) (vecShape 3 2) := ⟨hs.1, fun i => (hs.2.1 i).trans (max_comm _ _), hs.2.2.trans (max_comm _ _)⟩
  have hsz : s.size ≤ 2 ^ 31 := by
    refine (size_le_of_dims hs.1 w1 (fun i => ?_) (by rw [hs.2.2]; decide)).trans (by decide)
    refine (hs.2.1 i).le.trans ?_
    show max ((vecShape 3 2).get i) ((vecShape 1 1).get i) ≤ _
    rw [hsc i]
    exact (max_eq_left (w1.get_pos i)).le
  have r1 := (C20_sub_div h1 h2 hf hs hsz .debug m).1
  exact ⟨x, y, s, e1, e2, r1, (C20_sub_div h2 h1 hf' hs' hsz .debug m).1, fun h => by obtain ⟨_, e, _⟩ := r1; rw [e] at h; cases h⟩

end Verif
