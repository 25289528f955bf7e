import Verif.AdLocal

/-!
# Element-wise operators of one argument
-/

set_option linter.unusedSectionVars false

namespace Verif
open Res Shape
attribute [local instance] realFlt

variable {p : Profile} {d : Nat} {m : Mem ℝ} {s sx : Shape} {x : Nat → Arr ℝ}

theorem check_same (s : Shape) : (do Verif.check (s = s); Verif.check (s = s); Verif.check (s = s) : Res Unit) = ok () := by simp [Verif.check]

theorem local_un (u : Un) (hu : u ≠ .neg) (hu' : u ≠ .softplus) (hw : sx.WF) (hdom : ∀ c b, sx.Valid c b → u.Dom (x 0 c b)) :
    LocalAD d ((NodeOp.un u).oper p d m) ((NodeOp.un u).real [sx]) [sx] [sx] x := by
  obtain ⟨f, hf⟩ : ∃ f : ℝ → ℝ → ℝ → ℝ, u.bwFn = some f := by
    cases u
    case neg => exact absurd rfl hu
    case softplus => exact absurd rfl hu'
    all_goals exact ⟨_, rfl⟩
  refine local_pointwise (op := .un u) trivial hw (fun t ht => ?_) (fun c b => deriv u.real (x 0 c b)) (fun V t0 e c b hV hv he => ?_)
    (fun t y gy gx => Dev.bw (.un u) p d m [t] [y] gy gx) (fun t y gy => ?_) (fun t y gy gx G H ht hy hgy hgx => ?_)
  · refine Yields.congr (Dev.fw_ok (op := .un u) (ins := [(sx, x 0)]) (xs := [t]) (.cons ht .nil) (s := sx) rfl ht.small trivial p (m 0)) fun c b _ => ?_
    exact (Un.fn_real u _).symm
  · obtain ⟨e', h1, _⟩ := u.hasDerivAt hf (hdom c b hv) 0
    subst hV
    have := h1.comp t0 he
    rw [h1.deriv]
    exact this
  · cases u
    case softplus => exact absurd rfl hu'
    all_goals rfl
  · refine Yields.congr (Dev.bw_ok (op := .un u) (xi := [(sx, x 0)]) (yi := [(sx, fun c b => u.real (x 0 c b))]) (.cons ht .nil) (.cons hy .nil) hgy hgx
      (check_same sx) (by show u.bwFn (α := ℝ) ≠ none; rw [hf]; simp) p m) fun c b hv => ?_
    obtain ⟨e, h1, h2⟩ := u.hasDerivAt hf (hdom c b hv) (G c b)
    simp only [BwOp.sem, hf]
    rw [h2, h1.deriv]

theorem local_softplus (hw : sx.WF) : LocalAD d ((NodeOp.un .softplus).oper p d m) ((NodeOp.un .softplus).real [sx]) [sx] [sx] x := by
  refine local_pointwise (op := .un .softplus) trivial hw (fun t ht => ?_) (fun c b => Un.sigmoid.real (x 0 c b)) (fun V t0 e c b hV hv he => ?_)
    (fun t y gy gx => Dev.fw (.un .sigmoid) p d (m 0) [t] >>= fun s' => TF.mul p (m 1) s' gy >>= fun t => TF.addAssign p gx t) (fun t y gy => rfl)
    (fun t y gy gx G H ht hy hgy hgx => ?_)
  · refine Yields.congr (Dev.fw_ok (op := .un .softplus) (ins := [(sx, x 0)]) (xs := [t]) (.cons ht .nil) (s := sx) rfl ht.small trivial p (m 0)) fun c b _ => ?_
    exact (Un.fn_real .softplus _).symm
  · subst hV
    exact (softplus_hasDerivAt _).comp t0 he
  · refine Yields.bind (Dev.fw_ok (op := .un .sigmoid) (ins := [(sx, x 0)]) (xs := [t]) (.cons ht .nil) (s := sx) rfl ht.small trivial p (m 0)) fun a ha => ?_
    refine Yields.bind (TF.mul_same (fun u v => mul_comm u v) ha hgy p (m 1)) fun t ht => ?_
    refine Yields.congr (TF.addAssign_same hgx ht p) fun c b _ => ?_
    show _ = H c b + Scalar.sigmoidFw (x 0 c b) * G c b
    rw [sigmoid_eq]
    show H c b + G c b * (1 / (1 + Real.exp (-x 0 c b))) = _
    ring

theorem local_cn' (o : Cn) (k : ℝ) (hw : sx.WF) (hdom : ∀ c b, sx.Valid c b → o.Dom k (x 0 c b)) (op : NodeOp ℝ) (h1 : NF.Single op)
    (h2 : ∀ t, op.apply1 p d m [t] = Dev.fw (.cn o k) p d (m 0) [t]) (h3 : ∀ x, op.real [sx] x 0 = fun c b => o.real k (x 0 c b))
    (h4 : ∀ t y gy, op.bw p d m [t] [y] [gy] [sx] = [(0, fun gx => Dev.bw (.cn o k) p d m [t] [y] gy gx)]) :
    LocalAD d (op.oper p d m) (op.real [sx]) [sx] [sx] x := by
  refine local_pointwise h1 hw (fun t ht => ?_) (fun c b => deriv (o.real k) (x 0 c b)) (fun V t0 e c b hV hv he => ?_)
    (fun t y gy gx => Dev.bw (.cn o k) p d m [t] [y] gy gx) h4 (fun t y gy gx G H ht hy hgy hgx => ?_)
  · rw [h2, h3]
    refine Yields.congr (Dev.fw_ok (op := .cn o k) (ins := [(sx, x 0)]) (xs := [t]) (.cons ht .nil) (s := sx) rfl ht.small trivial p (m 0)) fun c b _ => ?_
    exact (Cn.fn_real o k _).symm
  · obtain ⟨e', h1, _⟩ := o.hasDerivAt (hdom c b hv) 0
    simp only [h3]
    subst hV
    have := h1.comp t0 he
    rw [h1.deriv]
    exact this
  · rw [h3] at hy
    refine Yields.congr (Dev.bw_ok (op := .cn o k) (xi := [(sx, x 0)]) (yi := [(sx, fun c b => o.real k (x 0 c b))]) (.cons ht .nil) (.cons hy .nil) hgy hgx
      (check_same sx) trivial p m) fun c b hv => ?_
    obtain ⟨e, h1, h2⟩ := o.hasDerivAt (hdom c b hv) (G c b)
    show _ = H c b + o.bwFn (x 0 c b) (o.real k (x 0 c b)) (G c b) k
    rw [h2, h1.deriv]

theorem local_cn (o : Cn) (ho : o ≠ .elu) (k : ℝ) (hw : sx.WF) (hdom : ∀ c b, sx.Valid c b → o.Dom k (x 0 c b)) :
    LocalAD d ((NodeOp.cn o k).oper p d m) ((NodeOp.cn o k).real [sx]) [sx] [sx] x := by
  refine local_cn' o k hw hdom (.cn o k) trivial ?_ ?_ ?_
  all_goals cases o <;> first | exact absurd rfl ho | (intros; rfl)

theorem local_elu (k : ℝ) (hw : sx.WF) (hdom : ∀ c b, sx.Valid c b → Cn.prelu.Dom k (x 0 c b)) :
    LocalAD d ((NodeOp.cn .elu k).oper p d m) ((NodeOp.cn .elu k).real [sx]) [sx] [sx] x :=
  local_cn' .prelu k hw hdom (.cn .elu k) trivial (fun _ => rfl) (fun _ => rfl) fun _ _ _ => rfl

theorem local_powi (k : ℤ) (h1 : -2147483648 < k) (h2 : k ≤ 2147483647) (hw : sx.WF) (hdom : ∀ c b, sx.Valid c b → x 0 c b ≠ 0 ∨ 0 ≤ k) :
    LocalAD d ((NodeOp.powi k).oper p d m) ((NodeOp.powi k).real [sx]) [sx] [sx] x := by
  refine local_pointwise (op := .powi k) trivial hw (fun t ht => ?_) (fun c b => (k : ℝ) * x 0 c b ^ (k - 1)) (fun V t0 e c b hV hv he => ?_)
    (fun t y gy gx => Dev.bw (.powi k) p d m [t] [y] gy gx) (fun t y gy => rfl) (fun t y gy gx G H ht hy hgy hgx => ?_)
  · exact Dev.fw_ok (op := .powi k) (ins := [(sx, x 0)]) (xs := [t]) (.cons ht .nil) (s := sx) rfl ht.small ⟨by omega, h2⟩ p (m 0)
  · subst hV
    exact (powi_hasDerivAt k (hdom c b hv)).comp t0 he
  · refine Yields.congr (C29_powi ht hy hgy hgx p m h1 h2) fun c b hv => ?_
    show _ = H c b + G c b * (k : ℝ) * x 0 c b ^ (k - 1)
    ring

theorem local_triL (k : Nat) (hw : sx.WF) (hm : sx.isMatrix = true ∧ sx.get 0 = sx.get 1) (hk : sx.get 0 + k ≤ U32) :
    LocalAD d ((NodeOp.triangularL k).oper p d m) ((NodeOp.triangularL k).real [sx]) [sx] [sx] x := by
  refine local_pointwise (op := .triangularL k) trivial hw (fun t ht => ?_) (fun c _ => if c 1 + k ≤ c 0 then 1 else 0) (fun V t0 e c b hV hv he => ?_)
    (fun t y gy gx => Dev.bw (.triangularL k) p d m [t] [y] gy gx) (fun t y gy => rfl) (fun t y gy gx G H ht hy hgy hgx => ?_)
  · exact Dev.fw_ok (op := .triangularL k) (ins := [(sx, x 0)]) (xs := [t]) (.cons ht .nil) (s := sx)
      (by show (do Verif.check (sx.isMatrix = true ∧ sx.get 0 = sx.get 1); ok sx : Res Shape) = _; rw [check_true _ hm]; rfl) ht.small hk p (m 0)
  · simp only [NodeOp.real]
    split
    · rw [one_mul]; exact he
    · rw [zero_mul]; exact hasDerivAt_const t0 0
  · refine Yields.congr (Dev.bw_ok (op := .triangularL k) (xi := [(sx, x 0)]) (yi := [(sx, _)]) (.cons ht .nil) (.cons hy .nil) hgy hgx
      (check_same sx) ⟨hm, hk⟩ p m) fun c b hv => ?_
    show _ = H c b + (if c 1 + k ≤ c 0 then G c b else 0)
    split <;> ring

theorem local_triU (k : Nat) (hw : sx.WF) (hm : sx.isMatrix = true ∧ sx.get 0 = sx.get 1) (hk : sx.get 0 + k ≤ U32) :
    LocalAD d ((NodeOp.triangularU k).oper p d m) ((NodeOp.triangularU k).real [sx]) [sx] [sx] x := by
  refine local_pointwise (op := .triangularU k) trivial hw (fun t ht => ?_) (fun c _ => if c 0 + k ≤ c 1 then 1 else 0) (fun V t0 e c b hV hv he => ?_)
    (fun t y gy gx => Dev.bw (.triangularU k) p d m [t] [y] gy gx) (fun t y gy => rfl) (fun t y gy gx G H ht hy hgy hgx => ?_)
  · exact Dev.fw_ok (op := .triangularU k) (ins := [(sx, x 0)]) (xs := [t]) (.cons ht .nil) (s := sx)
      (by show (do Verif.check (sx.isMatrix = true ∧ sx.get 0 = sx.get 1); ok sx : Res Shape) = _; rw [check_true _ hm]; rfl) ht.small hk p (m 0)
  · simp only [NodeOp.real]
    split
    · rw [one_mul]; exact he
    · rw [zero_mul]; exact hasDerivAt_const t0 0
  · refine Yields.congr (Dev.bw_ok (op := .triangularU k) (xi := [(sx, x 0)]) (yi := [(sx, _)]) (.cons ht .nil) (.cons hy .nil) hgy hgx
      (check_same sx) ⟨hm, hk⟩ p m) fun c b hv => ?_
    show _ = H c b + (if c 0 + k ≤ c 1 then G c b else 0)
    split <;> ring

end Verif
