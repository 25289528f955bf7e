import Verif.RealCalc
import Verif.PropsBw
import Verif.PropsSerde
import Verif.TFMore
import Verif.Operators

/-!
# C37: the element-wise backward functions multiply by the derivative (over the reals)

`y` is the result of the forward function on `x`; `gy` the gradient of the result; `gx` the accumulator.  `deriv` is Mathlib's derivative.
-/

set_option linter.unusedSectionVars false

namespace Verif
open Res Shape
attribute [local instance] realFlt

variable {d : Nat} {x gy gx : Tensor ℝ} {s : Shape} {fx fgy fg : Arr ℝ}

/-- C37: sqrt, abs, sin, cos, tan, exp, ln, tanh, sigmoid: the forward function gives `f x`, `f` is differentiable at every element, and the
backward function adds `gy * f' x`. -/
theorem C37_unary {u : Un} (hu : u ≠ .neg ∧ u ≠ .softplus) (hx : x.Holds d s fx) (hdom : ∀ c b, s.Valid c b → u.Dom (fx c b)) (p : Profile)
    (m : Mem ℝ) :
    ∃ y, Dev.fw (.un u) p d (m 0) [x] = ok y ∧ y.Holds d s (fun c b => u.real (fx c b)) ∧
      (∀ c b, s.Valid c b → DifferentiableAt ℝ u.real (fx c b)) ∧
      ∀ {gy gx : Tensor ℝ} {fgy fg : Arr ℝ}, gy.Holds d s fgy → gx.Holds d s fg →
        Yields (Dev.bw (.un u) p d m [x] [y] gy gx) d s (fun c b => fg c b + fgy c b * deriv u.real (fx c b)) := by
  obtain ⟨f, hf⟩ : ∃ f : ℝ → ℝ → ℝ → ℝ, u.bwFn = some f := by
    cases u
    case neg => exact absurd rfl hu.1
    case softplus => exact absurd rfl hu.2
    all_goals exact ⟨_, rfl⟩
  obtain ⟨y, hy, hyh⟩ := Dev.fw_ok (op := .un u) (ins := [(s, fx)]) (xs := [x]) (.cons hx .nil) (s := s) rfl hx.small trivial p (m 0)
  have hyh' : y.Holds d s (fun c b => u.real (fx c b)) := hyh.congr fun c b _ => (Un.fn_real u _).symm
  refine ⟨y, hy, hyh', fun c b hv => ?_, fun {gy gx fgy fg} hgy hgx => ?_⟩
  · obtain ⟨_, h, _⟩ := u.hasDerivAt hf (hdom c b hv) 0
    exact h.differentiableAt
  · have := Dev.bw_ok (op := .un u) (xi := [(s, fx)]) (yi := [(s, fun c b => u.real (fx c b))]) (.cons hx .nil) (.cons hyh' .nil) hgy hgx
      (by show (do Verif.check (s = s); Verif.check (s = s); Verif.check (s = s) : Res Unit) = _; simp [Verif.check])
      (by show u.bwFn (α := ℝ) ≠ none; rw [hf]; simp) p m
    refine Yields.congr this fun c b hv => ?_
    obtain ⟨e, h1, h2⟩ := u.hasDerivAt hf (hdom c b hv) (fgy c b)
    simp only [BwOp.sem, hf]
    rw [h2, h1.deriv]

/-- C37: the functions with a constant. -/
theorem C37_const (o : Cn) {k : ℝ} (hx : x.Holds d s fx) (hdom : ∀ c b, s.Valid c b → o.Dom k (fx c b)) (p : Profile) (m : Mem ℝ) :
    ∃ y, Dev.fw (.cn o k) p d (m 0) [x] = ok y ∧ y.Holds d s (fun c b => o.real k (fx c b)) ∧
      (∀ c b, s.Valid c b → DifferentiableAt ℝ (o.real k) (fx c b)) ∧
      ∀ {gy gx : Tensor ℝ} {fgy fg : Arr ℝ}, gy.Holds d s fgy → gx.Holds d s fg →
        Yields (Dev.bw (.cn o k) p d m [x] [y] gy gx) d s (fun c b => fg c b + fgy c b * deriv (o.real k) (fx c b)) := by
  obtain ⟨y, hy, hyh⟩ := Dev.fw_ok (op := .cn o k) (ins := [(s, fx)]) (xs := [x]) (.cons hx .nil) (s := s) rfl hx.small trivial p (m 0)
  have hyh' : y.Holds d s (fun c b => o.real k (fx c b)) := hyh.congr fun c b _ => (Cn.fn_real o k _).symm
  refine ⟨y, hy, hyh', fun c b hv => ?_, fun {gy gx fgy fg} hgy hgx => ?_⟩
  · obtain ⟨_, h, _⟩ := o.hasDerivAt (hdom c b hv) 0
    exact h.differentiableAt
  · have := Dev.bw_ok (op := .cn o k) (xi := [(s, fx)]) (yi := [(s, fun c b => o.real k (fx c b))]) (.cons hx .nil) (.cons hyh' .nil) hgy hgx
      (by show (do Verif.check (s = s); Verif.check (s = s); Verif.check (s = s) : Res Unit) = _; simp [Verif.check]) trivial p m
    refine Yields.congr this fun c b hv => ?_
    obtain ⟨e, h1, h2⟩ := o.hasDerivAt (hdom c b hv) (fgy c b)
    show _ = fg c b + o.bwFn (fx c b) (o.real k (fx c b)) (fgy c b) k
    rw [h2, h1.deriv]

/-- C37: `powi`, where `x ≠ 0` or `k ≥ 0`. -/
theorem C37_powi {k : ℤ} (h1 : -2147483648 < k) (h2 : k ≤ 2147483647) (hx : x.Holds d s fx)
    (hdom : ∀ c b, s.Valid c b → fx c b ≠ 0 ∨ 0 ≤ k) (p : Profile) (m : Mem ℝ) :
    ∃ y, Dev.fw (.powi k) p d (m 0) [x] = ok y ∧ y.Holds d s (fun c b => fx c b ^ k) ∧
      (∀ c b, s.Valid c b → DifferentiableAt ℝ (fun v : ℝ => v ^ k) (fx c b)) ∧
      ∀ {gy gx : Tensor ℝ} {fgy fg : Arr ℝ}, gy.Holds d s fgy → gx.Holds d s fg →
        Yields (Dev.bw (.powi k) p d m [x] [y] gy gx) d s (fun c b => fg c b + fgy c b * deriv (fun v : ℝ => v ^ k) (fx c b)) := by
  obtain ⟨y, hy, hyh⟩ := Dev.fw_ok (op := .powi k) (ins := [(s, fx)]) (xs := [x]) (.cons hx .nil) (s := s) rfl hx.small ⟨by omega, h2⟩ p (m 0)
  refine ⟨y, hy, hyh, fun c b hv => (powi_hasDerivAt k (hdom c b hv)).differentiableAt, fun {gy gx fgy fg} hgy hgx => ?_⟩
  refine Yields.congr (C29_powi hx hyh hgy hgx p m h1 h2) fun c b hv => ?_
  rw [(powi_hasDerivAt k (hdom c b hv)).deriv]
  show _ = fg c b + fgy c b * (k : ℝ) * fx c b ^ (k - 1)
  ring

/-- C37: `softplus`, through its operator's backward (there is no kernel): its only update adds `gy` times the derivative. -/
theorem C37_softplus (hx : x.Holds d s fx) (p : Profile) (m : Mem ℝ) :
    ∃ y, Dev.fw (.un .softplus) p d (m 0) [x] = ok y ∧ y.Holds d s (fun c b => Real.log (1 + Real.exp (fx c b))) ∧
      (∀ v : ℝ, DifferentiableAt ℝ (fun v : ℝ => Real.log (1 + Real.exp v)) v) ∧
      ∀ {gy : Tensor ℝ} {fgy : Arr ℝ}, gy.Holds d s fgy → ∃ f, NodeOp.bw p d m (.un .softplus) [x] [y] [gy] [s] = [(0, f)] ∧
        ∀ {gx : Tensor ℝ} {fg : Arr ℝ}, gx.Holds d s fg →
          Yields (f gx) d s (fun c b => fg c b + fgy c b * deriv (fun v : ℝ => Real.log (1 + Real.exp v)) (fx c b)) := by
  obtain ⟨y, hy, hyh⟩ := Dev.fw_ok (op := .un .softplus) (ins := [(s, fx)]) (xs := [x]) (.cons hx .nil) (s := s) rfl hx.small trivial p (m 0)
  refine ⟨y, hy, hyh.congr fun c b _ => (softplus_eq _).symm, fun v => (softplus_hasDerivAt v).differentiableAt, fun {gy fgy} hgy => ⟨_, rfl, fun {gx fg} hgx => ?_⟩⟩
  show Yields (Dev.fw (.un .sigmoid) p d (m 0) [x] >>= fun s' => TF.mul p (m 1) s' gy >>= fun t => TF.addAssign p gx t) _ _ _
  refine Yields.bind (Dev.fw_ok (op := .un .sigmoid) (ins := [(s, fx)]) (xs := [x]) (.cons hx .nil) (s := s) rfl hx.small trivial p (m 0)) fun a ha => ?_
  refine Yields.bind (TF.mul_same (fun u v => mul_comm u v) ha hgy p (m 1)) fun t ht => ?_
  refine Yields.congr (TF.addAssign_same hgx ht p) fun c b _ => ?_
  show _ = fg c b + Scalar.sigmoidFw (fx c b) * fgy c b
  rw [show deriv (fun v : ℝ => Real.log (1 + Real.exp v)) (fx c b) = Un.sigmoid.real (fx c b) from (softplus_hasDerivAt _).deriv, sigmoid_eq]
  show fg c b + fgy c b * (1 / (1 + Real.exp (-fx c b))) = _
  ring

/-- C37: the functions of two operands: each backward function adds `gy` times the partial derivative, summed over the batches that read
the element (when that operand's batch was broadcast). -/
theorem C37_binary (o : Bi) {xa xb : Tensor ℝ} {sa sb : Shape} {fa fb : Arr ℝ} (ha : xa.Holds d sa fa) (hb : xb.Holds d sb fb)
    (hd : ∀ i, sa.get i = sb.get i) (hbc : BatchCompat sa sb) (hs : s.Is sa.get (max sa.batch sb.batch)) (hsz : s.size ≤ 2 ^ 31)
    (hdom : ∀ c b, s.Valid c b → o.Dom (fa c (bb sa b)) (fb c (bb sb b))) (p : Profile) (m : Mem ℝ) :
    ∃ y, Dev.fw (.bi o) p d (m 0) [xa, xb] = ok y ∧ y.Holds d s (fun c b => o.real (fa c (bb sa b)) (fb c (bb sb b))) ∧
      ∀ {gy ga gb : Tensor ℝ} {fgy fga fgb : Arr ℝ}, gy.Holds d s fgy → ga.Holds d sa fga → gb.Holds d sb fgb →
        Yields (Dev.bw (.biA o) p d m [xa, xb] [y] gy ga) d sa (fun c b => fga c b +
          ∑ b' ∈ (Finset.range s.batch).filter (fun b' => bb sa b' = b),
            fgy c b' * deriv (fun v => o.real v (fb c (bb sb b'))) (fa c b)) ∧
        Yields (Dev.bw (.biB o) p d m [xa, xb] [y] gy gb) d sb (fun c b => fgb c b +
          ∑ b' ∈ (Finset.range s.batch).filter (fun b' => bb sb b' = b),
            fgy c b' * deriv (fun v => o.real (fa c (bb sa b')) v) (fb c b)) := by
  have he : ShapeOps.elementwise sa sb = ok s := (Shape.elementwise_iff ha.wf hb.wf).mpr ⟨hd, hbc, hs⟩
  obtain ⟨y, hy, hyh⟩ := Dev.fw_ok (op := .bi o) (ins := [(sa, fa), (sb, fb)]) (xs := [xa, xb]) (.cons ha (.cons hb .nil)) (s := s) he hsz trivial p (m 0)
  have hyh' : y.Holds d s (fun c b => o.real (fa c (bb sa b)) (fb c (bb sb b))) := hyh.congr fun c b _ => (Bi.fn_real o _ _).symm
  refine ⟨y, hy, hyh', fun {gy ga gb fgy fga fgb} hgy hga hgb => ⟨?_, ?_⟩⟩
  · refine Yields.congr (Dev.bw_ok (op := .biA o) (xi := [(sa, fa), (sb, fb)]) (yi := [(s, fun c b => o.real (fa c (bb sa b)) (fb c (bb sb b)))])
      (.cons ha (.cons hb .nil)) (.cons hyh' .nil) hgy hga (by
        show (do Verif.check (sa = sa); Verif.check (s = s); let t ← ShapeOps.elementwise sa sb; Verif.check (s = t) : Res Unit) = _
        rw [he]; simp [Verif.check]) trivial p m) fun c b hv => ?_
    show _ = overBatch sa s.batch b (fun b' acc => o.stepA acc (fa c (bb sa b')) (fb c (bb sb b')) (fgy c b')) (fga c b)
    rw [← overBatch_sum]
    unfold overBatch
    refine foldN_congr fun b' hb' acc => ?_
    split
    · rename_i e
      have hv' : s.Valid c b' := ⟨fun i => by rw [hs.2.1]; exact hv.1 i, hb'⟩
      obtain ⟨da, db, h1, h2, _⟩ := o.hasDerivAt (hasDerivAt_id (fa c (bb sa b'))) (hasDerivAt_const (fa c (bb sa b')) (fb c (bb sb b'))) (hdom c b' hv')
      have h1' : deriv (fun v => o.real v (fb c (bb sb b'))) (fa c (bb sa b')) = da := by
        rw [HasDerivAt.deriv (f := fun v => o.real v (fb c (bb sb b'))) h1]; ring
      rw [← e]
      dsimp only
      rw [h1']
      exact (h2 acc (fgy c b')).symm
    · rfl
  · refine Yields.congr (Dev.bw_ok (op := .biB o) (xi := [(sa, fa), (sb, fb)]) (yi := [(s, fun c b => o.real (fa c (bb sa b)) (fb c (bb sb b)))])
      (.cons ha (.cons hb .nil)) (.cons hyh' .nil) hgy hgb (by
        show (do Verif.check (sb = sb); Verif.check (s = s); let t ← ShapeOps.elementwise sa sb; Verif.check (s = t) : Res Unit) = _
        rw [he]; simp [Verif.check]) trivial p m) fun c b hv => ?_
    show _ = overBatch sb s.batch b (fun b' acc => o.stepB acc (fa c (bb sa b')) (fb c (bb sb b')) (o.real (fa c (bb sa b')) (fb c (bb sb b'))) (fgy c b')) (fgb c b)
    rw [← overBatch_sum]
    unfold overBatch
    refine foldN_congr fun b' hb' acc => ?_
    split
    · rename_i e
      have hv' : s.Valid c b' := ⟨fun i => by rw [hs.2.1, hd]; exact hv.1 i, hb'⟩
      obtain ⟨da, db, h1, _, h2⟩ := o.hasDerivAt (hasDerivAt_const (fb c (bb sb b')) (fa c (bb sa b'))) (hasDerivAt_id (fb c (bb sb b'))) (hdom c b' hv')
      have h1' : deriv (fun v => o.real (fa c (bb sa b')) v) (fb c (bb sb b')) = db := by
        rw [HasDerivAt.deriv (f := fun v => o.real (fa c (bb sa b')) v) h1]; ring
      rw [← e]
      dsimp only
      rw [h1']
      exact (h2 acc (fgy c b')).symm
    · rfl

/-- The hypotheses are met: a vector with the elements 1 and 2 is in the domain of every function above. -/
example : ∃ x : Tensor ℝ, ∃ f : Arr ℝ, x.Holds 0 (vecShape 2 1) f ∧ f czero 0 = 1 ∧ f (mat 1 0) 0 = 2 ∧
    (∀ c b, (vecShape 2 1).Valid c b → 0 < f c b ∧ f c b ≤ 2) ∧
    (∀ (u : Un) c b, (vecShape 2 1).Valid c b → u ≠ .tan → u.Dom (f c b)) ∧
    (∀ (o : Cn) c b, (vecShape 2 1).Valid c b → o.Dom 3 (f c b)) ∧
    (∀ (o : Bi) c b, (vecShape 2 1).Valid c b → o.Dom (f c b) (f c b)) := by
  obtain ⟨x, hx⟩ := exists_holds (α := ℝ) (vecShape_wf (n := 2) (b := 1) rfl) (by decide) 0 (fun i => (i : ℝ) + 1)
  have hlt : ∀ c b, (vecShape 2 1).Valid c b → (vecShape 2 1).offset c b < 2 := fun c b hv => hx.wf.offset_lt hv
  have hp : ∀ c b, (0 : ℝ) < ((vecShape 2 1).offset c b : ℝ) + 1 := fun c b => by positivity
  refine ⟨x, _, hx, ?_, ?_, fun c b hv => ⟨hp c b, ?_⟩, fun u c b hv hu => ?_, fun o c b hv => ?_, fun o c b hv => ?_⟩
  · norm_num [Shape.offset, offN, czero]
  · show ((vecShape 2 1).offset (mat 1 0) 0 : ℝ) + 1 = 2
    rw [show (vecShape 2 1).offset (mat 1 0) 0 = 1 from rfl]; norm_num
  · have := hlt c b hv
    have h2 : ((vecShape 2 1).offset c b : ℝ) ≤ 1 := by exact_mod_cast (by omega : (vecShape 2 1).offset c b ≤ 1)
    linarith
  · cases u <;> first | exact absurd rfl hu | exact hp c b | exact (hp c b).ne' | trivial
  · cases o <;> first | exact hp c b | exact (hp c b).ne' | (show (3 : ℝ) ≠ 0; norm_num) | (show (0 : ℝ) < 3; norm_num) | trivial
  · cases o <;> first | exact hp c b | exact (hp c b).ne' | trivial

end Verif
