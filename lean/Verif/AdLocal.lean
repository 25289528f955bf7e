import Verif.AdSums
import Verif.PropsCalc
import Verif.NodeLemmas2

/-!
# Operators whose `backward` is the adjoint of the derivative of their `forward`: definition and constructors
-/

set_option linter.unusedSectionVars false

namespace Verif
open Res Shape
attribute [local instance] realFlt

/-- The tensors `xs` hold `x 0, x 1, …`, of the shapes `ss`. -/
def HoldsAll (d : Nat) (xs : List (Tensor ℝ)) (ss : List Shape) (x : Nat → Arr ℝ) : Prop :=
  xs.length = ss.length ∧ ∀ k s, ss[k]? = some s → ∃ t : Tensor ℝ, xs[k]? = some t ∧ t.Holds d s (x k)

/-- `δ` is the derivative of `V` at `t0`, element by element, on shape `s`. -/
def Moves (s : Shape) (V : ℝ → Arr ℝ) (t0 : ℝ) (δ : Arr ℝ) : Prop := ∀ c b, s.Valid c b → HasDerivAt (fun t => V t c b) (δ c b) t0

/-- `forward` computes `sem x`; `sem` is differentiable at `x`, with derivative `J`; each update that `backward` makes adds an array that does
not depend on what it is added to; and together these arrays are the transposed of `J` applied to the gradients `G` of the results. -/
def LocalAD (d : Nat) (op : Oper (Tensor ℝ)) (sem : (Nat → Arr ℝ) → Nat → Arr ℝ) (ss outs : List Shape) (x : Nat → Arr ℝ) : Prop :=
  (∀ xs, HoldsAll d xs ss x → ∃ ys, op.fw xs (outs.map (Tensor.new d)) = ok ys ∧ HoldsAll d ys outs (sem x)) ∧
  ∃ J : (Nat → Arr ℝ) → Nat → Arr ℝ,
    (∀ (V : ℝ → Nat → Arr ℝ) (t0 : ℝ) (δ : Nat → Arr ℝ), V t0 = x →
      (∀ k s, ss[k]? = some s → Moves s (fun t => V t k) t0 (δ k)) →
      ∀ v s, outs[v]? = some s → Moves s (fun t => sem (V t) v) t0 (J δ v)) ∧
    ∀ xs ys gys G, HoldsAll d xs ss x → HoldsAll d ys outs (sem x) → HoldsAll d gys outs G →
      ∃ cs : List (Nat × Arr ℝ),
        List.Forall₂ (fun u c => u.1 = c.1 ∧ ∃ s, ss[c.1]? = some s ∧
          ∀ gx H, gx.Holds d s H → Yields (u.2 gx) d s (fun i b => H i b + c.2 i b)) (op.bw xs ys gys ss) cs ∧
        ∀ δ : Nat → Arr ℝ, (cs.map fun c => dot (shp ss c.1) c.2 (δ c.1)).sum = ∑ v ∈ Finset.range outs.length, dot (shp outs v) (G v) (J δ v)

theorem HoldsAll.one {d : Nat} {xs : List (Tensor ℝ)} {s : Shape} {x : Nat → Arr ℝ} (h : HoldsAll d xs [s] x) : ∃ t, xs = [t] ∧ t.Holds d s (x 0) := by
  obtain ⟨hl, h⟩ := h
  obtain ⟨t, ht, hh⟩ := h 0 s rfl
  cases xs with
  | nil => simp at hl
  | cons y ys =>
    have : ys = [] := by simpa using hl
    subst this
    simp at ht
    subst ht
    exact ⟨_, rfl, hh⟩

theorem HoldsAll.two {d : Nat} {xs : List (Tensor ℝ)} {s s' : Shape} {x : Nat → Arr ℝ} (h : HoldsAll d xs [s, s'] x) :
    ∃ t u, xs = [t, u] ∧ t.Holds d s (x 0) ∧ u.Holds d s' (x 1) := by
  obtain ⟨hl, h⟩ := h
  obtain ⟨t, ht, hh⟩ := h 0 s rfl
  obtain ⟨u, hu, hh'⟩ := h 1 s' rfl
  match xs, hl with
  | [a, b], _ =>
    simp at ht hu
    subst ht hu
    exact ⟨_, _, rfl, hh, hh'⟩

theorem HoldsAll.mk1 {d : Nat} {t : Tensor ℝ} {s : Shape} {x : Nat → Arr ℝ} (h : t.Holds d s (x 0)) : HoldsAll d [t] [s] x := by
  refine ⟨rfl, fun k s' hk => ?_⟩
  cases k with
  | zero => simp at hk; subst hk; exact ⟨t, rfl, h⟩
  | succ k => simp at hk

theorem put_holds {d : Nat} {s : Shape} {t : Tensor ℝ} {f : Arr ℝ} (h : t.Holds d s f) :
    ∃ y, NodeOp.put [Tensor.new d s] 0 t = ok [y] ∧ y.Holds d s f := by
  refine ⟨{ (Tensor.new d s : Tensor ℝ) with buf := t.buf }, ?_, ?_⟩
  · simp [NodeOp.put, Graph.at', Tensor.replace, Tensor.new, h.device, h.shape, Tensor.valid, check]
  · obtain ⟨l, h1, h2, h3⟩ := h.buf
    exact ⟨rfl, rfl, rfl, h.wf, h.small, l, h1, h2, h3⟩

section
variable {p : Profile} {d : Nat} {m : Mem ℝ} {op : NodeOp ℝ} {s sx sa sb : Shape} {x : Nat → Arr ℝ}

/-- One argument, one result. -/
theorem local1 (hs : NF.Single op)
    (hfw : ∀ t, t.Holds d sx (x 0) → Yields (op.apply1 p d m [t]) d s (op.real [sx] x 0))
    (J : Arr ℝ → Arr ℝ)
    (hdiff : ∀ (V : ℝ → Nat → Arr ℝ) (t0 : ℝ) (δ : Arr ℝ), V t0 = x → Moves sx (fun t => V t 0) t0 δ →
      Moves s (fun t => op.real [sx] (V t) 0) t0 (J δ))
    (K : Arr ℝ → Arr ℝ) (f : Tensor ℝ → Tensor ℝ → Tensor ℝ → Tensor ℝ → Res (Tensor ℝ))
    (hbw : ∀ t y gy, op.bw p d m [t] [y] [gy] [sx] = [(0, f t y gy)])
    (hf : ∀ t y gy gx G H, t.Holds d sx (x 0) → y.Holds d s (op.real [sx] x 0) → gy.Holds d s G → gx.Holds d sx H →
      Yields (f t y gy gx) d sx (fun c b => H c b + K G c b))
    (hadj : ∀ G δ, dot sx (K G) δ = dot s G (J δ)) : LocalAD d (op.oper p d m) (op.real [sx]) [sx] [s] x := by
  refine ⟨fun xs hxs => ?_, fun δ _ => J (δ 0), fun V t0 δ hV hm v s' hv => ?_, fun xs ys gys G hxs hys hgys => ?_⟩
  · obtain ⟨t, rfl, ht⟩ := hxs.one
    obtain ⟨y, hy, hyh⟩ := hfw t ht
    obtain ⟨z, hz, hzh⟩ := put_holds hyh
    refine ⟨[z], ?_, .mk1 hzh⟩
    show op.fw p d m [t] [Tensor.new d s] = _
    rw [hs.fw, hy]; exact hz
  · cases v with
    | zero => simp at hv; subst hv; exact hdiff V t0 (δ 0) hV (hm 0 sx rfl)
    | succ v => simp at hv
  · obtain ⟨t, rfl, ht⟩ := hxs.one
    obtain ⟨y, rfl, hy⟩ := hys.one
    obtain ⟨gy, rfl, hgy⟩ := hgys.one
    refine ⟨[(0, K (G 0))], ?_, fun δ => ?_⟩
    · show List.Forall₂ _ (op.bw p d m [t] [y] [gy] [sx]) _
      rw [hbw]
      exact .cons ⟨rfl, sx, rfl, fun gx H hgx => hf t y gy gx _ H ht hy hgy hgx⟩ .nil
    · simp only [List.map_cons, List.map_nil, List.sum_cons, List.sum_nil, add_zero, List.length_singleton, Finset.sum_range_one]
      exact hadj _ _

/-- Two arguments, one result. -/
theorem local2 (hs : NF.Single op)
    (hfw : ∀ t u, t.Holds d sa (x 0) → u.Holds d sb (x 1) → Yields (op.apply1 p d m [t, u]) d s (op.real [sa, sb] x 0))
    (J : Arr ℝ → Arr ℝ → Arr ℝ)
    (hdiff : ∀ (V : ℝ → Nat → Arr ℝ) (t0 : ℝ) (δ δ' : Arr ℝ), V t0 = x → Moves sa (fun t => V t 0) t0 δ → Moves sb (fun t => V t 1) t0 δ' →
      Moves s (fun t => op.real [sa, sb] (V t) 0) t0 (J δ δ'))
    (Ka Kb : Arr ℝ → Arr ℝ) (fa fb : Tensor ℝ → Tensor ℝ → Tensor ℝ → Tensor ℝ → Tensor ℝ → Res (Tensor ℝ))
    (hbw : ∀ t u y gy, op.bw p d m [t, u] [y] [gy] [sa, sb] = [(0, fa t u y gy), (1, fb t u y gy)])
    (hfa : ∀ t u y gy gx G H, t.Holds d sa (x 0) → u.Holds d sb (x 1) → y.Holds d s (op.real [sa, sb] x 0) → gy.Holds d s G → gx.Holds d sa H →
      Yields (fa t u y gy gx) d sa (fun c b => H c b + Ka G c b))
    (hfb : ∀ t u y gy gx G H, t.Holds d sa (x 0) → u.Holds d sb (x 1) → y.Holds d s (op.real [sa, sb] x 0) → gy.Holds d s G → gx.Holds d sb H →
      Yields (fb t u y gy gx) d sb (fun c b => H c b + Kb G c b))
    (hadj : ∀ G δ δ', dot sa (Ka G) δ + dot sb (Kb G) δ' = dot s G (J δ δ')) :
    LocalAD d (op.oper p d m) (op.real [sa, sb]) [sa, sb] [s] x := by
  refine ⟨fun xs hxs => ?_, fun δ _ => J (δ 0) (δ 1), fun V t0 δ hV hm v s' hv => ?_, fun xs ys gys G hxs hys hgys => ?_⟩
  · obtain ⟨t, u, rfl, ht, hu⟩ := hxs.two
    obtain ⟨y, hy, hyh⟩ := hfw t u ht hu
    obtain ⟨z, hz, hzh⟩ := put_holds hyh
    refine ⟨[z], ?_, .mk1 hzh⟩
    show op.fw p d m [t, u] [Tensor.new d s] = _
    rw [hs.fw, hy]; exact hz
  · cases v with
    | zero => simp at hv; subst hv; exact hdiff V t0 (δ 0) (δ 1) hV (hm 0 sa rfl) (hm 1 sb rfl)
    | succ v => simp at hv
  · obtain ⟨t, u, rfl, ht, hu⟩ := hxs.two
    obtain ⟨y, rfl, hy⟩ := hys.one
    obtain ⟨gy, rfl, hgy⟩ := hgys.one
    refine ⟨[(0, Ka (G 0)), (1, Kb (G 0))], ?_, fun δ => ?_⟩
    · show List.Forall₂ _ (op.bw p d m [t, u] [y] [gy] [sa, sb]) _
      rw [hbw]
      exact .cons ⟨rfl, sa, rfl, fun gx H hgx => hfa t u y gy gx _ H ht hu hy hgy hgx⟩
        (.cons ⟨rfl, sb, rfl, fun gx H hgx => hfb t u y gy gx _ H ht hu hy hgy hgx⟩ .nil)
    · simp only [List.map_cons, List.map_nil, List.sum_cons, List.sum_nil, add_zero, List.length_singleton, Finset.sum_range_one]
      exact hadj _ _ _

/-- One argument, one result of the same shape, element by element. -/
theorem local_pointwise (hs : NF.Single op) (hw : sx.WF) (hfw : ∀ t, t.Holds d sx (x 0) → Yields (op.apply1 p d m [t]) d sx (op.real [sx] x 0))
    (w : Arr ℝ)
    (hdiff : ∀ (V : ℝ → Nat → Arr ℝ) (t0 e : ℝ) c b, V t0 = x → sx.Valid c b → HasDerivAt (fun t => V t 0 c b) e t0 →
      HasDerivAt (fun t => op.real [sx] (V t) 0 c b) (w c b * e) t0)
    (f : Tensor ℝ → Tensor ℝ → Tensor ℝ → Tensor ℝ → Res (Tensor ℝ))
    (hbw : ∀ t y gy, op.bw p d m [t] [y] [gy] [sx] = [(0, f t y gy)])
    (hf : ∀ t y gy gx G H, t.Holds d sx (x 0) → y.Holds d sx (op.real [sx] x 0) → gy.Holds d sx G → gx.Holds d sx H →
      Yields (f t y gy gx) d sx (fun c b => H c b + G c b * w c b)) : LocalAD d (op.oper p d m) (op.real [sx]) [sx] [sx] x := by
  refine local1 hs hfw (fun δ c b => w c b * δ c b) (fun V t0 δ hV hm c b hv => hdiff V t0 _ c b hV hv (hm c b hv))
    (fun G c b => G c b * w c b) f hbw hf fun G δ => dot_congr hw fun c b _ => by ring
end

end Verif
