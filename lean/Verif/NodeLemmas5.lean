import Verif.NodeLemmas4

/-! # Lemmas for C38: functions of several nodes, shapes of composed functions -/

set_option linter.unusedSectionVars false

namespace Verif
open Res
variable {α : Type} [Flt α]

namespace NF

theorem NodeVal.addNode {p : Profile} {m : Mem α} {g g' : Graph (Tensor α)} {d : Nat} {op : NodeOp α} (hop : Single op) {xs : List Node} {n : Node}
    (h : create1 p m g d op xs = ok (g', n)) {x : Node} {t : Tensor α} (hx : NodeVal g x t) : NodeVal g' x t := by
  obtain ⟨o, s, rfl, _⟩ := create1_spec hop h
  exact hx.grow o

/-- An operator of two arguments computed by a device function. -/
theorem bin_iff {p : Profile} {m : Mem α} {g : Graph (Tensor α)} {op : NodeOp α} (hop : Single op) {x1 x2 : Node} {t1 t2 : Tensor α} {d : Nat}
    (h1 : NodeVal g x1 t1) (h2 : NodeVal g x2 t2) {f : FwOp α} (hf : op.apply1 p d m [t1, t2] = Dev.fw f p d (m 0) [t1, t2])
    (hs : ∀ s, f.shape p [t1.shape, t2.shape] = ok s → op.shapes p [t1.shape, t2.shape] = ok [s]) {y : Tensor α} :
    (∃ g' n, create1 p m g d op [x1, x2] = ok (g', n) ∧ value g' n = ok y) ↔ Dev.fw f p d (m 0) [t1, t2] = ok y := by
  rw [create1_iff (d := d) hop (.cons h1 (.cons h2 .nil)) (shapes_single hop p) (fun y e => by
    rw [hf] at e
    obtain ⟨a, b, _⟩ := Dev.fw_frame e
    exact ⟨a, b⟩), hf]
  constructor
  · exact fun h => h.2
  · intro e
    exact ⟨hs _ (Dev.fw_frame e).2.2.1, e⟩

theorem elementwise_scalar {a b : Shape} (ha : a.isScalar = true) (hb : b.isScalar = true) : ShapeOps.elementwise a b = ShapeOps.scalarOp a b := by
  simp only [Shape.isScalar, beq_iff_eq] at ha hb
  simp [ShapeOps.elementwise, ShapeOps.scalarOp, Shape.hasSameDims, Shape.isScalar, ha, hb]

theorem elementwise_mixed {a b : Shape} (h : a.isScalar ≠ b.isScalar) : ShapeOps.elementwise a b = panic := by
  have : a.depth ≠ b.depth := by
    intro e
    simp [Shape.isScalar, e] at h
  have h2 : a.hasSameDims b = false := by simp [Shape.hasSameDims, this]
  simp [ShapeOps.elementwise, h2, check]

/-- `define_ab_op!` on nodes of the same kind. -/
theorem ab_iff {p : Profile} {m : Mem α} {g : Graph (Tensor α)} {x1 x2 : Node} {t1 t2 : Tensor α} (h1 : NodeVal g x1 t1) (h2 : NodeVal g x2 t2)
    (hk : t1.shape.isScalar = t2.shape.isScalar) (fw : Bi) (l r : Sc) {y : Tensor α} :
    (∃ g' n, ab fw l r p m g x1 x2 = ok (g', n) ∧ value g' n = ok y) ↔ TF.abOp fw l r p (m 0) t1 t2 = ok y := by
  unfold ab TF.abOp
  rw [h1.shape, Res.ok_bind]
  cases hs : t1.shape.isScalar with
  | true =>
    rw [hs] at hk
    simp only [if_true, call_eq h1.dev]
    refine bin_iff (f := .sc l) (op := .sc l) trivial h2 h1 rfl ?_
    intro s e
    simp only [FwOp.shape] at e
    simp [NodeOp.shapes, Graph.at', elementwise_scalar hk.symm hs, e]
  | false =>
    rw [hs] at hk
    simp only [h2.shape, Res.ok_bind, ← hk, call_eq h1.dev]
    refine bin_iff (f := .bi fw) (op := .bi fw) trivial h1 h2 rfl ?_
    intro s e
    simp only [FwOp.shape] at e
    simp [NodeOp.shapes, Graph.at', e]

/-- `define_ab_op!` on nodes of different kinds panics. -/
theorem ab_mixed {p : Profile} {m : Mem α} {g : Graph (Tensor α)} {x1 x2 : Node} {t1 t2 : Tensor α} (h1 : NodeVal g x1 t1) (h2 : NodeVal g x2 t2)
    (hk : t1.shape.isScalar ≠ t2.shape.isScalar) (fw : Bi) (l r : Sc) : ab fw l r p m g x1 x2 = panic := by
  have key : ∀ (s : Sc) (x1 x2 : Node) (t1 t2 : Tensor α), NodeVal g x1 t1 → NodeVal g x2 t2 → t1.shape.isScalar ≠ t2.shape.isScalar →
      ∀ d, create1 p m g d (.sc s) [x1, x2] = panic := by
    intro s x1 x2 t1 t2 h1 h2 hk d
    obtain ⟨a, ha, ea⟩ := h1.shp
    obtain ⟨b, hb, eb⟩ := h2.shp
    have hs : ((NodeOp.sc s : NodeOp α).oper p d m).shapes ([a, b].map (tensorLike p (m 0)).shape) = panic := by
      show (NodeOp.sc s : NodeOp α).shapes p [a.shape, b.shape] = panic
      simp only [NodeOp.shapes, Graph.at', List.getElem?_cons_zero, List.getElem?_cons_succ, Res.ok_bind, ea, eb, elementwise_mixed hk]
      rfl
    simp only [List.map_cons, List.map_nil] at hs
    simp only [create1, create, Graph.create, List.map_cons, List.map_nil, mapR, ha, hb, Res.ok_bind, hs, Res.panic_bind]
  unfold ab
  rw [h1.shape, Res.ok_bind]
  cases hs : t1.shape.isScalar with
  | true => exact key l x2 x1 t2 t1 h2 h1 hk.symm _
  | false =>
    have hk2 : t2.shape.isScalar = true := by
      cases h : t2.shape.isScalar with
      | true => rfl
      | false => rw [hs, h] at hk; exact absurd rfl hk
    simp only [h2.shape, Res.ok_bind, hk2, if_true]
    exact key r x1 x2 t1 t2 h1 h2 hk _

/-! ### Shapes of composed functions -/

theorem elementwise_self {a s : Shape} (ha : a.WF) (h : ShapeOps.elementwise a a = ok s) : s = a := by
  rw [Shape.elementwise_iff ha ha] at h
  exact h.2.2.unique ⟨ha, fun _ => rfl, by simp⟩

/-- `x.logsumexp(dim).broadcast(dim, x.shape()[dim])` has the shape of `x`. -/
theorem rebroadcast {a s1 s2 : Shape} {dim : Nat} (ha : a.WF) (h1 : a.resizeDim .debug dim 1 = ok s1)
    (h2 : ShapeOps.broadcast .debug s1 dim (a.get dim) = ok s2) : s2 = a := by
  rw [ha.resizeDim_iff] at h1
  obtain ⟨_, _, _, i1⟩ := h1
  rw [Shape.broadcast_iff i1.1] at h2
  obtain ⟨_, _, _, _, i2⟩ := h2
  refine i2.unique ⟨ha, ?_, i1.2.2.symm⟩
  intro i
  simp only [setC]
  split
  · next e => rw [e]
  · next e => rw [i1.2.1]; simp [setC, e]

theorem abOp_frame {p : Profile} {m : Nat → α} {fw : Bi} {l r : Sc} {t1 t2 y : Tensor α} {d : Nat} (hd : t1.device = some d)
    (h : TF.abOp fw l r p m t1 t2 = ok y) : y.device = some d ∧ y.host = none ∧
      (if t1.shape.isScalar then ShapeOps.scalarOp t2.shape t1.shape else if t2.shape.isScalar then ShapeOps.scalarOp t1.shape t2.shape
        else ShapeOps.elementwise t1.shape t2.shape) = ok y.shape := by
  unfold TF.abOp at h
  simp only [call_eq hd] at h
  cases hs : t1.shape.isScalar with
  | true =>
    rw [if_pos hs] at h
    obtain ⟨h1, h2, h3, _⟩ := Dev.fw_frame h
    exact ⟨h1, h2, h3⟩
  | false =>
    rw [if_neg (by simp [hs])] at h
    cases hs2 : t2.shape.isScalar with
    | true =>
      rw [if_pos hs2] at h
      obtain ⟨h1, h2, h3, _⟩ := Dev.fw_frame h
      exact ⟨h1, h2, h3⟩
    | false =>
      rw [if_neg (by simp [hs2])] at h
      obtain ⟨h1, h2, h3, _⟩ := Dev.fw_frame h
      exact ⟨h1, h2, h3⟩

theorem lnSoftmax_frame {m : Mem α} {t y : Tensor α} {dim d : Nat} (hd : t.device = some d) (ht : t.shape.WF)
    (h : TF.lnSoftmax .debug m t dim = ok y) : y.device = some d ∧ y.host = none ∧ y.shape = t.shape := by
  simp only [TF.lnSoftmax, Res.bind_eq_ok] at h
  obtain ⟨a, ha, b, hb, h⟩ := h
  rw [TF.logsumexp, call_eq hd] at ha
  obtain ⟨a1, a2, a3, _⟩ := Dev.fw_frame ha
  rw [TF.broadcast, call_eq a1] at hb
  obtain ⟨b1, b2, b3, _⟩ := Dev.fw_frame hb
  have e := rebroadcast ht a3 b3
  obtain ⟨c1, c2, c3⟩ := abOp_frame hd h
  refine ⟨c1, c2, ?_⟩
  rw [e] at c3
  cases hs : t.shape.isScalar with
  | true =>
    rw [hs, if_pos rfl, ← elementwise_scalar hs hs] at c3
    exact elementwise_self ht c3
  | false =>
    simp only [hs] at c3
    exact elementwise_self ht c3

end NF
end Verif
