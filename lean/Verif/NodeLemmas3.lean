import Verif.NodeLemmas2

/-! # Lemmas for C38: what the operators compute -/

set_option linter.unusedSectionVars false

namespace Verif
open Res
variable {α : Type} [Flt α]

namespace NF

theorem call_eq {op : FwOp α} {p : Profile} {m : Nat → α} {x : Tensor α} {xs : List (Tensor α)} {d : Nat} (h : x.device = some d) :
    TF.call op p m x xs = Dev.fw op p d m xs := by
  simp [TF.call, Tensor.dev, unwrap, h]

theorem copy_frame {p : Profile} {d : Nat} {m : Nat → α} {x y : Tensor α} (h : Dev.copyTensor p d m x = ok y) :
    y.device = some d ∧ y.host = none ∧ y.shape = x.shape := by
  unfold Dev.copyTensor Dev.resetTensorByTensor Tensor.alloc at h
  simp only [Res.bind_eq_ok, Res.ok.injEq] at h
  obtain ⟨_, ⟨_, _, _, _, _, _, _, _, b, _, rfl⟩, _, _, _, _, _, _, _, _, _, _, hc⟩ := h
  obtain ⟨h1, h2, h3, _⟩ := callFw_keeps p .resetTensorByTensor [x] [] [] _ y hc
  exact ⟨h1, h3, h2⟩

theorem reshape_frame {p : Profile} {d : Nat} {m : Nat → α} {x y : Tensor α} {s : Shape}
    (h : (do let t ← Dev.copyTensor p d m x; t.updateShape p s) = ok y) : y.device = some d ∧ y.host = none ∧ y.shape = s := by
  simp only [Tensor.updateShape, Res.bind_eq_ok, Res.ok.injEq] at h
  obtain ⟨t, ht, _, _, _, _, _, _, rfl⟩ := h
  obtain ⟨h1, h2, _⟩ := copy_frame ht
  exact ⟨h1, h2, rfl⟩

/-- The one-argument operators whose shape function is that of the device function. -/
def Plain : NodeOp α → Prop
  | .un _ | .cn _ _ | .powi _ | .sum _ | .max _ | .min _ | .logsumexp _ | .broadcast _ _ | .transpose | .triangularL _ | .triangularU _
  | .slice _ _ _ | .pick _ _ | .reshape _ | .batchSum | .batchSlice _ _ | .batchPick _ => True
  | _ => False

theorem Plain.single {op : NodeOp α} (h : Plain op) : Single op := by
  cases op <;> trivial

theorem shapes_single {op : NodeOp α} (h : Single op) (p : Profile) (ss sh : List Shape) (e : op.shapes p ss = ok sh) : sh.length = 1 := by
  cases op
  case input | inputOwner | parameter | split | batchSplit => exact h.elim
  all_goals
    simp only [NodeOp.shapes, Res.bind_eq_ok, Res.ok.injEq] at e
    first
      | (obtain rfl := e; rfl)
      | (obtain ⟨_, _, rfl⟩ := e; rfl)
      | (obtain ⟨_, _, _, _, rfl⟩ := e; rfl)
      | (obtain ⟨_, _, _, _, _, _, rfl⟩ := e; rfl)
      | (obtain ⟨_, _, _, _, _, _, _, _, rfl⟩ := e; rfl)

theorem Plain.frame {op : NodeOp α} (h : Plain op) {p : Profile} {d : Nat} {m : Mem α} {t y : Tensor α} (ht : t.device = some d)
    (e : op.apply1 p d m [t] = ok y) : y.device = some d ∧ y.host = none ∧ op.shapes p [t.shape] = ok [y.shape] := by
  cases op
  case reshape s =>
    obtain ⟨h1, h2, h3⟩ := reshape_frame (m := m 0) (x := t) (s := s) (p := p) (d := d) e
    exact ⟨h1, h2, by simp [NodeOp.shapes, h3]⟩
  case cn c k =>
    cases c
    all_goals
      obtain ⟨h1, h2, h3, _⟩ := Dev.fw_frame e
      refine ⟨h1, h2, ?_⟩
      simp only [List.map_cons, List.map_nil, FwOp.shape] at h3
      simp [NodeOp.shapes, Graph.at', Res.ok.inj h3]
  case pick | batchPick =>
    simp only [NodeOp.apply1, Graph.at', List.getElem?_cons_zero, Res.ok_bind, TF.pick, TF.batchPick, call_eq ht] at e
    obtain ⟨h1, h2, h3, _⟩ := Dev.fw_frame e
    refine ⟨h1, h2, ?_⟩
    simp only [List.map_cons, List.map_nil, FwOp.shape] at h3
    simp [NodeOp.shapes, Graph.at', h3]
  case triangularL | triangularU =>
    obtain ⟨h1, h2, h3, _⟩ := Dev.fw_frame e
    refine ⟨h1, h2, ?_⟩
    simp only [List.map_cons, List.map_nil, FwOp.shape, Res.bind_eq_ok, Res.ok.injEq] at h3
    obtain ⟨_, _, h3⟩ := h3
    simp [NodeOp.shapes, Graph.at', h3]
  all_goals first
    | exact h.elim
    | (obtain ⟨h1, h2, h3, _⟩ := Dev.fw_frame e
       refine ⟨h1, h2, ?_⟩
       simp only [List.map_cons, List.map_nil, FwOp.shape] at h3
       simp [NodeOp.shapes, Graph.at', h3])

/-- A function of one node that creates a plain operator. -/
theorem un1_iff {p : Profile} {m : Mem α} {g : Graph (Tensor α)} {op : NodeOp α} (hop : Plain op) {x : Node} {t : Tensor α}
    (h : NodeVal g x t) {y : Tensor α} :
    (∃ g' n, un1 op p m g x = ok (g', n) ∧ value g' n = ok y) ↔ op.apply1 p x.dev m [t] = ok y := by
  unfold un1
  rw [create1_iff (d := x.dev) hop.single (.cons h .nil) (shapes_single hop.single p) (fun y e => ⟨(hop.frame h.dev e).1, (hop.frame h.dev e).2.1⟩)]
  constructor
  · exact fun h => h.2
  · exact fun e => ⟨(hop.frame h.dev e).2.2, e⟩

/-- What a creation leaves. -/
theorem create1_spec {p : Profile} {m : Mem α} {g g' : Graph (Tensor α)} {d : Nat} {op : NodeOp α} (hop : Single op) {xs : List Node} {n : Node}
    (h : create1 p m g d op xs = ok (g', n)) : ∃ (o : OpInfo (Tensor α)) (s : Shape), g' = g ++ [o] ∧ n = ⟨g.length, 0, d⟩ ∧
      o.oper = op.oper p d m ∧ o.args = xs.map Node.id ∧ o.init = [Tensor.new d s] ∧ o.vals = [Tensor.new d s] := by
  simp only [create1, create, Graph.create, Res.bind_eq_ok, Res.ok.injEq] at h
  obtain ⟨r, ⟨_, ⟨t0s, _, ss, hss, rfl⟩, o, ho, rfl⟩, n', hn, h⟩ := h
  obtain ⟨s, rfl⟩ := List.length_eq_one_iff.mp (shapes_single hop p _ _ hss)
  simp [Graph.at'] at ho
  subst ho
  simp [unwrap] at hn
  subst hn
  simp only [Prod.mk.injEq] at h
  obtain ⟨rfl, rfl⟩ := h
  exact ⟨_, s, rfl, rfl, rfl, rfl, rfl, rfl⟩

/-- A created node with a value. -/
theorem create1_nodeVal {p : Profile} {m : Mem α} {g g' : Graph (Tensor α)} {d : Nat} {op : NodeOp α} (hop : Single op) {xs : List Node} {n : Node}
    (h : create1 p m g d op xs = ok (g', n)) {y : Tensor α} (hv : value g' n = ok y) : NodeVal g' n y ∧ n.dev = d ∧
      ∀ x t, NodeVal g x t → NodeVal g' x t := by
  obtain ⟨o, s, rfl, rfl, h1, h2, h3, h4⟩ := create1_spec hop h
  refine ⟨?_, rfl, fun x t ht => ht.grow o⟩
  have hv' := hv
  rw [value, Graph.den_some (o := o) (by simp)] at hv'
  simp only [Res.bind_eq_ok] at hv'
  obtain ⟨ys, ⟨ts, _, hf⟩, hat⟩ := hv'
  rw [h1, h3] at hf
  have hf' : (do let t ← op.apply1 p d m ts; NodeOp.put [Tensor.new d s] 0 t) = ok ys := by rw [← hop.fw]; exact hf
  simp only [NodeOp.put, Graph.at', List.getElem?_cons_zero, Res.ok_bind, Tensor.replace, Res.bind_eq_ok, Res.ok.injEq] at hf'
  obtain ⟨t, _, _, ⟨_, _, _, _, _, _, _, _, rfl⟩, rfl⟩ := hf'
  simp [Graph.at', Tensor.new] at hat
  subst hat
  refine ⟨by simp, hv, rfl, rfl, Tensor.new d s, ?_, rfl⟩
  exact Graph.val_eq_ok.mpr ⟨o, by simp [Node.id], by simp [h4, Node.id]⟩

end NF
end Verif
