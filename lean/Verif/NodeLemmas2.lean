import Verif.NodeLemmas
import Verif.ShapeOpsLemmas
import Verif.PropsGraph

/-!
# Lemmas for C38: creating a node and evaluating it
-/

set_option linter.unusedSectionVars false

namespace Verif
open Res
variable {α : Type} [Flt α]

namespace NF

/-- The value of a node: the recursive evaluation of its expression (`Graph.den`; C30: this is what `forward` computes). -/
def value (g : Graph (Tensor α)) (x : Node) : Res (Tensor α) := do
  let ys ← Graph.den g x.op
  Graph.at' ys x.vid

/-- `x` is a node of `g` with value `t`; its slot has the shape of the value. -/
structure NodeVal (g : Graph (Tensor α)) (x : Node) (t : Tensor α) : Prop where
  lt : x.op < g.length
  val : value g x = ok t
  dev : t.device = some x.dev
  host : t.host = none
  shp : ∃ t0, g.val x.id = ok t0 ∧ t0.shape = t.shape

theorem NodeVal.grow {g : Graph (Tensor α)} {x : Node} {t : Tensor α} (h : NodeVal g x t) (o : OpInfo (Tensor α)) : NodeVal (g ++ [o]) x t := by
  have hs : Graph.SameOps g.length g (g ++ [o]) := fun i hi => by rw [List.getElem?_append_left hi]
  refine ⟨by simp; have := h.lt; omega, ?_, h.dev, h.host, ?_⟩
  · rw [value, ← hs.den h.lt]; exact h.val
  · obtain ⟨t0, h0, h1⟩ := h.shp
    refine ⟨t0, ?_, h1⟩
    obtain ⟨o', ho', hv⟩ := Graph.val_eq_ok.mp h0
    exact Graph.val_eq_ok.mpr ⟨o', by have := List.getElem?_append_left (l₂ := [o]) h.lt; exact this.trans ho', hv⟩

theorem NodeVal.shape {g : Graph (Tensor α)} {x : Node} {t : Tensor α} (h : NodeVal g x t) : NF.shape g x = ok t.shape := by
  obtain ⟨t0, h0, h1⟩ := h.shp
  simp [NF.shape, h0, h1]

/-- Values of several nodes. -/
def NodeVals (g : Graph (Tensor α)) (xs : List Node) (ts : List (Tensor α)) : Prop := List.Forall₂ (NodeVal g) xs ts

theorem NodeVals.shapes {g : Graph (Tensor α)} {xs : List Node} {ts : List (Tensor α)} (h : NodeVals g xs ts) :
    ∃ t0s, mapR g.val (xs.map Node.id) = ok t0s ∧ t0s.map Tensor.shape = ts.map Tensor.shape := by
  induction h with
  | nil => exact ⟨[], rfl, rfl⟩
  | cons h _ ih =>
    obtain ⟨t0, h0, h1⟩ := h.shp
    obtain ⟨t0s, h2, h3⟩ := ih
    exact ⟨t0 :: t0s, by simp [mapR, h0, h2], by simp [h1, h3]⟩

theorem NodeVals.args {g : Graph (Tensor α)} {xs : List Node} {ts : List (Tensor α)} (h : NodeVals g xs ts) (o : OpInfo (Tensor α)) :
    mapR (fun a : Nat × Nat => if _h : a.1 < g.length then (do let ys ← Graph.den (g ++ [o]) a.1; Graph.at' ys a.2) else panic) (xs.map Node.id) = ok ts := by
  induction h with
  | nil => rfl
  | cons h _ ih =>
    have h' := (h.grow o).val
    have hl := h.lt
    simp only [value] at h'
    simp only [List.map_cons, mapR, Node.id] at ih ⊢
    rw [dif_pos hl, h', ih]
    rfl

/-- The operators with one result that is put into the slot. -/
def Single : NodeOp α → Prop
  | .input _ | .inputOwner _ | .parameter _ | .split _ _ | .batchSplit _ => False
  | _ => True

theorem Single.fw {op : NodeOp α} (h : Single op) (p : Profile) (d : Nat) (m : Mem α) (xs ys : List (Tensor α)) :
    op.fw p d m xs ys = (do let t ← op.apply1 p d m xs; NodeOp.put ys 0 t) := by
  cases op <;> first | rfl | exact h.elim

theorem put_null {d : Nat} {s : Shape} {y : Tensor α} : NodeOp.put [Tensor.new d s] 0 y = ok [{ (Tensor.new d s : Tensor α) with buf := y.buf }] ∨
    ¬ (y.device = some d ∧ y.shape = s) := by
  by_cases h : y.device = some d ∧ y.shape = s
  · left
    simp [NodeOp.put, Graph.at', Tensor.replace, Tensor.new, Tensor.valid, check, h.1, h.2]
  · exact Or.inr h

/-- Creating an operator with one result and evaluating it. -/
theorem create1_iff {p : Profile} {m : Mem α} {g : Graph (Tensor α)} {d : Nat} {op : NodeOp α} (hop : Single op) {xs : List Node} {ts : List (Tensor α)}
    (h : NodeVals g xs ts) (hlen : ∀ ss sh, op.shapes p ss = ok sh → sh.length = 1)
    (hframe : ∀ y, op.apply1 p d m ts = ok y → y.device = some d ∧ y.host = none) {y : Tensor α} :
    (∃ g' n, create1 p m g d op xs = ok (g', n) ∧ value g' n = ok y) ↔
      (op.shapes p (ts.map Tensor.shape) = ok [y.shape] ∧ op.apply1 p d m ts = ok y) := by
  obtain ⟨t0s, hv, hsh⟩ := h.shapes
  have key : ∀ s, op.shapes p (ts.map Tensor.shape) = ok [s] → ∃ o : OpInfo (Tensor α), o.oper = op.oper p d m ∧ o.args = xs.map Node.id ∧ o.init = [Tensor.new d s] ∧
      o.vals = [Tensor.new d s] ∧
      create1 p m g d op xs = ok (g ++ [o], ⟨g.length, 0, d⟩) ∧ value (g ++ [o]) ⟨g.length, 0, d⟩ = (do
        let t ← op.apply1 p d m ts
        let ys ← NodeOp.put [Tensor.new d s] 0 t
        Graph.at' ys 0) := by
    intro s hs
    refine ⟨⟨op.oper p d m, xs.map Node.id, [Tensor.new d s], [Tensor.new d s], [Tensor.new d s], false,
      ((xs.map Node.id).map fun a => g.depthOf a.1).foldl Max.max 0 + 1, none⟩, rfl, rfl, rfl, rfl, ?_, ?_⟩
    · have : (op.oper p d m).shapes (t0s.map (tensorLike p (m 0)).shape) = ok [s] := by
        rw [show (tensorLike p (m 0)).shape = (Tensor.shape : Tensor α → Shape) from rfl, hsh]; exact hs
      simp only [create1, create, Graph.create]
      rw [hv, Res.ok_bind, this, Res.ok_bind]
      simp [Graph.at', unwrap]
      rfl
    · rw [value, Graph.den_some (o := _) (by simp; rfl)]
      rw [NodeVals.args h]
      show (do let ys ← (op.oper p d m).fw ts [Tensor.new d s]; Graph.at' ys 0) = _
      have : ∀ xs ys, (op.oper p d m).fw xs ys = (do let t ← op.apply1 p d m xs; NodeOp.put ys 0 t) := fun xs ys => hop.fw p d m xs ys
      rw [this]
      simp only [Res.bind_assoc]
  constructor
  · rintro ⟨g', n, hc, hval⟩
    have hc' := hc
    simp only [create1, create, Graph.create, hv, Res.bind_eq_ok, Res.ok.injEq] at hc'
    obtain ⟨_, ⟨_, ⟨_, rfl, ss, hss, _⟩, _⟩, _⟩ := hc'
    have hss' : op.shapes p (ts.map Tensor.shape) = ok ss := by rw [← hsh]; exact hss
    have hl := hlen _ _ hss'
    obtain ⟨s, rfl⟩ : ∃ s, ss = [s] := List.length_eq_one_iff.mp hl
    obtain ⟨o, _, _, _, _, h1, h2⟩ := key s hss'
    rw [h1] at hc
    simp only [Res.ok.injEq, Prod.mk.injEq] at hc
    obtain ⟨rfl, rfl⟩ := hc
    rw [h2] at hval
    simp only [Res.bind_eq_ok] at hval
    obtain ⟨t, ht, ys, hy, hat⟩ := hval
    obtain ⟨f1, f2⟩ := hframe t ht
    have hs : t.shape = s := by
      simp only [NodeOp.put, Graph.at', Tensor.replace, Tensor.new, Res.bind_eq_ok] at hy
      obtain ⟨_, h3, _, ⟨_, _, _, _, _, h5, _⟩, _⟩ := hy
      simp at h3; subst h3
      rw [check_eq_ok] at h5
      exact h5.symm
    rcases put_null (d := d) (s := s) (y := t) with e | e
    · rw [e] at hy
      obtain rfl := Res.ok.inj hy
      simp only [Graph.at', List.getElem?_cons_zero, Res.ok.injEq] at hat
      have : t = y := by
        rw [← hat]; cases t; simp only [Tensor.new] at *; simp_all
      subst this
      exact ⟨by rw [hss', hs], ht⟩
    · exact absurd ⟨f1, hs⟩ e
  · rintro ⟨hss, ha⟩
    obtain ⟨o, _, _, _, _, h1, h2⟩ := key y.shape hss
    refine ⟨_, _, h1, ?_⟩
    rw [h2, ha]
    obtain ⟨f1, f2⟩ := hframe y ha
    rcases put_null (d := d) (s := y.shape) (y := y) with e | e
    · rw [Res.ok_bind, e, Res.ok_bind]
      simp only [Graph.at', List.getElem?_cons_zero, Res.ok.injEq]
      cases y; simp only [Tensor.new] at *; simp_all
    · exact absurd ⟨f1, rfl⟩ e

end NF
end Verif
