import Verif.PropsAd
import Verif.PropsOpt2

/-!
# C36: an example, and how graphs of library operators are made
-/

set_option linter.unusedSectionVars false

namespace Verif
open Res
attribute [local instance] realFlt

namespace Graph
variable {p : Profile} {d : Nat} {m0 : Nat → ℝ} {P : Nat → NodeOp ℝ} {g : Graph (Tensor ℝ)}

/-- A new operator at the end of the graph. -/
noncomputable def push (p : Profile) (d : Nat) (m : Mem ℝ) (g : Graph (Tensor ℝ)) (op : NodeOp ℝ) (sink : Option (Tensor ℝ)) (args : List (Nat × Nat)) (outs : List Shape) :
    Graph (Tensor ℝ) :=
  g ++ [⟨op.oper p d m, args, outs.map (Tensor.new d), outs.map (Tensor.new d), outs.map (Tensor.new d), false,
    (args.map fun a => g.depthOf a.1).foldl Max.max 0 + 1, sink⟩]

theorem Made.push {tr : List Nat} (h : Made p d m0 P g tr) {op : NodeOp ℝ} (hP : P g.length = op) {args : List (Nat × Nat)} (har : op.Arity args.length)
    {outs : List Shape} (hsh : op.shapes .debug (args.map g.nodeShape) = ok outs) (hargs : ∀ a ∈ args, a.2 < g.results a.1) (m : Mem ℝ)
    (sink : Option (Tensor ℝ)) : Made p d m0 P (g.push p d m op sink args outs) tr := by
  refine .create h (by rw [hP]; exact har) ⟨outs, by rw [hP]; exact hsh⟩ (m := m) (sink := sink) (args := args) ?_
  obtain ⟨xs, hxs⟩ : ∃ xs, mapR g.val args = ok xs := mapR_ok fun a ha => by
    cases ho : g[a.1]? with
    | none => have := hargs a ha; simp [results, ho] at this
    | some o =>
      have h1 := hargs a ha
      rw [results_some ho, ← (h.hist.inv.wf.lens a.1 o ho).1] at h1
      exact ⟨o.vals[a.2], val_eq_ok.mpr ⟨o, ho, by simp [h1]⟩⟩
  have e : xs.map Tensor.shape = args.map g.nodeShape := by
    refine List.ext_getElem? fun k => ?_
    rw [List.getElem?_map, List.getElem?_map]
    cases hk : args[k]? with
    | none =>
      have : xs[k]? = none := by rw [List.getElem?_eq_none_iff] at hk ⊢; rw [mapR_length hxs]; exact hk
      rw [this]; rfl
    | some a =>
      obtain ⟨b, hb, hv⟩ := mapR_get hxs hk
      rw [hb]
      obtain ⟨o, ho, hv⟩ := val_eq_ok.mp hv
      have := (h.ops a.1 o ho).vals
      have h2 : (o.vals.map Tensor.shape)[a.2]? = some b.shape := by simp [hv]
      rw [this] at h2
      simp only [Option.map_some, nodeShape, ho]
      rw [List.getD_eq_getElem?_getD, h2]; rfl
  have hs : op.shapes p (args.map g.nodeShape) = ok outs := by
    cases p with
    | debug => exact hsh
    | release => exact op.shapes_refines _ _ hsh
  simp only [Graph.create, hxs, ok_bind]
  show ((P g.length).shapes p (xs.map Tensor.shape) >>= _) = _
  rw [hP, e, hs, ok_bind]
  rfl

/-! ### Example: `sum(w * x + w)` with a parameter `w` of 2 elements, used twice -/

/-- The operators. -/
def exP (w x : Tensor ℝ) : Nat → NodeOp ℝ
  | 0 => .parameter w
  | 1 => .input x
  | 2 => .bi .mul
  | 3 => .bi .add
  | _ => .sum 0

/-- The graph. -/
noncomputable def exG (p : Profile) (d : Nat) (m : Mem ℝ) (w x gw : Tensor ℝ) : Graph (Tensor ℝ) :=
  let g := push p d m [] (.parameter w) (some gw) [] [vecShape 2 1]
  let g := push p d m g (.input x) none [] [vecShape 2 1]
  let g := push p d m g (.bi .mul) none [(0, 0), (1, 0)] [vecShape 2 1]
  let g := push p d m g (.bi .add) none [(2, 0), (0, 0)] [vecShape 2 1]
  push p d m g (.sum 0) none [(3, 0)] [vecShape 1 1]

theorem exG_made (p : Profile) (d : Nat) (m0 : Nat → ℝ) (m : Mem ℝ) {w x : Tensor ℝ} (gw : Tensor ℝ) (hw : w.shape = vecShape 2 1)
    (hx : x.shape = vecShape 2 1) : Made p d m0 (exP w x) (exG p d m w x gw) [] := by
  have h0 : Made p d m0 (exP w x) _ [] := Made.push .empty (op := .parameter w) rfl rfl (outs := [vecShape 2 1]) (args := [])
    (by show (ok [w.shape] : Res _) = _; rw [hw]) (by simp) m (some gw)
  have h1 := Made.push h0 (op := .input x) rfl rfl (outs := [vecShape 2 1]) (args := []) (by show (ok [x.shape] : Res _) = _; rw [hx]) (by simp) m none
  have h2 := Made.push h1 (op := .bi .mul) rfl rfl (outs := [vecShape 2 1]) (args := [(0, 0), (1, 0)]) rfl
    (by intro a ha; simp only [List.mem_cons, List.not_mem_nil, or_false] at ha; rcases ha with rfl | rfl <;> exact Nat.one_pos) m none
  have h3 := Made.push h2 (op := .bi .add) rfl rfl (outs := [vecShape 2 1]) (args := [(2, 0), (0, 0)]) rfl
    (by intro a ha; simp only [List.mem_cons, List.not_mem_nil, or_false] at ha; rcases ha with rfl | rfl <;> exact Nat.one_pos) m none
  exact Made.push h3 (op := .sum 0) rfl rfl (outs := [vecShape 1 1]) (args := [(3, 0)]) (by
      rw [List.map_cons, List.map_nil, show nodeShape _ (3, 0) = vecShape 2 1 from rfl]; rfl)
    (by intro a ha; simp only [List.mem_cons, List.not_mem_nil, or_false] at ha; rcases ha with rfl; exact Nat.one_pos) m none

/-- C36, an example that meets the hypotheses: the sum of the elements of `w * x + w`, for every `w` and `x`; the gradient of the parameter
`w` is `x + 1`, and it is added to what the parameter's gradient was. -/
example (p : Profile) (d : Nat) (m0 : Nat → ℝ) (m : Mem ℝ) (fw fx fg : Nat → ℝ) : ∃ w x gw : Tensor ℝ,
    w.Holds d (vecShape 2 1) (fun c b => fw ((vecShape 2 1).offset c b)) ∧ x.Holds d (vecShape 2 1) (fun c b => fx ((vecShape 2 1).offset c b)) ∧
    Made p d m0 (exP w x) (exG p d m w x gw) [] ∧
    (∃ tr order r, Backward (tensorLike p m0) (exG p d m w x gw) 4 tr order r) ∧
    ∀ tr order r, Backward (tensorLike p m0) (exG p d m w x gw) 4 tr order r → ∃ g' t', r = ok g' ∧ g'.sinkOf 0 = some t' ∧
      t'.Holds d (vecShape 2 1) (fun c b => fg ((vecShape 2 1).offset c b) + (fx ((vecShape 2 1).offset c b) + 1)) := by
  have hwf : (vecShape 2 1).WF := vecShape_wf (n := 2) (b := 1) rfl
  obtain ⟨w, hw⟩ := exists_holds hwf (by decide) d fw
  obtain ⟨x, hx⟩ := exists_holds hwf (by decide) d fx
  obtain ⟨gw, hgw⟩ := exists_holds hwf (by decide) d fg
  have hm := exG_made p d m0 m gw hw.shape hx.shape
  refine ⟨w, x, gw, hw, hx, hm, C32_backward_total hm.hist (by show 4 < 5; omega), fun tr order r hb => ?_⟩
  have hi : ∀ i, Needs (exG p d m w x gw) 4 i → i ≤ 4 := fun i h => h.le hm.hist.inv.wf
  obtain ⟨g', D, rfl, -, hs, hder⟩ := C36_backward_is_gradient (θ := fun a => if a.1 = 0 then fun c b => fw ((vecShape 2 1).offset c b) else fun c b => fx ((vecShape 2 1).offset c b))
    (S := fun _ c b => fg ((vecShape 2 1).offset c b)) hm (by show 4 < 5; omega) (by
      intro i hn hl
      have := hi i hn
      interval_cases i
      · exact ⟨w, rfl, hw⟩
      · exact ⟨x, rfl, hx⟩
      all_goals cases hl) (by
      intro i v hn hv
      have := hi i hn
      interval_cases i <;> (have : v = 0 := Nat.lt_one_iff.mp hv) <;> subst this <;> show Shape.size (vecShape _ 1) ≤ _ <;> decide) (by
      intro i hn hl
      have := hi i hn
      interval_cases i
      · cases hl
      · cases hl
      · exact fun _ _ _ => trivial
      · exact fun _ _ _ => trivial
      · show 0 < (vecShape 2 1).depth
        decide) (by
      intro i o hn ho
      have := hi i hn
      interval_cases i <;> (obtain rfl := Option.some.inj ho) <;> rfl) (by
      intro i v hn _ h1
      have := hi i hn
      interval_cases i <;> exact absurd h1 (lt_irrefl 1)) (by
      intro i t hn ht
      have := hi i hn
      interval_cases i
      · obtain rfl := Option.some.inj ht
        exact ⟨rfl, hgw⟩
      all_goals cases ht) hb
  obtain ⟨t', h1, h2⟩ := hs 0 gw (.arg (a := (3, 0)) (by simp [argsOf, exG, push]) (.arg (a := (0, 0)) (by simp [argsOf, exG, push]) (.refl 0))) rfl
  refine ⟨g', t', rfl, h1, h2.congr fun c b hv => ?_⟩
  show _ = fg _ + D 0 c b
  congr 1
  classical
  have hd := hder (fun t a => if a.1 = 0 then fun c' b' => fw ((vecShape 2 1).offset c' b') + (if c' = c ∧ b' = b then t else 0) else fun c b => fx ((vecShape 2 1).offset c b)) 0
    (fun i c' b' => if i = 0 ∧ c' = c ∧ b' = b then 1 else 0) (by funext a c' b'; simp) (by
      intro i _ c' b' _
      by_cases h0 : i = 0
      · subst h0
        simp only [if_true, true_and]
        by_cases hq : c' = c ∧ b' = b
        · simp only [hq, and_self, if_true]
          exact (hasDerivAt_id (0 : ℝ)).const_add _
        · simp only [hq, if_false]
          exact hasDerivAt_const _ _
      · simp only [h0, if_false, false_and]
        exact hasDerivAt_const _ _)
  have hwf1 : (vecShape 1 1).WF := vecShape_wf (n := 1) (b := 1) rfl
  have hE : ∀ θ : Nat × Nat → Arr ℝ, objective (exP w x) (exG p d m w x gw) 4 θ =
      ∑ j ∈ Finset.range 2, (θ (0, 0) (cset (fun _ => 0) 0 j) 0 * θ (1, 0) (cset (fun _ => 0) 0 j) 0 + θ (0, 0) (cset (fun _ => 0) 0 j) 0) := by
    intro θ
    have hg := hm.hist.inv.wf
    have e0 : evalR (exG p d m w x gw) (exP w x) θ 0 0 = θ (0, 0) := evalR_leaf rfl 0
    have e1 : evalR (exG p d m w x gw) (exP w x) θ 1 0 = θ (1, 0) := evalR_leaf rfl 0
    have e2 : evalR (exG p d m w x gw) (exP w x) θ 2 0 = fun c b => θ (0, 0) c (bb (vecShape 2 1) b) * θ (1, 0) c (bb (vecShape 2 1) b) := by
      rw [evalR_node hg rfl, ← e0, ← e1]; rfl
    have e3 : evalR (exG p d m w x gw) (exP w x) θ 3 0 = fun c b => evalR (exG p d m w x gw) (exP w x) θ 2 0 c (bb (vecShape 2 1) b) + θ (0, 0) c (bb (vecShape 2 1) b) := by
      rw [evalR_node hg rfl, ← e0]; rfl
    have e4 : evalR (exG p d m w x gw) (exP w x) θ 4 0 = fun c b => ∑ j ∈ Finset.range 2, evalR (exG p d m w x gw) (exP w x) θ 3 0 (cset c 0 j) b := by
      rw [evalR_node hg rfl]; rfl
    have hpos : (vecShape 1 1).pos = {(fun _ => 0, 0)} := by
      ext q
      rw [hwf1.mem_pos, Finset.mem_singleton]
      constructor
      · rintro ⟨h1, h2⟩
        refine Prod.ext (funext fun i => ?_) (Nat.lt_one_iff.mp h2)
        have := h1 i
        have hg1 : (vecShape 1 1).get i = 1 := by
          unfold Shape.get vecShape
          rcases i with _ | _ | _ | _ | _ | _ | _ | _ | i <;> rfl
        rw [hg1] at this
        exact Nat.lt_one_iff.mp this
      · rintro rfl
        exact ⟨fun i => hwf1.get_pos i, Nat.one_pos⟩
    have r4 : results (exG p d m w x gw) 4 = 1 := rfl
    have n4 : nodeShape (exG p d m w x gw) (4, 0) = vecShape 1 1 := rfl
    have hbb : bb (vecShape 2 1) 0 = 0 := rfl
    rw [objective, r4, Finset.sum_range_one, n4, total, hpos, Finset.sum_singleton, e4, e3, e2]
    simp only [hbb]
  have hc0 : ∀ i, c (i + 1) = 0 := fun i => by
    have := hv.1 (i + 1)
    have hg1 : (vecShape 2 1).get (i + 1) = 1 := by
      unfold Shape.get vecShape
      rcases i with _ | _ | _ | _ | _ | _ | _ | i <;> rfl
    have h2 : c (i + 1) < (vecShape 2 1).get (i + 1) := this
    omega
  have hb0 : b = 0 := Nat.lt_one_iff.mp hv.2
  have hc1 : c 0 < 2 := hv.1 0
  subst hb0
  have hcs : ∀ j, cset (fun _ => 0) 0 j = c ↔ c 0 = j := fun j => by
    constructor
    · intro h; rw [← h]; simp [cset]
    · intro h
      funext i
      cases i with
      | zero => simp [cset, h]
      | succ i => simp [cset, hc0]
  simp only [hE, hcs, and_true, if_true, one_ne_zero, if_false] at hd
  have hd2 : HasDerivAt (fun t : ℝ => ∑ j ∈ Finset.range 2, ((fw ((vecShape 2 1).offset (cset (fun _ => 0) 0 j) 0) + if c 0 = j then t else 0) *
      fx ((vecShape 2 1).offset (cset (fun _ => 0) 0 j) 0) + (fw ((vecShape 2 1).offset (cset (fun _ => 0) 0 j) 0) + if c 0 = j then t else 0)))
      (∑ j ∈ Finset.range 2, if c 0 = j then fx ((vecShape 2 1).offset (cset (fun _ => 0) 0 j) 0) + 1 else 0) 0 := by
    refine HasDerivAt.fun_sum fun j _ => ?_
    by_cases hj : c 0 = j
    · simp only [hj, if_true]
      have h := (hasDerivAt_id (0 : ℝ)).const_add (fw ((vecShape 2 1).offset (cset (fun _ => 0) 0 j) 0))
      exact ((h.mul_const (fx ((vecShape 2 1).offset (cset (fun _ => 0) 0 j) 0))).add h).congr_deriv (by ring)
    · simp only [hj, if_false]
      exact hasDerivAt_const _ _
  have hh0 : (nodeShape (exG p d m w x gw) (0, 0)).WF := hwf
  have hu := hd.unique hd2
  have h0 : (0 : Nat) ∈ leaves (exP w x) (exG p d m w x gw) 4 := by
    unfold leaves
    rw [Finset.mem_filter, mem_needed hm.hist.inv.wf (by show 4 < 5; omega)]
    exact ⟨.arg (a := (3, 0)) (by simp [argsOf, exG, push]) (.arg (a := (0, 0)) (by simp [argsOf, exG, push]) (.refl 0)), rfl⟩
  rw [Finset.sum_eq_single 0 (fun j _ hj => by
    simp only [hj, false_and, if_false]
    rw [dot_comm]; exact dot_zero _) (fun h => absurd h0 h), Finset.sum_ite_eq, if_pos (Finset.mem_range.mpr hc1), (hcs _).mpr rfl] at hu
  rw [← hu, dot, Finset.sum_eq_single (c, 0)]
  · simp
  · intro q _ hq
    have : ¬ (q.1 = c ∧ q.2 = 0) := fun ⟨h1, h2⟩ => hq (Prod.ext h1 h2)
    simp [this]
  · intro hq
    exact absurd (hh0.mem_pos.mpr hv) hq

end Graph
end Verif
