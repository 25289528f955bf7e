import Verif.Sample
import Verif.Safety7

/-!
# The graph of one sample computes that sample
-/

set_option linter.unusedSectionVars false

namespace Verif
open Res
attribute [local instance] realFlt

theorem Samples.shape {d B b : Nat} {x x' : Tensor ℝ} (h : Samples B [b] d x x') : x'.shape = x.shape.sel 1 ∧ (x.shape.batch = 1 ∨ x.shape.batch = B) ∧
    x.shape.WF := by
  obtain ⟨s, s', f, f', h1, h2, h3⟩ := h
  rw [h1.shape, h2.shape]
  rcases h3 with ⟨h3, rfl, -⟩ | ⟨h3, h4, -⟩
  · exact ⟨(sel_one h3).symm, .inl h3, h1.wf⟩
  · exact ⟨h4.1.ext (h1.wf.sel (le_refl 1)) (by rw [h4.2.2, Shape.sel_batch]; split <;> rfl) h4.2.1, .inr h3, h1.wf⟩

theorem Samples.sampled {d B b : Nat} (hb : b < B) {x x' : Tensor ℝ} (h : Samples B [b] d x x') {s s' : Shape} {f f' : Arr ℝ} (hx : x.Holds d s f)
    (hx' : x'.Holds d s' f') : Sampled B b s f f' := by
  obtain ⟨t, t', u, u', h1, h2, h3⟩ := h
  obtain ⟨-, rfl, e⟩ := h1.unique hx
  obtain ⟨-, rfl, e'⟩ := h2.unique hx'
  rcases h3 with ⟨h3, rfl, h5⟩ | ⟨h3, h4, h5⟩
  · refine ⟨.inl h3, fun c hc => ?_⟩
    have hv : t'.Valid c 0 := ⟨hc, by omega⟩
    rw [← e' c 0 hv, h5 c 0 hv, e c 0 hv]
    unfold bb
    rw [if_pos h3]
  · refine ⟨.inr h3, fun c hc => ?_⟩
    have hv : t'.Valid c 0 := ⟨fun j => by rw [h4.2.1 j]; exact hc j, by rw [h4.2.2]; exact Nat.one_pos⟩
    rw [← e' c 0 hv, h5 c 0 hv]
    have : bb t b = b := by unfold bb; split <;> omega
    rw [this]
    exact e c b ⟨hc, by omega⟩

namespace Graph
variable {p : Profile} {d B b : Nat} {m0 : Nat → ℝ} {P P' : Nat → NodeOp ℝ} {g g' : Graph (Tensor ℝ)} {node : Nat} {θ θ' : Nat × Nat → Arr ℝ}

theorem Made.shapes {tr : List Nat} (hm : Made p d m0 P g tr) {i : Nat} (hi : i < g.length) : (P i).Arity (g.argShapes i).length ∧
    (P i).shapes .debug (g.argShapes i) = ok (g.outShapes i) := by
  obtain ⟨o, ho⟩ : ∃ o, g[i]? = some o := ⟨g[i], by simp [hi]⟩
  obtain ⟨-, har, ⟨outs, hsh, hinit⟩, -⟩ := hm.ops i o ho
  have houts : g.outShapes i = outs := by
    rw [outShapes_some ho, hinit, List.map_map]
    conv_rhs => rw [← List.map_id outs]
    exact List.map_congr_left fun _ _ => rfl
  rw [argShapes, List.length_map, argsOf_some ho, houts]
  exact ⟨har, hsh⟩

theorem leaf_shapes {op : NodeOp ℝ} {t : Tensor ℝ} (h : op.leafValue = some t) (ss : List Shape) : op.shapes .debug ss = ok [t.shape] := by
  cases op <;> simp only [NodeOp.leafValue, Option.some.injEq, reduceCtorEq] at h <;> (subst h; rfl)

theorem arg_results (hg : WF g) {i : Nat} {a : Nat × Nat} (ha : a ∈ g.argsOf i) : a.2 < g.results a.1 := by
  cases h1 : g[i]? with
  | none => simp [Graph.argsOf, h1] at ha
  | some o =>
    rw [argsOf_some h1] at ha
    obtain ⟨-, o', ho', h, -⟩ := hg.args i o h1 a ha
    rw [results_some ho']; exact h

/-- The shapes of the sample's graph. -/
theorem SampleOf.shapes {tr tr' : List Nat} (hb : b < B) (hS : SampleOf d B b P g P' g' node) (hm : Made p d m0 P g tr) (hm' : Made p d m0 P' g' tr')
    (hn : node < g.length) (hn' : node < g'.length) : ∀ i, Needs g node i → g'.outShapes i = (g.outShapes i).map (fun s => s.sel 1) ∧
      ∀ s ∈ g.outShapes i, s.WF ∧ (s.batch = 1 ∨ s.batch = B) := by
  have hg := hm.hist.inv.wf
  intro i
  induction i using Nat.strong_induction_on with
  | h i ih =>
    intro hi
    have hle := hi.le hg
    obtain ⟨ha, hs⟩ := hm.shapes (i := i) (by omega)
    obtain ⟨ha', hs'⟩ := hm'.shapes (i := i) (by omega)
    cases hl : (P i).isLeaf with
    | true =>
      obtain ⟨-, x, x', hx, hx', hsam⟩ := hS.leaf i hi hl
      rw [leaf_shapes hx] at hs
      rw [leaf_shapes hx'] at hs'
      obtain ⟨q1, q2, q3⟩ := hsam.shape
      rw [← Res.ok.inj hs, ← Res.ok.inj hs', q1]
      exact ⟨rfl, fun s h => by rw [List.mem_singleton.mp h]; exact ⟨q3, q2⟩⟩
    | false =>
      obtain ⟨hsep, hop⟩ := hS.ops i hi hl
      have hargs : g'.argShapes i = (g.argShapes i).map (fun s => s.sel 1) ∧ ∀ s ∈ g.argShapes i, s.WF ∧ (s.batch = 1 ∨ s.batch = B) := by
        have key : ∀ a ∈ g.argsOf i, g'.nodeShape a = (g.nodeShape a).sel 1 ∧ (g.nodeShape a).WF ∧ ((g.nodeShape a).batch = 1 ∨ (g.nodeShape a).batch = B) := by
          intro a haa
          obtain ⟨q1, q2⟩ := ih a.1 (hg.lt haa) (hi.snoc haa)
          have hr := arg_results hg haa
          have e := outShapes_get hr
          refine ⟨?_, q2 _ (List.mem_of_getElem? e)⟩
          have hr' : a.2 < g'.results a.1 := by rw [← outShapes_length, q1, List.length_map, outShapes_length]; exact hr
          have e' := outShapes_get hr'
          rw [q1, List.getElem?_map, e] at e'
          exact (Option.some.inj e').symm
        unfold argShapes
        rw [hS.args i hi, List.map_map]
        refine ⟨List.map_congr_left fun a h => (key a h).1, fun s h => ?_⟩
        obtain ⟨a, h1, rfl⟩ := List.mem_map.mp h
        exact (key a h1).2
      have hw := fun s h => (hargs.2 s h).1
      obtain ⟨h1, h2, -⟩ := NodeOp.splits hb hl ha hw (fun s h => (hargs.2 s h).2) hsep hs
      rw [hop, hargs.1, h1] at hs'
      have hp : (P i).Proper := by
        cases hP : P i <;> rw [hP] at hl hsep <;> first | trivial | (cases hl; done) | exact hsep.1
      exact ⟨(Res.ok.inj hs').symm, fun s h => ⟨NodeOp.shapes_wf hp hw hs s h, h2 s h⟩⟩

theorem SampleOf.node_shape {tr tr' : List Nat} (hb : b < B) (hS : SampleOf d B b P g P' g' node) (hm : Made p d m0 P g tr) (hm' : Made p d m0 P' g' tr')
    (hn : node < g.length) (hn' : node < g'.length) {i v : Nat} (hi : Needs g node i) (hv : v < g.results i) :
    v < g'.results i ∧ g'.nodeShape (i, v) = (g.nodeShape (i, v)).sel 1 ∧ (g.nodeShape (i, v)).WF ∧
      ((g.nodeShape (i, v)).batch = 1 ∨ (g.nodeShape (i, v)).batch = B) := by
  obtain ⟨q1, q2⟩ := hS.shapes hb hm hm' hn hn' i hi
  have e := outShapes_get hv
  have hv' : v < g'.results i := by rw [← outShapes_length, q1, List.length_map, outShapes_length]; exact hv
  refine ⟨hv', ?_, q2 _ (List.mem_of_getElem? e)⟩
  have e' := outShapes_get hv'
  rw [q1, List.getElem?_map, e] at e'
  exact (Option.some.inj e').symm

/-- The values of the sample's graph. -/
theorem SampleOf.eval {tr tr' : List Nat} (hb : b < B) (hS : SampleOf d B b P g P' g' node) (hm : Made p d m0 P g tr) (hm' : Made p d m0 P' g' tr')
    (hn : node < g.length) (hn' : node < g'.length)
    (hθ : ∀ i, Needs g node i → (P i).isLeaf = true → Sampled B b (g.nodeShape (i, 0)) (θ (i, 0)) (θ' (i, 0))) :
    ∀ i, Needs g node i → ∀ v, v < g.results i → Sampled B b (g.nodeShape (i, v)) (evalR g P θ i v) (evalR g' P' θ' i v) := by
  have hg := hm.hist.inv.wf
  have hg' := hm'.hist.inv.wf
  intro i
  induction i using Nat.strong_induction_on with
  | h i ih =>
    intro hi v hv
    have hle := hi.le hg
    obtain ⟨ha, hs⟩ := hm.shapes (i := i) (by omega)
    cases hl : (P i).isLeaf with
    | true =>
      obtain ⟨hl', x, x', hx, -, -⟩ := hS.leaf i hi hl
      rw [leaf_shapes hx] at hs
      have h0 : v = 0 := by rw [← outShapes_length, ← Res.ok.inj hs] at hv; simpa using hv
      subst h0
      rw [evalR_leaf hl, evalR_leaf hl']
      exact hθ i hi hl
    | false =>
      obtain ⟨hsep, hop⟩ := hS.ops i hi hl
      have hl' : (P' i).isLeaf = false := by rw [hop]; cases hP : P i <;> rw [hP] at hl <;> first | rfl | cases hl
      have key : ∀ a ∈ g.argsOf i, g'.nodeShape a = (g.nodeShape a).sel 1 ∧ (g.nodeShape a).WF ∧ ((g.nodeShape a).batch = 1 ∨ (g.nodeShape a).batch = B) :=
        fun a haa => (hS.node_shape hb hm hm' hn hn' (hi.snoc haa) (arg_results hg haa)).2
      have hargs : g'.argShapes i = (g.argShapes i).map (fun s => s.sel 1) := by
        unfold argShapes
        rw [hS.args i hi, List.map_map]
        exact List.map_congr_left fun a h => (key a h).1
      rw [evalR_node hg hl, evalR_node hg' hl', hop, hargs]
      refine (NodeOp.splits hb hl ha (fun s h => ?_) (fun s h => ?_) hsep hs).2.2 _ _ (fun k s hk => ?_) v _ (outShapes_get hv)
      · obtain ⟨a, h1, rfl⟩ := List.mem_map.mp h
        exact (key a h1).2.1
      · obtain ⟨a, h1, rfl⟩ := List.mem_map.mp h
        exact (key a h1).2.2
      · unfold argShapes at hk
        rw [List.getElem?_map] at hk
        cases haa : (g.argsOf i)[k]? with
        | none => rw [haa] at hk; cases hk
        | some a =>
          rw [haa] at hk
          obtain rfl := Option.some.inj hk
          have hmem := List.mem_of_getElem? haa
          have := ih a.1 (hg.lt hmem) (hi.snoc hmem) a.2 (arg_results hg hmem)
          unfold argVal
          rw [hS.args i hi]
          simp only [haa]
          exact this

end Graph
end Verif
