import Verif.AdGraph2

/-!
# C36: `backward` computes the derivative

Over the real numbers, for every graph made of the operators of the library, after any history, and for every order in which operators of
equal depth leave the heap.
-/

set_option linter.unusedSectionVars false

namespace Verif
open Res
attribute [local instance] realFlt

namespace Graph
variable {p : Profile} {d : Nat} {m0 : Nat → ℝ} {P : Nat → NodeOp ℝ} {g : Graph (Tensor ℝ)} {root : Nat} {θ : Nat × Nat → Arr ℝ}

/-- The operators that are needed for `root`. -/
noncomputable def needed (g : Graph (Tensor ℝ)) (root : Nat) : Finset Nat := by
  classical exact (Finset.range g.length).filter (Needs g root)

/-- The inputs and parameters that are needed for `root`. -/
noncomputable def leaves (P : Nat → NodeOp ℝ) (g : Graph (Tensor ℝ)) (root : Nat) : Finset Nat :=
  (needed g root).filter fun i => (P i).isLeaf = true

/-- The sum of all elements of all results of operator `root`, when the leaves have the values `θ`. -/
noncomputable def objective (P : Nat → NodeOp ℝ) (g : Graph (Tensor ℝ)) (root : Nat) (θ : Nat × Nat → Arr ℝ) : ℝ :=
  ∑ v ∈ Finset.range (g.results root), total (g.nodeShape (root, v)) (evalR g P θ root v)

theorem Needs.lt_length (hg : WF g) (hr : root < g.length) {i : Nat} (h : Needs g root i) : i < g.length := by
  have := h.le hg; omega

theorem mem_needed (hg : WF g) (hr : root < g.length) {i : Nat} : i ∈ needed g root ↔ Needs g root i := by
  classical
  unfold needed
  simp only [Finset.mem_filter, Finset.mem_range]
  exact ⟨fun h => h.2, fun h => ⟨h.lt_length hg hr, h⟩⟩

theorem Needs.user {i j : Nat} (h : Needs g i j) (hne : j ≠ i) : ∃ k a, Needs g i k ∧ a ∈ g.argsOf k ∧ a.1 = j := by
  induction h with
  | refl => exact absurd rfl hne
  | @arg i j a ha hn ih =>
    by_cases hj : j = a.1
    · exact ⟨i, a, .refl i, ha, hj.symm⟩
    · obtain ⟨k, b, h1, h2, h3⟩ := ih hj
      exact ⟨k, b, .arg ha h1, h2, h3⟩

theorem leaf_facts (hops : ∀ (i : Nat) (o : OpInfo (Tensor ℝ)), g[i]? = some o → OpAt p d P g i o) {i : Nat} {o : OpInfo (Tensor ℝ)}
    (ho : g[i]? = some o) (hl : (P i).isLeaf = true) : o.args = [] ∧ g.results i = 1 ∧
      ∀ m xs ys gys ss, (P i).bw p d m xs ys gys ss = [] := by
  obtain ⟨-, har, ⟨outs, hsh, hinit⟩, -⟩ := hops i o ho
  rw [results_some ho, hinit, List.length_map]
  cases hP : P i <;> rw [hP] at hl har hsh <;>
    first
    | (refine ⟨List.length_eq_zero_iff.mp har, ?_, fun m xs ys gys ss => rfl⟩
       simp only [NodeOp.shapes, Res.ok.injEq] at hsh
       rw [← hsh]; rfl)
    | cases hl

/-- C36.  Take any graph of operators of the library, after any history, and a node's operator `root`.  Let the inputs and parameters have
the values `θ`, at a point where the operators are differentiable (`Smooth`), with sizes that the memory pool accepts; no gradients there
yet; and each result of an operator with several results used for `root`.  Then every execution of `backward` completes.  It leaves in the
inputs and parameters gradients `D` which are the gradient of the sum of the elements of the results of `root`: along every differentiable
path of the leaves through `θ`, with velocity `η`, its derivative is the inner product of `D` and `η`.  And `D` was added to the gradients
of the parameters. -/
theorem C36_backward_is_gradient {tr : List Nat} (hm : Made p d m0 P g tr) (hr : root < g.length)
    (hleaf : ∀ i, Needs g root i → (P i).isLeaf = true → ∃ t : Tensor ℝ, (P i).leafValue = some t ∧ t.Holds d (g.nodeShape (i, 0)) (θ (i, 0)))
    (hsmall : ∀ i v, Needs g root i → v < g.results i → (g.nodeShape (i, v)).size ≤ 2 ^ 31)
    (hsmooth : ∀ i, Needs g root i → (P i).isLeaf = false → (P i).Smooth (g.argShapes i) (g.argVal P θ i) (g.outShapes i))
    (hfresh : ∀ (i : Nat) (o : OpInfo (Tensor ℝ)), Needs g root i → g[i]? = some o → o.grads = o.init)
    (hused : ∀ i v, Needs g root i → i ≠ root → 1 < g.results i → v < g.results i → ∃ j, Needs g root j ∧ (i, v) ∈ g.argsOf j)
    {S : Nat → Arr ℝ}
    (hsink : ∀ i t, Needs g root i → g.sinkOf i = some t → (P i).isLeaf = true ∧ t.Holds d (g.nodeShape (i, 0)) (S i))
    {tr' order : List Nat} {r : Res (Graph (Tensor ℝ))} (hb : Backward (tensorLike p m0) g root tr' order r) :
    ∃ (g' : Graph (Tensor ℝ)) (D : Nat → Arr ℝ), r = ok g' ∧
      (∀ i ∈ leaves P g root, ∃ t, g'.grad (i, 0) = ok t ∧ t.Holds d (g.nodeShape (i, 0)) (D i)) ∧
      (∀ i t, Needs g root i → g.sinkOf i = some t →
        ∃ t', g'.sinkOf i = some t' ∧ t'.Holds d (g.nodeShape (i, 0)) (fun c b => S i c b + D i c b)) ∧
      ∀ (Θ : ℝ → Nat × Nat → Arr ℝ) (t0 : ℝ) (η : Nat → Arr ℝ), Θ t0 = θ →
        (∀ i ∈ leaves P g root, Moves (g.nodeShape (i, 0)) (fun t => Θ t (i, 0)) t0 (η i)) →
        HasDerivAt (fun t => objective P g root (Θ t)) (∑ i ∈ leaves P g root, dot (g.nodeShape (i, 0)) (D i) (η i)) t0 := by
  classical
  have hI := hm.hist.inv
  have hg := hI.wf
  have hops := hm.ops
  have hpt : Point p d P g root θ := ⟨hg, hops, hleaf, hsmall, hsmooth⟩
  have hex : ∀ i, Needs g root i → ∃ o : OpInfo (Tensor ℝ), g[i]? = some o := fun i hi => ⟨g[i]'(hi.lt_length hg hr), by simp [hi.lt_length hg hr]⟩
  have hev : Evaluable g root := fun j hj => by
    obtain ⟨o, ho⟩ := hex j hj
    exact (hpt.values j o hj ho).imp fun ys h => h.1
  obtain ⟨g1, r1, hf, hb⟩ := hb
  obtain ⟨rfl, hlen, hval, -⟩ := C30_forward_evaluates hm.hist hr hev hf
  rcases hb with ⟨-, hb⟩ | ⟨h, -⟩ | ⟨h, -⟩
  swap
  · cases h
  swap
  · cases h
  obtain ⟨hI1, popped, -, -, -, hran, -⟩ := forward_spec hI hr hf
  have hg1 := hI1.wf
  have hr1 : root < g1.length := by rw [hlen]; exact hr
  have hneeds : ∀ j, Needs g root j ↔ Needs g1 root j := fun j => (hran.same g.length).needs_iff hg hg1 hr
  -- operators
  have hmm : ∀ i, ∃ m, ∀ o : OpInfo (Tensor ℝ), g[i]? = some o → o.oper = (P i).oper p d m := by
    intro i
    cases ho : g[i]? with
    | none => exact ⟨fun _ _ => 0, fun o h => by cases h⟩
    | some o =>
      obtain ⟨m, e⟩ := (hops i o ho).oper
      exact ⟨m, fun o' h => by rw [← Option.some.inj h]; exact e⟩
  choose m hmo using hmm
  have hE : Evald d P g root θ (fun i => (P i).oper p d (m i)) g1 := by
    intro i hi
    obtain ⟨o, ho⟩ := hex i hi
    obtain ⟨ys, h1, h2⟩ := hpt.values i o hi ho
    obtain ⟨ys', h3, h4⟩ := hval i o hi ho
    rw [h1] at h3
    obtain rfl := Res.ok.inj h3
    exact ⟨_, h4, hmo i o ho, (argsOf_some ho).symm, h2, (outShapes_some ho).symm, by
      show o.grads.length = _
      rw [(hg.lens i o ho).2, results_some ho]⟩
  have hargs : ∀ i, Needs g root i → ∀ a ∈ g.argsOf i, Node g root a := by
    intro i hi a ha
    obtain ⟨o, ho⟩ := hex i hi
    rw [argsOf_some ho] at ha
    obtain ⟨-, o', ho', hv, -⟩ := hg.args i o ho a ha
    exact ⟨hi.snoc (by rw [argsOf_some ho]; exact ha), by rw [results_some ho']; exact hv⟩
  have hshapes : ∀ a, Node g root a → (g.nodeShape a).WF ∧ (g.nodeShape a).size ≤ 2 ^ 31 := by
    intro a ha
    obtain ⟨t, _, hh⟩ := hE.vals ha
    exact ⟨hh.wf, hh.small⟩
  -- local facts
  have hloc : ∀ i, Needs g root i → (P i).isLeaf = false →
      LocalAD d ((P i).oper p d (m i)) ((P i).real (g.argShapes i)) (g.argShapes i) (g.outShapes i) (g.argVal P θ i) := by
    intro i hi hl
    obtain ⟨o, ho⟩ := hex i hi
    obtain ⟨-, har, ⟨outs, hsh, hinit⟩, -⟩ := hops i o ho
    have houts : g.outShapes i = outs := by
      rw [outShapes_some ho, hinit, List.map_map]
      conv_rhs => rw [← List.map_id outs]
      exact List.map_congr_left fun _ _ => rfl
    have hmem : ∀ s, s ∈ g.argShapes i → s.WF ∧ s.size ≤ 2 ^ 31 := fun s hs => by
      obtain ⟨a, ha, rfl⟩ := List.mem_map.mp hs
      exact hshapes a (hargs i hi a ha)
    refine local_of_smooth (P i) hl (by rw [argShapes, List.length_map, argsOf_some ho]; exact har) (fun s hs => (hmem s hs).1)
      (fun s hs => (hmem s hs).2) (fun s hs => ?_) (by rw [argShapes, argsOf_some ho, houts]; exact hsh) (hsmooth i hi hl)
    obtain ⟨v, hv⟩ := List.getElem?_of_mem hs
    have hvl : v < g.results i := by rw [← outShapes_length]; exact (List.getElem?_eq_some_iff.mp hv).1
    have e := outShapes_get hvl
    rw [hv] at e
    rw [Option.some.inj e]
    exact hsmall i v hi hvl
  have hJex : ∀ i, ∃ J : (Nat → Arr ℝ) → Nat → Arr ℝ, Needs g root i → (P i).isLeaf = false →
      (∀ (V : ℝ → Nat → Arr ℝ) (t0 : ℝ) (δ : Nat → Arr ℝ), V t0 = g.argVal P θ i →
        (∀ k s, (g.argShapes i)[k]? = some s → Moves s (fun t => V t k) t0 (δ k)) →
        ∀ v s, (g.outShapes i)[v]? = some s → Moves s (fun t => (P i).real (g.argShapes i) (V t) v) t0 (J δ v)) ∧
      ∀ xs ys gys G, HoldsAll d xs (g.argShapes i) (g.argVal P θ i) → HoldsAll d ys (g.outShapes i) (evalR g P θ i) →
        HoldsAll d gys (g.outShapes i) G → ∃ cs : List (Nat × Arr ℝ),
        List.Forall₂ (fun u c => u.1 = c.1 ∧ ∃ s, (g.argShapes i)[c.1]? = some s ∧
          ∀ gx H, gx.Holds d s H → Yields (u.2 gx) d s (fun i b => H i b + c.2 i b)) (((P i).oper p d (m i)).bw xs ys gys (g.argShapes i)) cs ∧
        ∀ δ : Nat → Arr ℝ, (cs.map fun c => dot (shp (g.argShapes i) c.1) c.2 (δ c.1)).sum =
          ∑ v ∈ Finset.range (g.outShapes i).length, dot (shp (g.outShapes i) v) (G v) (J δ v) := by
    intro i
    by_cases hi : Needs g root i ∧ (P i).isLeaf = false
    · obtain ⟨-, J, h1, h2⟩ := hloc i hi.1 hi.2
      exact ⟨J, fun _ _ => ⟨h1, fun xs ys gys G a b c => h2 xs ys gys G a (by rw [← evalR_node hg hi.2]; exact b) c⟩⟩
    · exact ⟨fun _ _ _ _ => 0, fun a b => absurd ⟨a, b⟩ hi⟩
  choose J hJ using hJex
  have hA : Adj p d P g root θ (fun i => (P i).oper p d (m i)) J := by
    refine ⟨hshapes, hargs, fun i hi hl => ?_, fun i hi hl => (hJ i hi hl).2⟩
    obtain ⟨o, ho⟩ := hex i hi
    obtain ⟨h1, -, h3⟩ := leaf_facts hops ho hl
    exact ⟨by rw [argsOf_some ho, h1], fun xs ys gys ss => h3 (m i) xs ys gys ss⟩
  -- the order
  obtain ⟨pushed, hc, hpp, hrun⟩ := hb
  obtain ⟨hnd, hmem1, hord1⟩ := popsMax_spec hg1 hr1 hc hpp
  have hmem : ∀ j, j ∈ order ↔ Needs g root j := fun j => (hmem1 j).trans (hneeds j).symm
  have hord : ∀ l1 i l2, order = l1 ++ i :: l2 → ∀ a ∈ g.argsOf i, a.1 ∈ l2 := by
    intro l1 i l2 e a ha
    have hi : Needs g root i := (hmem i).mp (by rw [e]; simp)
    exact hord1 l1 i l2 e a (by rw [← (hran.same g.length).argsOf (hi.lt_length hg hr)]; exact ha)
  have hused' : ∀ i v, Needs g root i → i ≠ root → v < g.results i → ∃ j, Needs g root j ∧ (i, v) ∈ g.argsOf j := by
    intro i v hi hne hv
    by_cases h1 : 1 < g.results i
    · exact hused i v hi hne h1 hv
    · obtain ⟨k, a, hk, ha, rfl⟩ := hi.user hne
      have := (hargs k hk a ha).2
      exact ⟨k, hk, by rw [show ((a.1, v) : Nat × Nat) = a from Prod.ext rfl (by simp only; omega)]; exact ha⟩
  -- seeding
  have hgrad1 : ∀ a, Node g root a → g1.grad a = ok (Tensor.new d (g.nodeShape a)) := by
    intro a ha
    obtain ⟨o, ho⟩ := hex a.1 ha.1
    obtain ⟨ys, -, h4⟩ := hval a.1 o ha.1 ho
    refine grad_eq_ok.mpr ⟨_, h4, ?_⟩
    show o.grads[a.2]? = _
    obtain ⟨-, -, ⟨outs, -, hinit⟩, -⟩ := hops a.1 o ho
    have h2 := outShapes_get ha.2
    rw [outShapes_some ho] at h2
    rw [hfresh a.1 o ha.1 ho]
    rw [hinit] at h2 ⊢
    rw [List.getElem?_map] at h2 ⊢
    rw [List.getElem?_map] at h2
    cases h : outs[a.2]? with
    | none => rw [h] at h2; cases h2
    | some s =>
      rw [h] at h2
      have : s = g.nodeShape a := Option.some.inj h2
      rw [this]; rfl
  obtain ⟨oR, hoR⟩ := hex root (.refl root)
  obtain ⟨o1, ho1, -, -, -, -, hgl⟩ := hE root (.refl root)
  have hseed : ∃ gs, mapR (tensorLike p m0).ones o1.grads = ok gs := by
    refine mapR_ok fun t ht => ?_
    obtain ⟨v, hv⟩ := List.getElem?_of_mem ht
    have hvl : v < g.results root := by rw [← hgl]; exact (List.getElem?_eq_some_iff.mp hv).1
    have hn : Node g root (root, v) := ⟨.refl root, hvl⟩
    have e : g1.grad (root, v) = ok t := grad_eq_ok.mpr ⟨o1, ho1, hv⟩
    rw [hgrad1 _ hn] at e
    obtain rfl := Res.ok.inj e
    obtain ⟨y, hy, -⟩ := allocReset_ok (hshapes _ hn).1 (hshapes _ hn).2 p d m0 1
    exact ⟨y, hy⟩
  obtain ⟨gs, hgs⟩ := hseed
  obtain ⟨g2, hg2⟩ : ∃ g2, seed (tensorLike p m0) g1 root = ok g2 := by
    simp only [seed, at'_eq_ok.mpr ho1, ok_bind, hgs]
    exact ⟨_, rfl⟩
  obtain ⟨k2, s2⟩ := seed_spec hg2
  have hG : Grads d g root g2 (fun a => if a.1 = root then fun _ _ => 1 else fun _ _ => 0) (fun a => a.1 ≠ root ∧ ∀ j ∈ ([] : List Nat), a ∉ g.argsOf j) := by
    intro a ha
    obtain ⟨t', h1, h2⟩ := s2 a _ (hgrad1 a ha)
    refine ⟨t', h1, ?_⟩
    by_cases har : a.1 = root
    · rw [if_pos har] at h2
      obtain ⟨y, hy, hyh⟩ := allocReset_ok (hshapes _ ha).1 (hshapes _ ha).2 p d m0 1
      have : (tensorLike p m0).ones (Tensor.new d (g.nodeShape a)) = ok y := hy
      rw [this] at h2
      obtain rfl := Res.ok.inj h2
      left
      simp only [har, if_true]
      exact hyh
    · rw [if_neg har] at h2
      right
      simp only [har, if_false]
      exact ⟨(Res.ok.inj h2).symm, trivial, har, by simp⟩
  have hsk1 : ∀ i, Needs g root i → g1.sinkOf i = g.sinkOf i := by
    intro i hi
    obtain ⟨o, ho⟩ := hex i hi
    obtain ⟨ys, -, h4⟩ := hval i o hi ho
    simp [sinkOf, ho, h4]
  have hres1 : ∀ i, Needs g root i → (P i).isLeaf = true → g.results i = 1 := fun i hi hl => by
    obtain ⟨o, ho⟩ := hex i hi
    exact (leaf_facts hops ho hl).2.1
  obtain ⟨g3, H3, e3, s3, hG3, hphi⟩ := bw_run (p := p) (m0 := m0) hA hg order hnd hmem hord hused' order [] g2 _ rfl (hE.of_same k2.sameValues) hG
    (fun i hi t ht => by
      have hi' := (hmem i).mp hi
      rw [k2.sinkOf, hsk1 i hi'] at ht
      obtain ⟨h1, h2⟩ := hsink i t hi' ht
      exact ⟨by rw [hres1 i hi' h1]; exact Nat.one_pos, S i, h2⟩)
  rw [hg2, ok_bind, e3] at hrun
  subst hrun
  -- the gradients of leaves
  have hG4 : ∀ a, Node g root a → ∃ t, g3.grad a = ok t ∧ t.Holds d (g.nodeShape a) (H3 a) := by
    intro a ha
    obtain ⟨t, h1, h2⟩ := hG3 a ha
    refine ⟨t, h1, ?_⟩
    rcases h2 with h2 | ⟨-, -, h3, h4⟩
    · exact h2
    · obtain ⟨j, hj, hja⟩ := hused' a.1 a.2 ha.1 h3 ha.2
      exact absurd hja (h4 j ((hmem j).mpr hj))
  have hlf : ∀ i, i ∈ leaves P g root ↔ Needs g root i ∧ (P i).isLeaf = true := fun i => by
    unfold leaves
    rw [Finset.mem_filter, mem_needed hg hr]
  have hnode0 : ∀ i ∈ leaves P g root, Node g root (i, 0) := fun i hi => by
    obtain ⟨h1, h2⟩ := (hlf i).mp hi
    exact ⟨h1, by rw [hres1 i h1 h2]; exact Nat.one_pos⟩
  refine ⟨g3, fun i => H3 (i, 0), rfl, fun i hi => hG4 _ (hnode0 i hi), fun i t hi ht => ?_, fun Θ t0 η hΘ hη => ?_⟩
  · obtain ⟨-, -, -, hacc⟩ := backward_spec hg1 hr1 (g' := g3) (order := order) ⟨pushed, hc, hpp, by rw [hg2, ok_bind, e3]⟩
    obtain ⟨gy, t', h1, h2, h3⟩ := hacc.sinks_add i t ((hmem i).mpr hi) (by rw [hsk1 i hi]; exact ht)
    obtain ⟨hl, hS⟩ := hsink i t hi ht
    obtain ⟨u, hu, huh⟩ := hG4 (i, 0) (hnode0 i ((hlf i).mpr ⟨hi, hl⟩))
    obtain ⟨o, ho, hou⟩ := grad_eq_ok.mp hu
    have : gy = u := by
      simp only [gradsOf, ho] at h1
      rw [hou] at h1
      exact (Option.some.inj h1).symm
    subst this
    obtain ⟨y, hy, hyh⟩ := TF.addAssign_same hS huh p
    have e : (tensorLike p m0).addTo t gy = ok y := hy
    rw [e] at h2
    obtain rfl := Res.ok.inj h2
    exact ⟨y, h3, hyh⟩
  · -- the derivative
    let δ : Nat × Nat → Arr ℝ := fun a c b => deriv (fun t => evalR g P (Θ t) a.1 a.2 c b) t0
    have hV : ∀ i k, argVal g P (Θ t0) i k = g.argVal P θ i k := fun i k => by rw [hΘ]
    have hMoves : ∀ i, Needs g root i → ∀ v, v < g.results i →
        Moves (g.nodeShape (i, v)) (fun t => evalR g P (Θ t) i v) t0 (δ (i, v)) ∧
        ((P i).isLeaf = false → ∀ c b, (g.nodeShape (i, v)).Valid c b → δ (i, v) c b = J i (g.argD δ i) v c b) ∧
        ((P i).isLeaf = true → ∀ c b, (g.nodeShape (i, v)).Valid c b → δ (i, v) c b = η i c b) := by
      intro i
      induction i using Nat.strong_induction_on with
      | _ i ih =>
        intro hi v hv
        cases hl : (P i).isLeaf with
        | true =>
          have h0 : v = 0 := by have := hres1 i hi hl; omega
          subst h0
          have h1 := hη i ((hlf i).mpr ⟨hi, hl⟩)
          have h2 : ∀ c b, (g.nodeShape (i, 0)).Valid c b → HasDerivAt (fun t => evalR g P (Θ t) i 0 c b) (η i c b) t0 := fun c b hcb => by
            simp only [evalR_leaf hl]
            exact h1 c b hcb
          have h3 : ∀ c b, (g.nodeShape (i, 0)).Valid c b → δ (i, 0) c b = η i c b := fun c b hcb => (h2 c b hcb).deriv
          exact ⟨fun c b hcb => by rw [h3 c b hcb]; exact h2 c b hcb, fun h => (by cases h), fun _ => h3⟩
        | false =>
          have h1 := (hJ i hi hl).1 (fun t => g.argVal P (Θ t) i) t0 (g.argD δ i) (funext fun k => hV i k) (by
            intro k s hk
            rw [argShapes, List.getElem?_map] at hk
            cases ha : (g.argsOf i)[k]? with
            | none => rw [ha] at hk; cases hk
            | some a =>
              rw [ha] at hk
              obtain rfl := Option.some.inj hk
              have hma := List.mem_of_getElem? ha
              have := (ih a.1 (hg.lt hma) (hargs i hi a hma).1 a.2 (hargs i hi a hma).2).1
              simp only [argVal, argD, ha]
              exact this) v _ (outShapes_get hv)
          have h2 : ∀ c b, (g.nodeShape (i, v)).Valid c b → HasDerivAt (fun t => evalR g P (Θ t) i v c b) (J i (g.argD δ i) v c b) t0 := fun c b hcb => by
            simp only [evalR_node hg hl]
            exact h1 c b hcb
          have h3 : ∀ c b, (g.nodeShape (i, v)).Valid c b → δ (i, v) c b = J i (g.argD δ i) v c b := fun c b hcb => (h2 c b hcb).deriv
          exact ⟨fun c b hcb => by rw [h3 c b hcb]; exact h2 c b hcb, fun _ => h3, fun h => (by cases h)⟩
    have hpot := hphi δ fun i hi hl v hv => (hMoves i ((hmem i).mp hi) v hv).2.1 hl
    have hobj : HasDerivAt (fun t => objective P g root (Θ t)) (∑ v ∈ Finset.range (g.results root), total (g.nodeShape (root, v)) (δ (root, v))) t0 := by
      unfold objective total
      refine HasDerivAt.fun_sum fun v hv => HasDerivAt.fun_sum fun q hq => ?_
      have hvl := Finset.mem_range.mp hv
      exact (hMoves root (.refl root) v hvl).1 q.1 q.2 ((hshapes (root, v) ⟨.refl root, hvl⟩).1.mem_pos.mp hq)
    refine hobj.congr_deriv ?_
    have hleft : ∑ j ∈ order.toFinset.filter (fun j => j ∈ order ∨ (P j).isLeaf = true), wt g (fun a => if a.1 = root then fun _ _ => 1 else fun _ _ => 0) δ j =
        ∑ v ∈ Finset.range (g.results root), total (g.nodeShape (root, v)) (δ (root, v)) := by
      rw [Finset.sum_eq_single root]
      · unfold wt
        refine Finset.sum_congr rfl fun v _ => ?_
        simp only [if_true]
        exact dot_one _
      · intro j _ hj
        unfold wt
        refine Finset.sum_eq_zero fun v _ => ?_
        simp only [hj, if_false]
        exact dot_zero _
      · intro h
        exact absurd (by simp [(hmem root).mpr (.refl root)]) h
    rw [← hleft, hpot]
    refine Finset.sum_congr ?_ fun i hi => ?_
    · ext j
      rw [hlf, Finset.mem_filter, List.mem_toFinset, hmem]
    · obtain ⟨h1, h2⟩ := (hlf i).mp hi
      unfold wt
      rw [hres1 i h1 h2, Finset.sum_range_one]
      refine dot_congr (hshapes _ (hnode0 i hi)).1 fun c b hcb => ?_
      rw [(hMoves i h1 0 (hnode0 i hi).2).2.2 h2 c b hcb]

/-- The values `θ`, except that `x` is added to the element at `(c, b)` of leaf `i`. -/
noncomputable def shift (θ : Nat × Nat → Arr ℝ) (i : Nat) (c : Nat → Nat) (b : Nat) (x : ℝ) : Nat × Nat → Arr ℝ := by
  classical exact fun a c' b' => if a = (i, 0) ∧ c' = c ∧ b' = b then θ a c' b' + x else θ a c' b'

/-- C36, element by element: in the situation of `C36_backward_is_gradient`, each element of the gradient of an input or parameter is the
partial derivative of the sum of all elements of the results of `root` with respect to that element. -/
theorem C36_each_element {tr : List Nat} (hm : Made p d m0 P g tr) (hr : root < g.length)
    (hleaf : ∀ i, Needs g root i → (P i).isLeaf = true → ∃ t : Tensor ℝ, (P i).leafValue = some t ∧ t.Holds d (g.nodeShape (i, 0)) (θ (i, 0)))
    (hsmall : ∀ i v, Needs g root i → v < g.results i → (g.nodeShape (i, v)).size ≤ 2 ^ 31)
    (hsmooth : ∀ i, Needs g root i → (P i).isLeaf = false → (P i).Smooth (g.argShapes i) (g.argVal P θ i) (g.outShapes i))
    (hfresh : ∀ (i : Nat) (o : OpInfo (Tensor ℝ)), Needs g root i → g[i]? = some o → o.grads = o.init)
    (hused : ∀ i v, Needs g root i → i ≠ root → 1 < g.results i → v < g.results i → ∃ j, Needs g root j ∧ (i, v) ∈ g.argsOf j)
    {S : Nat → Arr ℝ}
    (hsink : ∀ i t, Needs g root i → g.sinkOf i = some t → (P i).isLeaf = true ∧ t.Holds d (g.nodeShape (i, 0)) (S i))
    {tr' order : List Nat} {r : Res (Graph (Tensor ℝ))} (hb : Backward (tensorLike p m0) g root tr' order r) :
    ∃ g', r = ok g' ∧ ∀ i ∈ leaves P g root, ∃ t D, g'.grad (i, 0) = ok t ∧ t.Holds d (g.nodeShape (i, 0)) D ∧
      ∀ c b, (g.nodeShape (i, 0)).Valid c b → HasDerivAt (fun x => objective P g root (shift θ i c b x)) (D c b) 0 := by
  classical
  obtain ⟨g', D, hr', hgr, -, hder⟩ := C36_backward_is_gradient hm hr hleaf hsmall hsmooth hfresh hused hsink hb
  refine ⟨g', hr', fun i hi => ?_⟩
  obtain ⟨t, ht, hh⟩ := hgr i hi
  refine ⟨t, D i, ht, hh, fun c b hv => ?_⟩
  have h := hder (shift θ i c b) 0 (fun j c' b' => if j = i ∧ c' = c ∧ b' = b then 1 else 0) (by
    funext a c' b'
    simp [shift]) (by
    intro j _ c' b' _
    unfold shift
    by_cases h : j = i ∧ c' = c ∧ b' = b
    · obtain ⟨rfl, rfl, rfl⟩ := h
      simp only [and_self, if_true]
      exact (hasDerivAt_id (0 : ℝ)).const_add _
    · have h' : ¬ ((j, 0) = (i, 0) ∧ c' = c ∧ b' = b) := fun ⟨e, h1, h2⟩ => h ⟨(Prod.mk.inj e).1, h1, h2⟩
      simp only [h, h', if_false]
      exact hasDerivAt_const _ _)
  refine h.congr_deriv ?_
  rw [Finset.sum_eq_single i]
  · unfold dot
    rw [Finset.sum_eq_single (c, b)]
    · simp
    · intro q _ hq
      have : ¬ (q.1 = c ∧ q.2 = b) := fun ⟨h1, h2⟩ => hq (Prod.ext h1 h2)
      simp [this]
    · intro hq
      exact absurd (hh.wf.mem_pos.mpr hv) hq
  · intro j _ hj
    simp only [hj, false_and, if_false]
    rw [dot_comm]; exact dot_zero _
  · intro h
    exact absurd hi h

end Graph
end Verif
