import Verif.SampleGraph

/-!
# Property C77: the gradients of a minibatch are the sums of the gradients of its samples
-/

set_option linter.unusedSectionVars false

namespace Verif
open Res
attribute [local instance] realFlt

theorem total_congr' {s : Shape} (hs : s.WF) {f f' : Arr ℝ} (h : ∀ c b, s.Valid c b → f c b = f' c b) : total s f = total s f' :=
  Finset.sum_congr rfl fun q hq => h q.1 q.2 (hs.mem_pos.mp hq)

/-- The sum over a minibatch is the sum over its samples. -/
theorem total_split {s : Shape} (hs : s.WF) (f : Arr ℝ) : total s f = ∑ b ∈ Finset.range s.batch, total (s.sel 1) (fun c _ => f c b) := by
  unfold total
  rw [← Finset.sum_product' (f := fun b (q : (Nat → Nat) × Nat) => f q.1 b)]
  have h1 := hs.sel (le_refl 1)
  have hb : (s.sel 1).batch = 1 := by rw [Shape.sel_batch]; split <;> rfl
  refine Finset.sum_nbij' (fun q => (q.2, (q.1, 0))) (fun q => (q.2.1, q.1)) (fun q hq => ?_) (fun q hq => ?_) (fun q _ => rfl) (fun q hq => ?_)
    (fun q _ => rfl)
  · have := hs.mem_pos.mp hq
    exact Finset.mem_product.mpr ⟨Finset.mem_range.mpr this.2, h1.mem_pos.mpr ⟨this.1, by rw [hb]; exact Nat.one_pos⟩⟩
  · obtain ⟨q1, q2⟩ := Finset.mem_product.mp hq
    exact hs.mem_pos.mpr ⟨(h1.mem_pos.mp q2).1, Finset.mem_range.mp q1⟩
  · obtain ⟨q1, q2⟩ := Finset.mem_product.mp hq
    have := (h1.mem_pos.mp q2).2
    rw [hb] at this
    exact Prod.ext rfl (Prod.ext rfl (show 0 = q.2.2 by omega))

theorem total_sampled {B b : Nat} (hb : b < B) {s : Shape} (hs : s.WF) (hB : s.batch = B) {f f' : Arr ℝ} (h : Sampled B b s f f') :
    total (s.sel 1) f' = total (s.sel 1) (fun c _ => f c b) := by
  refine total_congr' (hs.sel (le_refl 1)) fun c k hv => ?_
  have hk : k = 0 := by have := hv.2; rw [Shape.sel_batch] at this; split at this <;> omega
  have e : bb s b = b := by unfold bb; split <;> omega
  have := h.2 c hv.1
  rw [e] at this
  rw [hk]; exact this

namespace Graph
variable {p : Profile} {d B : Nat} {m0 : Nat → ℝ} {P : Nat → NodeOp ℝ} {g : Graph (Tensor ℝ)} {P' : Nat → Nat → NodeOp ℝ} {g' : Nat → Graph (Tensor ℝ)}
  {root : Nat} {k : ℝ} {θ : Nat × Nat → Arr ℝ} {θ' : Nat → Nat × Nat → Arr ℝ}

theorem results_of {i : Nat} {s : Shape} (h : g.outShapes i = [s]) : g.results i = 1 ∧ g.nodeShape (i, 0) = s := by
  have h1 : g.results i = 1 := by rw [← outShapes_length, h]; rfl
  have := outShapes_get (g := g) (i := i) (v := 0) (by omega)
  rw [h] at this
  exact ⟨h1, (Option.some.inj this).symm⟩

theorem sum_node {tr : List Nat} (hm : Made p d m0 P g tr) {i : Nat} (hi : i < g.length) (hP : P i = .batchSum) {a : Nat × Nat} (ha : g.argsOf i = [a])
    (hw : (g.nodeShape a).WF) (θ : Nat × Nat → Arr ℝ) : g.results i = 1 ∧ g.nodeShape (i, 0) = (g.nodeShape a).sel 1 ∧
      evalR g P θ i 0 = fun c _ => ∑ b ∈ Finset.range (g.nodeShape a).batch, evalR g P θ a.1 a.2 c b := by
  obtain ⟨-, hs⟩ := hm.shapes hi
  have hss : g.argShapes i = [g.nodeShape a] := by rw [argShapes, ha]; rfl
  rw [hP, hss] at hs
  obtain ⟨r, hr, ho⟩ := single_ok (R := (g.nodeShape a).resizeBatch 1) hs
  obtain ⟨t, e, ht⟩ := hw.resizeBatch_is (b := 1) (le_refl _)
  rw [hr] at e
  obtain rfl := Res.ok.inj e
  have er : r = (g.nodeShape a).sel 1 := ht.1.ext (hw.sel (le_refl 1)) (by rw [ht.2.2, Shape.sel_batch]; split <;> rfl) ht.2.1
  obtain ⟨h1, h2⟩ := results_of ho
  refine ⟨h1, h2.trans er, ?_⟩
  rw [evalR_node hm.hist.inv.wf (by rw [hP]; rfl), hP, hss]
  simp only [NodeOp.real, shp, List.getD_cons_zero, argVal, ha, List.getElem?_cons_zero]

theorem div_node {tr : List Nat} (hm : Made p d m0 P g tr) {i : Nat} (hi : i < g.length) {q : ℝ} (hP : P i = .cn .divR q) {a : Nat × Nat}
    (ha : g.argsOf i = [a]) (θ : Nat × Nat → Arr ℝ) : g.results i = 1 ∧ g.nodeShape (i, 0) = g.nodeShape a ∧
      evalR g P θ i 0 = fun c b => evalR g P θ a.1 a.2 c b / q := by
  obtain ⟨-, hs⟩ := hm.shapes hi
  have hss : g.argShapes i = [g.nodeShape a] := by rw [argShapes, ha]; rfl
  rw [hP, hss] at hs
  obtain ⟨h1, h2⟩ := results_of (Res.ok.inj hs).symm
  refine ⟨h1, h2, ?_⟩
  rw [evalR_node hm.hist.inv.wf (by rw [hP]; rfl), hP, hss]
  simp only [NodeOp.real, argVal, ha, List.getElem?_cons_zero]
  rfl

theorem total_div (s : Shape) (f : Arr ℝ) (q : ℝ) : total s (fun c b => f c b / q) = total s f / q := by
  unfold total
  rw [Finset.sum_div]

/-- The objective of a minibatch is made of the objectives of the samples. -/
theorem LossOf.objective (hL : LossOf d B P g P' g' root k) (hB : 0 < B) {tr : List Nat} (hm : Made p d m0 P g tr)
    (hm' : ∀ b, b < B → ∃ tr', Made p d m0 (P' b) (g' b) tr') (hr : root < g.length) (hr' : ∀ b, b < B → root < (g' b).length)
    (hθ : ∀ b, b < B → ∀ i, Needs g root i → (P i).isLeaf = true → Sampled B b (g.nodeShape (i, 0)) (θ (i, 0)) (θ' b (i, 0))) :
    Graph.objective P g root θ = k * ∑ b ∈ Finset.range B, Graph.objective (P' b) (g' b) root (θ' b) := by
  have hg := hm.hist.inv.wf
  -- a node with a batch for every sample, in the minibatch and in the samples
  have at_node : ∀ a : Nat × Nat, Needs g root a.1 → (∀ b, b < B → SampleOf d B b P g (P' b) (g' b) a.1) → (g.nodeShape a).batch = B → a.2 < g.results a.1 →
      a.1 < g.length → (∀ b, b < B → a.1 < (g' b).length) → (g.nodeShape a).WF ∧ ∀ b, b < B → (g' b).nodeShape a = (g.nodeShape a).sel 1 ∧
        total ((g.nodeShape a).sel 1) (evalR (g' b) (P' b) (θ' b) a.1 a.2) = total ((g.nodeShape a).sel 1) (fun c _ => evalR g P θ a.1 a.2 c b) ∧
        (g' b).results a.1 = g.results a.1 ∧ a.2 < (g' b).results a.1 ∧
        ∀ c, (∀ j, c j < (g.nodeShape a).get j) → evalR (g' b) (P' b) (θ' b) a.1 a.2 c 0 = evalR g P θ a.1 a.2 c b := by
    intro a hna hS hbb hv hal hal'
    obtain ⟨tr0, hm0⟩ := hm' 0 hB
    have hw := ((hS 0 hB).node_shape hB hm hm0 hal (hal' 0 hB) (.refl _) hv).2.2.1
    refine ⟨hw, fun b hb => ?_⟩
    obtain ⟨trb, hmb⟩ := hm' b hb
    obtain ⟨q1, q2, -, -⟩ := (hS b hb).node_shape hb hm hmb hal (hal' b hb) (.refl _) hv
    have hev := (hS b hb).eval hb hm hmb hal (hal' b hb) (fun i hi hl => hθ b hb i (hna.trans hi) hl) a.1 (.refl _) a.2 hv
    have hres : (g' b).results a.1 = g.results a.1 := by
      rw [← outShapes_length, ((hS b hb).shapes hb hm hmb hal (hal' b hb) a.1 (.refl _)).1, List.length_map, outShapes_length]
    refine ⟨q2, total_sampled hb hw hbb hev, hres, q1, fun c hc => ?_⟩
    have e : bb (g.nodeShape a) b = b := by unfold bb; split <;> omega
    have := hev.2 c hc
    rwa [e] at this
  have sum_of : ∀ (i : Nat) (a : Nat × Nat), Needs g root i → i < g.length → (∀ b, b < B → i < (g' b).length) → P i = .batchSum → g.argsOf i = [a] →
      (∀ b, b < B → SampleOf d B b P g (P' b) (g' b) a.1) → (g.nodeShape a).batch = B →
      (∀ b, b < B → P' b i = .batchSum ∧ (g' b).argsOf i = [a]) →
      g.results i = 1 ∧ total (g.nodeShape (i, 0)) (evalR g P θ i 0) = ∑ b ∈ Finset.range B, total ((g' b).nodeShape (i, 0)) (evalR (g' b) (P' b) (θ' b) i 0) ∧
        ∀ b, b < B → (g' b).results i = 1 := by
    intro i a hni hi hi' hP ha hS hbb hP'
    have hmem : a ∈ g.argsOf i := by rw [ha]; simp
    have hlt := hg.lt hmem
    obtain ⟨hw, hfor⟩ := at_node a (hni.snoc hmem) hS hbb (arg_results hg hmem) (by omega) (fun b hb => lt_trans hlt (hi' b hb))
    obtain ⟨h1, h2, h3⟩ := sum_node hm hi hP ha hw θ
    have each : ∀ b, b < B → (g' b).results i = 1 ∧ total ((g' b).nodeShape (i, 0)) (evalR (g' b) (P' b) (θ' b) i 0) =
        total ((g.nodeShape a).sel 1) (fun c _ => evalR g P θ a.1 a.2 c b) := by
      intro b hb
      obtain ⟨q1, q2, -, -, q5⟩ := hfor b hb
      obtain ⟨trb, hmb⟩ := hm' b hb
      have hb1 : ((g.nodeShape a).sel 1).batch = 1 := by rw [Shape.sel_batch]; split <;> rfl
      obtain ⟨k1, k2, k3⟩ := sum_node hmb (hi' b hb) (hP' b hb).1 (hP' b hb).2 (by rw [q1]; exact hw.sel (le_refl 1)) (θ' b)
      rw [k2, k3, q1, sel_one hb1, hb1]
      refine ⟨k1, ?_⟩
      simp only [Finset.sum_range_one]
      exact total_congr' (hw.sel (le_refl 1)) fun c _ hv => q5 c hv.1
    refine ⟨h1, ?_, fun b hb => (each b hb).1⟩
    rw [h2, h3]
    rw [Finset.sum_congr rfl fun b hb => (each b (Finset.mem_range.mp hb)).2]
    unfold total
    simp only [hbb]
    exact Finset.sum_comm
  cases hL with
  | plain hS hbb =>
    rw [one_mul]
    unfold Graph.objective
    have h : ∀ v ∈ Finset.range (g.results root), total (g.nodeShape (root, v)) (evalR g P θ root v) =
        ∑ b ∈ Finset.range B, total ((g' b).nodeShape (root, v)) (evalR (g' b) (P' b) (θ' b) root v) := by
      intro v hv
      have hv := Finset.mem_range.mp hv
      obtain ⟨hw, hfor⟩ := at_node (root, v) (.refl _) hS (hbb v hv) hv hr hr'
      rw [total_split hw, hbb v hv]
      refine Finset.sum_congr rfl fun b hb => ?_
      obtain ⟨q1, q2, -⟩ := hfor b (Finset.mem_range.mp hb)
      rw [q1, q2]
    rw [Finset.sum_congr rfl h, Finset.sum_comm]
    refine Finset.sum_congr rfl fun b hb => ?_
    have hb := Finset.mem_range.mp hb
    obtain ⟨trb, hmb⟩ := hm' b hb
    rw [show (g' b).results root = g.results root by
      rw [← outShapes_length, ((hS b hb).shapes hb hm hmb hr (hr' b hb) root (.refl _)).1, List.length_map, outShapes_length]]
  | @sum a hS hbb hP ha hP' =>
    obtain ⟨h1, h2, h3⟩ := sum_of root a (.refl _) hr hr' hP ha hS hbb hP'
    rw [one_mul]
    unfold Graph.objective
    rw [h1, Finset.sum_range_one, h2]
    refine Finset.sum_congr rfl fun b hb => ?_
    rw [h3 b (Finset.mem_range.mp hb), Finset.sum_range_one]
  | @mean s a hS hbb hPs has hP ha hP' =>
    have hmem : (s, 0) ∈ g.argsOf root := by rw [ha]; simp
    have hlt : s < root := hg.lt hmem
    obtain ⟨h1, h2, h3⟩ := sum_of s a (Needs.arg hmem (.refl _)) (by omega) (fun b hb => lt_trans hlt (hr' b hb)) hPs has hS hbb
      fun b hb => ⟨(hP' b hb).1, (hP' b hb).2.1⟩
    obtain ⟨k1, k2, k3⟩ := div_node hm hr hP ha θ
    unfold Graph.objective
    rw [k1, Finset.sum_range_one, k2, k3, total_div, h2, Finset.mul_sum, Finset.sum_div]
    refine Finset.sum_congr rfl fun b hb => ?_
    have hb := Finset.mem_range.mp hb
    obtain ⟨trb, hmb⟩ := hm' b hb
    obtain ⟨j1, j2, j3⟩ := div_node hmb (hr' b hb) (hP' b hb).2.2.1 (hP' b hb).2.2.2 (θ' b)
    rw [j1, Finset.sum_range_one, j2, j3, total_div]
    push_cast
    ring

theorem SampleOf.mono {b : Nat} {Q : Nat → NodeOp ℝ} {h : Graph (Tensor ℝ)} {node i : Nat} (hS : SampleOf d B b P g Q h node) (hi : Needs g node i) :
    SampleOf d B b P g Q h i :=
  ⟨fun j hj => hS.args j (hi.trans hj), fun j hj => hS.ops j (hi.trans hj), fun j hj => hS.leaf j (hi.trans hj)⟩

theorem SampleOf.needs {b : Nat} {Q : Nat → NodeOp ℝ} {h : Graph (Tensor ℝ)} {node i : Nat} (hS : SampleOf d B b P g Q h node) (hi : Needs g node i) :
    Needs h node i := by
  induction hi with
  | refl => exact .refl _
  | @arg i j a ha hn ih =>
    exact .arg (by rw [hS.args _ (.refl _)]; exact ha) (ih (hS.mono (Needs.arg ha (.refl _))))

/-- Every input and parameter is in the part that treats the samples separately. -/
theorem LossOf.cover (hL : LossOf d B P g P' g' root k) {i : Nat} (hi : Needs g root i) (hl : (P i).isLeaf = true) :
    ∃ node, Needs g root node ∧ Needs g node i ∧ ∀ b, b < B → SampleOf d B b P g (P' b) (g' b) node ∧ Needs (g' b) root node := by
  cases hL with
  | plain hS _ => exact ⟨root, .refl _, hi, fun b hb => ⟨hS b hb, .refl _⟩⟩
  | @sum a hS hbb hP ha hP' =>
    refine ⟨a.1, .arg (by rw [ha]; simp) (.refl _), ?_, fun b hb => ⟨hS b hb, .arg (by rw [(hP' b hb).2]; simp) (.refl _)⟩⟩
    cases hi with
    | refl => rw [hP] at hl; cases hl
    | @arg _ _ a' ha' hn =>
      rw [ha] at ha'
      rw [← List.mem_singleton.mp ha']; exact hn
  | @mean s a hS hbb hPs has hP ha hP' =>
    refine ⟨a.1, .arg (a := (s, 0)) (by rw [ha]; simp) (.arg (by rw [has]; simp) (.refl _)), ?_, fun b hb => ⟨hS b hb,
      .arg (a := (s, 0)) (by rw [(hP' b hb).2.2.2]; simp) (.arg (by rw [(hP' b hb).2.1]; simp) (.refl _))⟩⟩
    cases hi with
    | refl => rw [hP] at hl; cases hl
    | @arg _ _ a' ha' hn =>
      rw [ha] at ha'
      obtain rfl := List.mem_singleton.mp ha'
      cases hn with
      | refl => rw [hPs] at hl; cases hl
      | @arg _ _ a'' ha'' hn' =>
        rw [has] at ha''
        rw [← List.mem_singleton.mp ha'']; exact hn'

theorem Ready.grads {p : Profile} (h : Ready p d m0 P g root θ) {tr order : List Nat} {r : Res (Graph (Tensor ℝ))}
    (hb : Backward (tensorLike p m0) g root tr order r) : ∃ g1, r = ok g1 ∧ ∀ i, i ∈ leaves P g root → ∃ t D, g1.grad (i, 0) = ok t ∧
      t.Holds d (g.nodeShape (i, 0)) D ∧
      ∀ c b, (g.nodeShape (i, 0)).Valid c b → HasDerivAt (fun x => Graph.objective P g root (shift θ i c b x)) (D c b) 0 := by
  classical
  obtain ⟨tr0, hm⟩ := h.made
  have : ∀ i, ∃ S : Arr ℝ, ∀ t, Needs g root i → g.sinkOf i = some t → (P i).isLeaf = true ∧ t.Holds d (g.nodeShape (i, 0)) S := by
    intro i
    by_cases hi : ∃ t, Needs g root i ∧ g.sinkOf i = some t
    · obtain ⟨t, hn, ht⟩ := hi
      obtain ⟨q1, S, q2⟩ := h.sink i t hn ht
      refine ⟨S, fun t' _ ht' => ?_⟩
      rw [ht] at ht'
      obtain rfl := Option.some.inj ht'
      exact ⟨q1, q2⟩
    · exact ⟨fun _ _ => 0, fun t hn ht => absurd ⟨t, hn, ht⟩ hi⟩
  choose S hS using this
  exact C36_each_element hm h.exists_root h.leaf h.small h.smooth h.fresh h.used (S := S) hS hb

/-- C77.  In the situation of C36, for the graph of a minibatch of `B` samples and for the graphs of the single samples, with a loss as in
`LossOf`: every execution of `backward` completes in all of them.  The gradient of a leaf that the samples share (a parameter) is the sum over
the samples of its gradients in their graphs — for `batch_mean` the mean —; and batch `b` of the gradient of an input of the minibatch is the
gradient of the input of sample `b` (divided by `B` for the mean). -/
theorem C77_minibatch_gradient (hB : 0 < B) (hL : LossOf d B P g P' g' root k) (h : Ready p d m0 P g root θ)
    (h' : ∀ b, b < B → Ready p d m0 (P' b) (g' b) root (θ' b))
    {tr order : List Nat} {r : Res (Graph (Tensor ℝ))} (hb : Backward (tensorLike p m0) g root tr order r)
    {tr' order' : Nat → List Nat} {r' : Nat → Res (Graph (Tensor ℝ))}
    (hb' : ∀ b, b < B → Backward (tensorLike p m0) (g' b) root (tr' b) (order' b) (r' b)) :
    ∃ (g1 : Graph (Tensor ℝ)) (g1' : Nat → Graph (Tensor ℝ)), r = ok g1 ∧ (∀ b, b < B → r' b = ok (g1' b)) ∧
      ∀ i, i ∈ leaves P g root → ∃ (t : Tensor ℝ) (D : Arr ℝ) (t' : Nat → Tensor ℝ) (D' : Nat → Arr ℝ),
        g1.grad (i, 0) = ok t ∧ t.Holds d (g.nodeShape (i, 0)) D ∧
        (∀ b, b < B → (g1' b).grad (i, 0) = ok (t' b) ∧ (t' b).Holds d ((g' b).nodeShape (i, 0)) (D' b)) ∧
        ((g.nodeShape (i, 0)).batch = 1 → ∀ c, (g.nodeShape (i, 0)).Valid c 0 → D c 0 = k * ∑ b ∈ Finset.range B, D' b c 0) ∧
        ((g.nodeShape (i, 0)).batch = B → ∀ c b, (g.nodeShape (i, 0)).Valid c b → D c b = k * D' b c 0) := by
  classical
  obtain ⟨tr0, hm⟩ := h.made
  have hg := hm.hist.inv.wf
  obtain ⟨g1, hr1, hgr⟩ := h.grads hb
  have hall : ∀ b, ∃ g1' : Graph (Tensor ℝ), b < B → r' b = ok g1' ∧ ∀ i, i ∈ leaves (P' b) (g' b) root → ∃ t D, g1'.grad (i, 0) = ok t ∧
      t.Holds d ((g' b).nodeShape (i, 0)) D ∧
      ∀ c b', ((g' b).nodeShape (i, 0)).Valid c b' → HasDerivAt (fun x => Graph.objective (P' b) (g' b) root (shift (θ' b) i c b' x)) (D c b') 0 := by
    intro b
    by_cases hbB : b < B
    · obtain ⟨q, q1, q2⟩ := (h' b hbB).grads (hb' b hbB)
      exact ⟨q, fun _ => ⟨q1, q2⟩⟩
    · exact ⟨g1, fun q => absurd q hbB⟩
  choose g1' hg1' using hall
  refine ⟨g1, g1', hr1, fun b hbB => (hg1' b hbB).1, fun i hi => ?_⟩
  have hle : ∀ {j}, Needs g root j → j ≤ root := fun hj => hj.le hg
  have hmem : ∀ j, j ∈ leaves P g root ↔ Needs g root j ∧ (P j).isLeaf = true := fun j => by
    unfold leaves; rw [Finset.mem_filter, mem_needed hg h.exists_root]
  -- the leaves of the samples
  have hleaf : ∀ j, Needs g root j → (P j).isLeaf = true → ∀ b, b < B → j ∈ leaves (P' b) (g' b) root ∧
      (g' b).nodeShape (j, 0) = (g.nodeShape (j, 0)).sel 1 ∧ Sampled B b (g.nodeShape (j, 0)) (θ (j, 0)) (θ' b (j, 0)) := by
    intro j hj hl b hbB
    obtain ⟨node, n1, n2, n3⟩ := hL.cover hj hl
    obtain ⟨hS, hn'⟩ := n3 b hbB
    obtain ⟨trb, hmb⟩ := (h' b hbB).made
    have hgb := hmb.hist.inv.wf
    obtain ⟨hl', x, x', hx, hx', hsam⟩ := hS.leaf j n2 hl
    have hnj : Needs (g' b) root j := hn'.trans (hS.needs n2)
    have hroot := h.exists_root
    have hroot' := (h' b hbB).exists_root
    have hnl : node < g.length := by have := hle n1; omega
    have hnl' : node < (g' b).length := by have := hle n1; omega
    obtain ⟨t, ht, hth⟩ := h.leaf j hj hl
    obtain ⟨t', ht', hth'⟩ := (h' b hbB).leaf j hnj hl'
    rw [hx] at ht
    rw [hx'] at ht'
    obtain rfl := Option.some.inj ht
    obtain rfl := Option.some.inj ht'
    obtain ⟨-, hs⟩ := hm.shapes (i := j) (by have := hle hj; omega)
    rw [leaf_shapes hx] at hs
    obtain ⟨q1, q2⟩ := results_of (Res.ok.inj hs).symm
    refine ⟨?_, (hS.node_shape hbB hm hmb hnl hnl' n2 (by omega)).2.1, hsam.sampled hbB hth hth'⟩
    unfold leaves
    rw [Finset.mem_filter, mem_needed hgb hroot']
    exact ⟨hnj, hl'⟩
  obtain ⟨hni, hli⟩ := (hmem i).mp hi
  obtain ⟨t, D, ht, hD, hder⟩ := hgr i hi
  have hall : ∀ b, ∃ (t' : Tensor ℝ) (D' : Arr ℝ), b < B → (g1' b).grad (i, 0) = ok t' ∧ t'.Holds d ((g' b).nodeShape (i, 0)) D' ∧
      ∀ c b', ((g' b).nodeShape (i, 0)).Valid c b' → HasDerivAt (fun x => Graph.objective (P' b) (g' b) root (shift (θ' b) i c b' x)) (D' c b') 0 := by
    intro b
    by_cases hbB : b < B
    · obtain ⟨t', D', q⟩ := (hg1' b hbB).2 i (hleaf i hni hli b hbB).1
      exact ⟨t', D', fun _ => q⟩
    · exact ⟨t, D, fun q => absurd q hbB⟩
  choose t' D' ht' using hall
  have hvalid : ∀ c b b', b < B → (g.nodeShape (i, 0)).Valid c b' → ((g' b).nodeShape (i, 0)).Valid c 0 := by
    intro c b b' hbB hv
    rw [(hleaf i hni hli b hbB).2.1]
    exact ⟨hv.1, by rw [Shape.sel_batch]; split <;> omega⟩
  have hobj : ∀ (u : Nat × Nat → Arr ℝ) (u' : Nat → Nat × Nat → Arr ℝ),
      (∀ b, b < B → ∀ j, Needs g root j → (P j).isLeaf = true → Sampled B b (g.nodeShape (j, 0)) (u (j, 0)) (u' b (j, 0))) →
      Graph.objective P g root u = k * ∑ b ∈ Finset.range B, Graph.objective (P' b) (g' b) root (u' b) := fun u u' hu =>
    hL.objective hB hm (fun b hbB => (h' b hbB).made) h.exists_root (fun b hbB => (h' b hbB).exists_root) hu
  refine ⟨t, D, t', D', ht, hD, fun b hbB => ⟨(ht' b hbB).1, (ht' b hbB).2.1⟩, fun h1 c hv => ?_, fun h1 c b0 hv => ?_⟩
  · have e : (fun x => Graph.objective P g root (shift θ i c 0 x)) =
        fun x => k * ∑ b ∈ Finset.range B, Graph.objective (P' b) (g' b) root (shift (θ' b) i c 0 x) := by
      funext x
      refine hobj _ _ fun b hbB j hj hl => ?_
      have hsam := (hleaf j hj hl b hbB).2.2
      refine ⟨hsam.1, fun c' hc' => ?_⟩
      by_cases hji : j = i
      · subst hji
        have e0 : bb (g.nodeShape (j, 0)) b = 0 := by unfold bb; rw [if_pos h1]
        have := hsam.2 c' hc'
        rw [e0] at this ⊢
        simp only [shift, true_and, and_true, this]
      · have hne : ¬ ((j, 0) : Nat × Nat) = (i, 0) := fun q => hji (Prod.mk.inj q).1
        simp only [shift, hne, false_and, if_false]
        exact hsam.2 c' hc'
    have h2 := hder c 0 hv
    rw [e] at h2
    have h3 : HasDerivAt (fun x => k * ∑ b ∈ Finset.range B, Graph.objective (P' b) (g' b) root (shift (θ' b) i c 0 x))
        (k * ∑ b ∈ Finset.range B, D' b c 0) 0 := by
      refine HasDerivAt.const_mul k (HasDerivAt.fun_sum fun b hbm => ?_)
      have hbB := Finset.mem_range.mp hbm
      exact (ht' b hbB).2.2 c 0 (hvalid c b 0 hbB hv)
    exact h2.unique h3
  · have hb0 : b0 < B := by rw [← h1]; exact hv.2
    have e : (fun x => Graph.objective P g root (shift θ i c b0 x)) =
        fun x => k * ∑ b ∈ Finset.range B, Graph.objective (P' b) (g' b) root (if b = b0 then shift (θ' b) i c 0 x else θ' b) := by
      funext x
      refine hobj _ _ fun b hbB j hj hl => ?_
      have hsam := (hleaf j hj hl b hbB).2.2
      refine ⟨hsam.1, fun c' hc' => ?_⟩
      by_cases hji : j = i
      · subst hji
        have e0 : bb (g.nodeShape (j, 0)) b = b := by unfold bb; split <;> omega
        have := hsam.2 c' hc'
        rw [e0] at this ⊢
        by_cases hbb : b = b0
        · simp only [shift, hbb, if_true, true_and, and_true] at this ⊢
          rw [this]
        · simp only [shift, hbb, if_false, and_false]
          exact this
      · have hne : ¬ ((j, 0) : Nat × Nat) = (i, 0) := fun q => hji (Prod.mk.inj q).1
        have : (if b = b0 then shift (θ' b) i c 0 x else θ' b) (j, 0) c' 0 = θ' b (j, 0) c' 0 := by
          split
          · simp only [shift, hne, false_and, if_false]
          · rfl
        rw [this]
        simp only [shift, hne, false_and, if_false]
        exact hsam.2 c' hc'
    have h2 := hder c b0 hv
    rw [e] at h2
    have h3 : HasDerivAt (fun x => k * ∑ b ∈ Finset.range B, Graph.objective (P' b) (g' b) root (if b = b0 then shift (θ' b) i c 0 x else θ' b))
        (k * ∑ b ∈ Finset.range B, if b = b0 then D' b c 0 else 0) 0 := by
      refine HasDerivAt.const_mul k (HasDerivAt.fun_sum fun b hbm => ?_)
      have hbB := Finset.mem_range.mp hbm
      by_cases hbb : b = b0
      · simp only [hbb, if_true]
        exact (ht' b0 hb0).2.2 c 0 (hvalid c b0 b0 hb0 hv)
      · simp only [hbb, if_false]
        exact hasDerivAt_const _ _
    have h4 := h2.unique h3
    rw [Finset.sum_ite_eq' (Finset.range B) b0, if_pos (Finset.mem_range.mpr hb0)] at h4
    exact h4

end Graph
end Verif
