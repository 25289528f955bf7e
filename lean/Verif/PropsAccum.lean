import Verif.PropsTrain
import Verif.PropsSample

/-!
# Property C78: gradient accumulation

Several graphs that use the same parameters, one after another: `backward` in each, and then one update.
-/

set_option linter.unusedSectionVars false

namespace Verif
open Res
attribute [local instance] realFlt

/-! ## Specification -/

/-- `backward` on `root` can start: as in `Iteration`, but with any gradients in the parameters. -/
structure Graph.Pass (p : Profile) (d : Nat) (m0 : Nat → ℝ) (P : Nat → NodeOp ℝ) (g : Graph (Tensor ℝ)) (root : Nat)
    (θ : Nat × Nat → Arr ℝ) (leaf : Nat → Nat) (qs : List (Param ℝ)) (as : List (PArr ℝ)) : Prop where
  made : ∃ tr, Graph.Made p d m0 P g tr
  root_lt : root < g.length
  inGraph : Graph.InGraph P g qs leaf
  input : ∀ i, Graph.Needs g root i → (P i).isLeaf = true → (∀ k, k < qs.length → leaf k ≠ i) →
    ∃ t : Tensor ℝ, (P i).leafValue = some t ∧ t.Holds d (g.nodeShape (i, 0)) (θ (i, 0))
  small : ∀ i v, Graph.Needs g root i → v < g.results i → (g.nodeShape (i, v)).size ≤ 2 ^ 31
  smooth : ∀ i, Graph.Needs g root i → (P i).isLeaf = false →
    (P i).Smooth (g.argShapes i) (g.argVal P (setLeaves θ leaf as.length (PArr.vals as)) i) (g.outShapes i)
  fresh : ∀ (i : Nat) (o : OpInfo (Tensor ℝ)), Graph.Needs g root i → g[i]? = some o → o.grads = o.init
  used : ∀ i v, Graph.Needs g root i → i ≠ root → 1 < g.results i → v < g.results i → ∃ j, Graph.Needs g root j ∧ (i, v) ∈ g.argsOf j

/-- The parameters with `D` added to their gradients. -/
def PArr.gained (D : Nat → Arr ℝ) (as : List (PArr ℝ)) : List (PArr ℝ) := as.mapIdx fun k a => { a with grad := fun c b => a.grad c b + D k c b }

/-! ## Lemmas -/

/-- The gradients of the parameters. -/
def PArr.grads (as : List (PArr ℝ)) (k : Nat) : Arr ℝ := match as[k]? with
  | some a => a.grad
  | none => fun _ _ => 0

theorem PArr.gained_get (D : Nat → Arr ℝ) (as : List (PArr ℝ)) (k : Nat) : (PArr.gained D as)[k]? =
    (as[k]?).map fun a => { a with grad := fun c b => a.grad c b + D k c b } := by
  rw [PArr.gained, List.getElem?_mapIdx]

theorem PArr.gained_length (D : Nat → Arr ℝ) (as : List (PArr ℝ)) : (PArr.gained D as).length = as.length := by simp [PArr.gained]

theorem PArr.gained_shapes (D : Nat → Arr ℝ) (as : List (PArr ℝ)) : (PArr.gained D as).map PArr.shape = as.map PArr.shape := by
  refine List.ext_getElem? fun k => ?_
  rw [List.getElem?_map, List.getElem?_map, PArr.gained_get]
  cases as[k]? <;> rfl

theorem PArr.gained_vals (D : Nat → Arr ℝ) (as : List (PArr ℝ)) : PArr.vals (PArr.gained D as) = PArr.vals as := by
  funext k
  unfold PArr.vals
  rw [PArr.gained_get]
  cases as[k]? <;> rfl

theorem PArr.gained_gained (D E : Nat → Arr ℝ) (as : List (PArr ℝ)) : PArr.gained E (PArr.gained D as) =
    PArr.gained (fun k c b => D k c b + E k c b) as := by
  refine List.ext_getElem? fun k => ?_
  rw [PArr.gained_get, PArr.gained_get, PArr.gained_get]
  cases as[k]? with
  | none => rfl
  | some a => simp only [Option.map_some, add_assoc]

theorem PArr.gained_zero (as : List (PArr ℝ)) : PArr.gained (fun _ _ _ => 0) as = as := by
  refine List.ext_getElem? fun k => ?_
  rw [PArr.gained_get]
  cases as[k]? with
  | none => rfl
  | some a => simp only [Option.map_some, add_zero]

theorem Params.get {d : Nat} {qs : List (Param ℝ)} {as : List (PArr ℝ)} (hq : Params d qs as) {k : Nat} {a : PArr ℝ} (ha : as[k]? = some a) :
    ∃ q : Param ℝ, qs[k]? = some q ∧ q.Is d a := by
  have hlen : qs.length = as.length := hq.length_eq
  have hk : k < as.length := (List.getElem?_eq_some_iff.mp ha).1
  refine ⟨qs[k]'(by omega), List.getElem?_eq_getElem _, ?_⟩
  have h2 := (List.forall₂_iff_get.mp hq).2 k (by omega) hk
  rw [List.getElem?_eq_getElem hk] at ha
  simp only [List.get_eq_getElem] at h2
  rw [Option.some.inj ha] at h2
  exact h2

/-- The same contents on the elements. -/
theorem Params.gained_congr {d : Nat} {qs : List (Param ℝ)} {as : List (PArr ℝ)} {D E : Nat → Arr ℝ} (h : Params d qs (PArr.gained D as))
    (he : ∀ k, k < as.length → ∀ c b, (shp (as.map PArr.shape) k).Valid c b → D k c b = E k c b) : Params d qs (PArr.gained E as) := by
  have hlen : qs.length = as.length := h.length_eq.trans (PArr.gained_length D as)
  refine List.forall₂_iff_get.mpr ⟨hlen.trans (PArr.gained_length E as).symm, fun k h1 h2 => ?_⟩
  have hk : k < as.length := by rw [← hlen]; exact h1
  obtain ⟨q, e1, hi⟩ := h.get (k := k) (by rw [PArr.gained_get, List.getElem?_eq_getElem hk]; rfl)
  have e2 : (PArr.gained E as)[k]? = some { as[k] with grad := fun c b => as[k].grad c b + E k c b } := by
    rw [PArr.gained_get, List.getElem?_eq_getElem hk]; rfl
  rw [List.getElem?_eq_getElem h1] at e1
  rw [List.getElem?_eq_getElem h2] at e2
  simp only [List.get_eq_getElem, Option.some.inj e1, Option.some.inj e2]
  refine ⟨hi.batch, hi.value, hi.grad.congr fun c b hv => ?_, hi.stat_none, hi.nodup, hi.stat_some⟩
  simp only
  rw [he k hk c b (by simpa [shp, hk] using hv)]

namespace Graph
variable {p : Profile} {d : Nat} {m0 : Nat → ℝ} {P : Nat → NodeOp ℝ} {g : Graph (Tensor ℝ)} {root : Nat} {θ : Nat × Nat → Arr ℝ}

/-- The leaves of a graph have the values that the parameters and inputs give them. -/
theorem Pass.values {qs : List (Param ℝ)} {as : List (PArr ℝ)} {leaf : Nat → Nat} (h : Pass p d m0 P g root θ leaf qs as) (hq : Params d qs as)
    {i : Nat} (hn : Needs g root i) (hl : (P i).isLeaf = true) : ∃ t : Tensor ℝ, (P i).leafValue = some t ∧
      t.Holds d (g.nodeShape (i, 0)) (setLeaves θ leaf as.length (PArr.vals as) (i, 0)) := by
  obtain ⟨⟨tr, hm⟩, hr, hu, hinput, hsmall, hsmooth, hfresh, hused⟩ := h
  have hlen : qs.length = as.length := hq.length_eq
  have hinj : ∀ k l, k < as.length → l < as.length → leaf k = leaf l → k = l := fun k l h1 h2 => hu.inj k l (by omega) (by omega)
  by_cases hi : ∃ k, k < qs.length ∧ leaf k = i
  · obtain ⟨k, hk, rfl⟩ := hi
    have ha : as[k]? = some (as[k]'(by omega)) := List.getElem?_eq_getElem _
    obtain ⟨q, hqk, hia⟩ := hq.get ha
    obtain ⟨h1, h2, -⟩ := hu.node k q hqk
    refine ⟨q.value, by rw [h2]; rfl, ?_⟩
    rw [param_nodeShape hm h1 h2, hia.value.shape, setLeaves_leaf _ hinj (by omega)]
    have := hia.value
    rwa [show (as[k]'(by omega)).value = PArr.vals as k by simp only [PArr.vals, ha]] at this
  · have := hinput i hn hl fun k hk e => hi ⟨k, hk, e⟩
    rwa [setLeaves_other _ fun k hk e => hi ⟨k, by omega, by simpa using e⟩]

/-- C78: `backward` adds the gradient of the loss to the gradients of the parameters, and does nothing else to the parameters. -/
theorem C78_pass {qs : List (Param ℝ)} {as : List (PArr ℝ)} {leaf : Nat → Nat} (hit : Pass p d m0 P g root θ leaf qs as)
    (hq : Params d qs as) {tr' order : List Nat} {r : Res (Graph (Tensor ℝ))} (hb : Backward (tensorLike p m0) g root tr' order r) :
    ∃ (g' : Graph (Tensor ℝ)) (D : Nat → Arr ℝ), r = ok g' ∧
      IsGradient (as.map PArr.shape) (g.loss P root θ leaf as.length) (PArr.vals as) D ∧ Params d (g'.giveBack leaf qs) (PArr.gained D as) := by
  have hvals := fun i => hit.values hq (i := i)
  obtain ⟨⟨tr, hm⟩, hr, hu, hinput, hsmall, hsmooth, hfresh, hused⟩ := hit
  classical
  have hlen : qs.length = as.length := hq.length_eq
  have hshape : ∀ k a, as[k]? = some a → g.nodeShape (leaf k, 0) = a.shape := fun k a ha => by
    obtain ⟨q, hk, hi⟩ := hq.get ha
    obtain ⟨h1, h2, -⟩ := hu.node k q hk
    rw [param_nodeShape hm h1 h2, hi.value.shape]
  have hinj : ∀ k l, k < as.length → l < as.length → leaf k = leaf l → k = l := fun k l h1 h2 => hu.inj k l (by omega) (by omega)
  have hsome : ∀ k, k < qs.length → ∃ a, as[k]? = some a := fun k hk => ⟨as[k], by simp [← hlen, hk]⟩
  have hS : ∀ k a, as[k]? = some a → setLeaves (fun _ _ _ => 0) leaf as.length (PArr.grads as) (leaf k, 0) = a.grad := fun k a ha => by
    rw [setLeaves_leaf _ hinj (List.getElem?_eq_some_iff.mp ha).1]
    simp only [PArr.grads, ha]
  obtain ⟨g', D, rfl, -, hs, hder⟩ := C36_backward_is_gradient (θ := setLeaves θ leaf as.length (PArr.vals as))
    (S := fun i => setLeaves (fun _ _ _ => 0) leaf as.length (PArr.grads as) (i, 0)) hm hr hvals hsmall hsmooth hfresh hused (by
      intro i t hn ht
      obtain ⟨k, hk, rfl⟩ := hu.only i t ht
      obtain ⟨a, ha⟩ := hsome k hk
      obtain ⟨q, hqk, hia⟩ := hq.get ha
      obtain ⟨-, h2, h3⟩ := hu.node k q hqk
      rw [h3] at ht
      obtain rfl := Option.some.inj ht
      refine ⟨by rw [h2]; rfl, ?_⟩
      rw [hshape k a ha, hS k a ha]
      exact hia.grad) hb
  have hlf : ∀ i, i ∈ leaves P g root ↔ Needs g root i ∧ (P i).isLeaf = true := fun i => by
    unfold leaves
    rw [Finset.mem_filter, mem_needed hm.hist.inv.wf hr]
  refine ⟨g', fun k => if Needs g root (leaf k) then D (leaf k) else fun _ _ => 0, rfl, ?_, ?_⟩
  · intro W t0 V hW
    rw [List.length_map] at hW
    have hshp : ∀ k, k < as.length → shp (as.map PArr.shape) k = g.nodeShape (leaf k, 0) := fun k hk => by
      rw [hshape k as[k] (by simp [hk])]
      simp [shp, hk]
    have := hder (fun t => setLeaves θ leaf as.length (W t)) t0 (fun i => setLeaves (fun _ _ _ => 0) leaf as.length V (i, 0))
      (by
        funext a
        unfold setLeaves
        cases h : (List.range as.length).find? (fun k => decide ((leaf k, 0) = a)) with
        | none => rfl
        | some k => exact (hW k (List.mem_range.mp (List.mem_of_find?_eq_some h))).1) (by
        intro i hi
        by_cases hk : ∃ k, k < as.length ∧ leaf k = i
        · obtain ⟨k, hk, rfl⟩ := hk
          rw [setLeaves_leaf V hinj hk, ← hshp k hk]
          simp only [setLeaves_leaf _ hinj hk]
          exact (hW k hk).2
        · have hk : ∀ k, k < as.length → (leaf k, 0) ≠ (i, 0) := fun k h e => hk ⟨k, h, by simpa using e⟩
          rw [setLeaves_other V hk]
          simp only [setLeaves_other _ hk]
          exact fun c b _ => hasDerivAt_const _ _)
    refine this.congr_deriv ?_
    rw [List.length_map]
    have e1 : ∑ k ∈ Finset.range as.length, dot (shp (as.map PArr.shape) k) (if Needs g root (leaf k) then D (leaf k) else fun _ _ => 0) (V k) =
        ∑ k ∈ (Finset.range as.length).filter (fun k => leaf k ∈ leaves P g root),
          dot (g.nodeShape (leaf k, 0)) (D (leaf k)) (setLeaves (fun _ _ _ => 0) leaf as.length V (leaf k, 0)) := by
      rw [Finset.sum_filter]
      refine Finset.sum_congr rfl fun k hk => ?_
      have hk := Finset.mem_range.mp hk
      have hl : leaf k ∈ leaves P g root ↔ Needs g root (leaf k) := by
        rw [hlf]
        obtain ⟨q, h1, -⟩ := hq.get (k := k) (a := as[k]) (by simp [hk])
        rw [(hu.node k q h1).2.1]
        exact ⟨fun h => h.1, fun h => ⟨h, rfl⟩⟩
      rw [hshp k hk, setLeaves_leaf V hinj hk]
      by_cases hn : Needs g root (leaf k)
      · rw [if_pos hn, if_pos (hl.mpr hn)]
      · rw [if_neg hn, if_neg (fun h => hn (hl.mp h))]
        simp [dot]
    rw [e1, ← Finset.sum_image (f := fun i => dot (g.nodeShape (i, 0)) (D i) (setLeaves (fun _ _ _ => 0) leaf as.length V (i, 0)))
      (fun k hk l hl e => hinj k l (Finset.mem_range.mp (Finset.mem_filter.mp hk).1) (Finset.mem_range.mp (Finset.mem_filter.mp hl).1) e)]
    symm
    refine Finset.sum_subset (fun i hi => ?_) fun i hi hni => ?_
    · obtain ⟨k, hk, rfl⟩ := Finset.mem_image.mp hi
      exact (Finset.mem_filter.mp hk).2
    · rw [setLeaves_other V fun k hk e => hni (Finset.mem_image.mpr ⟨k, Finset.mem_filter.mpr ⟨Finset.mem_range.mpr hk, ?_⟩, ?_⟩)]
      · simp [dot]
      · have : leaf k = i := by simpa using e
        rw [this]; exact hi
      · simpa using e
  · refine List.forall₂_iff_get.mpr ⟨by simp [giveBack, PArr.gained, hlen], fun k h1 h2 => ?_⟩
    have hk : k < as.length := by rw [PArr.gained_length] at h2; exact h2
    have ha : as[k]? = some as[k] := List.getElem?_eq_getElem hk
    obtain ⟨q, hqk, hia⟩ := hq.get ha
    obtain ⟨-, h4, h5⟩ := hu.node k q hqk
    have e1 : (g'.giveBack leaf qs)[k]? = some { q with gradient := (g'.sinkOf (leaf k)).getD q.gradient } := by
      rw [giveBack, List.getElem?_mapIdx, hqk]; rfl
    rw [List.getElem?_eq_getElem h1] at e1
    have e2 := PArr.gained_get (fun k => if Needs g root (leaf k) then D (leaf k) else fun _ _ => 0) as k
    rw [ha, List.getElem?_eq_getElem h2] at e2
    simp only [List.get_eq_getElem, Option.some.inj e1, Option.some.inj e2]
    refine ⟨hia.batch, hia.value, ?_, hia.stat_none, hia.nodup, hia.stat_some⟩
    show ((g'.sinkOf (leaf k)).getD q.gradient).Holds d as[k].shape fun c b => as[k].grad c b + (if Needs g root (leaf k) then D (leaf k) else fun _ _ => 0) c b
    by_cases hn : Needs g root (leaf k)
    · obtain ⟨t', h6, h7⟩ := hs (leaf k) q.gradient hn h5
      rw [h6, if_pos hn]
      rw [hshape k as[k] ha, hS k as[k] ha] at h7
      exact h7
    · rw [if_neg hn, sink_not_needed hm.hist hr hb hn, h5]
      exact hia.grad.congr fun c b _ => by simp

/-- A pass depends on the values of the parameters only, not on their gradients. -/
theorem Pass.gained {qs : List (Param ℝ)} {as : List (PArr ℝ)} {leaf : Nat → Nat} (h : Pass p d m0 P g root θ leaf qs as) (D : Nat → Arr ℝ) :
    Pass p d m0 P g root θ leaf qs (PArr.gained D as) :=
  ⟨h.made, h.root_lt, h.inGraph, h.input, h.small, by rw [PArr.gained_length, PArr.gained_vals]; exact h.smooth, h.fresh, h.used⟩

end Graph

/-- Gradients add up. -/
theorem IsGradient.sum {ss : List Shape} {L : Nat → (Nat → Arr ℝ) → ℝ} {w : Nat → Arr ℝ} {D : Nat → Nat → Arr ℝ} {N : Nat}
    (h : ∀ n, n < N → IsGradient ss (L n) w (D n)) :
    IsGradient ss (fun W => ∑ n ∈ Finset.range N, L n W) w (fun k c b => ∑ n ∈ Finset.range N, D n k c b) := by
  intro W t0 V hW
  have := HasDerivAt.fun_sum fun n (hn : n ∈ Finset.range N) => h n (Finset.mem_range.mp hn) W t0 V hW
  refine this.congr_deriv ?_
  rw [Finset.sum_comm]
  refine Finset.sum_congr rfl fun k _ => ?_
  unfold dot
  rw [Finset.sum_comm]
  refine Finset.sum_congr rfl fun q _ => ?_
  rw [Finset.sum_mul]

theorem IsGradient.scale {ss : List Shape} {L : (Nat → Arr ℝ) → ℝ} {w D : Nat → Arr ℝ} (h : IsGradient ss L w D) (x : ℝ) :
    IsGradient ss (fun W => x * L W) w (fun k c b => x * D k c b) := by
  intro W t0 V hW
  refine ((h W t0 V hW).const_mul x).congr_deriv ?_
  rw [Finset.mul_sum]
  refine Finset.sum_congr rfl fun k _ => ?_
  unfold dot
  rw [Finset.mul_sum]
  exact Finset.sum_congr rfl fun q _ => by ring

/-- A function has one gradient at most. -/
theorem IsGradient.unique {ss : List Shape} {L : (Nat → Arr ℝ) → ℝ} {w D E : Nat → Arr ℝ} (h : IsGradient ss L w D) (h' : IsGradient ss L w E)
    (hss : ∀ s ∈ ss, s.WF) {k : Nat} (hk : k < ss.length) {c : Nat → Nat} {b : Nat} (hv : (shp ss k).Valid c b) : D k c b = E k c b := by
  classical
  have hw : (shp ss k).WF := hss _ (by
    simp only [shp, List.getD_eq_getElem?_getD, List.getElem?_eq_getElem hk, Option.getD_some]
    exact List.getElem_mem hk)
  have key : ∀ F : Nat → Arr ℝ, ∑ j ∈ Finset.range ss.length, dot (shp ss j) (F j)
      (fun c' b' => if j = k ∧ c' = c ∧ b' = b then (1 : ℝ) else 0) = F k c b := by
    intro F
    rw [Finset.sum_eq_single k (fun j _ hj => by simp [dot, hj]) (fun h => absurd (Finset.mem_range.mpr hk) h)]
    unfold dot
    rw [Finset.sum_eq_single (c, b) (fun q _ hq => ?_) (fun h => absurd (hw.mem_pos.mpr hv) h)]
    · simp
    · have : ¬ (q.1 = c ∧ q.2 = b) := fun h => hq (Prod.ext h.1 h.2)
      simp only [true_and, this, if_false, mul_zero]
  obtain ⟨V, hV⟩ : ∃ V : Nat → Arr ℝ, V = fun j c' b' => if j = k ∧ c' = c ∧ b' = b then (1 : ℝ) else 0 := ⟨_, rfl⟩
  obtain ⟨W, hW⟩ : ∃ W : ℝ → Nat → Arr ℝ, W = fun t j c' b' => w j c' b' + t * V j c' b' := ⟨_, rfl⟩
  have hp : ∀ j, j < ss.length → W 0 j = w j ∧ Moves (shp ss j) (fun t => W t j) 0 (V j) := fun j _ => ⟨by rw [hW]; funext c' b'; simp, fun c' b' _ => by
    rw [hW]
    have := ((hasDerivAt_id (0 : ℝ)).mul_const (V j c' b')).const_add (w j c' b')
    simpa using this⟩
  have h1 := h W 0 V hp
  have h2 := h' W 0 V hp
  subst hV
  have := h1.unique h2
  rw [key, key] at this
  exact this

theorem Params.shapes_wf {d : Nat} {qs : List (Param ℝ)} {as : List (PArr ℝ)} (hq : Params d qs as) : ∀ s ∈ as.map PArr.shape, s.WF := by
  intro s hs
  obtain ⟨a, ha, rfl⟩ := List.mem_map.mp hs
  obtain ⟨k, hk⟩ := List.getElem?_of_mem ha
  obtain ⟨q, -, hi⟩ := hq.get hk
  exact hi.value.wf

namespace Graph
variable {p : Profile} {d : Nat} {m0 : Nat → ℝ}

/-- C78.  `N` graphs one after another, each with the parameters as the one before left them; `backward` in each, and no update in between.
Every execution completes, the values and statistics of the parameters do not change, and the gradients are what they were plus the gradient of the
sum of the losses of the `N` graphs. -/
theorem C78_accumulation {N : Nat} {P : Nat → Nat → NodeOp ℝ} {g : Nat → Graph (Tensor ℝ)} {root : Nat → Nat} {θ : Nat → Nat × Nat → Arr ℝ}
    {leaf : Nat → Nat → Nat} {qs : Nat → List (Param ℝ)} {as : List (PArr ℝ)} (hq : Params d (qs 0) as)
    (hit : ∀ n, n < N → Pass p d m0 (P n) (g n) (root n) (θ n) (leaf n) (qs n) as)
    {tr order : Nat → List Nat} {r : Nat → Res (Graph (Tensor ℝ))}
    (hb : ∀ n, n < N → Backward (tensorLike p m0) (g n) (root n) (tr n) (order n) (r n))
    (hnext : ∀ n g', n < N → r n = ok g' → qs (n + 1) = g'.giveBack (leaf n) (qs n)) :
    ∃ D : Nat → Nat → Arr ℝ, (∀ n, n < N → ∃ g', r n = ok g') ∧
      (∀ n, n < N → IsGradient (as.map PArr.shape) ((g n).loss (P n) (root n) (θ n) (leaf n) as.length) (PArr.vals as) (D n)) ∧
      IsGradient (as.map PArr.shape) (fun W => ∑ n ∈ Finset.range N, (g n).loss (P n) (root n) (θ n) (leaf n) as.length W) (PArr.vals as)
        (fun k c b => ∑ n ∈ Finset.range N, D n k c b) ∧
      ∀ n, n ≤ N → Params d (qs n) (PArr.gained (fun k c b => ∑ j ∈ Finset.range n, D j k c b) as) := by
  have step : ∀ n, ∃ D : Nat → Arr ℝ, n < N → ∀ E, Params d (qs n) (PArr.gained E as) → (∃ g', r n = ok g') ∧
      IsGradient (as.map PArr.shape) ((g n).loss (P n) (root n) (θ n) (leaf n) as.length) (PArr.vals as) D ∧
      Params d (qs (n + 1)) (PArr.gained (fun k c b => E k c b + D k c b) as) := by
    intro n
    by_cases h : n < N ∧ ∃ E, Params d (qs n) (PArr.gained E as)
    swap
    · exact ⟨fun _ _ _ => 0, fun h1 E h2 => absurd ⟨h1, E, h2⟩ h⟩
    obtain ⟨hn, E0, hE0⟩ := h
    obtain ⟨g', D, e, hD, hp⟩ := C78_pass ((hit n hn).gained E0) hE0 (hb n hn)
    rw [PArr.gained_shapes, PArr.gained_length, PArr.gained_vals] at hD
    refine ⟨D, fun _ E hE => ⟨⟨g', e⟩, hD, ?_⟩⟩
    obtain ⟨g'', D', e', hD', hp'⟩ := C78_pass ((hit n hn).gained E) hE (hb n hn)
    rw [PArr.gained_shapes, PArr.gained_length, PArr.gained_vals] at hD'
    rw [e] at e'
    obtain rfl := Res.ok.inj e'
    rw [hnext n g' hn e]
    rw [PArr.gained_gained] at hp'
    refine hp'.gained_congr fun k hk c b hv => ?_
    have hwf := hE.shapes_wf
    rw [PArr.gained_shapes] at hwf
    rw [hD'.unique hD hwf (by simpa using hk) hv]
  choose D hD using step
  have hall : ∀ n, n ≤ N → Params d (qs n) (PArr.gained (fun k c b => ∑ j ∈ Finset.range n, D j k c b) as) := by
    intro n
    induction n with
    | zero => intro _; simpa only [Finset.sum_range_zero, PArr.gained_zero] using hq
    | succ n ih =>
      intro hn
      have := (hD n (by omega) _ (ih (by omega))).2.2
      simpa only [Finset.sum_range_succ] using this
  have hgr : ∀ n, n < N → IsGradient (as.map PArr.shape) ((g n).loss (P n) (root n) (θ n) (leaf n) as.length) (PArr.vals as) (D n) :=
    fun n hn => (hD n hn _ (hall n hn.le)).2.1
  exact ⟨D, fun n hn => (hD n hn _ (hall n hn.le)).1, hgr, IsGradient.sum hgr, hall⟩

variable {B : Nat} {P : Nat → NodeOp ℝ} {g : Graph (Tensor ℝ)} {P' : Nat → Nat → NodeOp ℝ} {g' : Nat → Graph (Tensor ℝ)}
  {root : Nat} {k : ℝ} {θ : Nat × Nat → Arr ℝ} {θ' : Nat → Nat × Nat → Arr ℝ} {leaf : Nat → Nat} {as : List (PArr ℝ)}

/-- The loss of a minibatch, as a function of the parameters, is made of the losses of the samples. -/
theorem LossOf.loss (hB : 0 < B) (hL : LossOf d B P g P' g' root k) {qs : List (Param ℝ)} (hq : Params d qs as)
    (h : Pass p d m0 P g root θ leaf qs as) {qs' : Nat → List (Param ℝ)} (hq' : ∀ b, b < B → (qs' b).length = as.length)
    (h' : ∀ b, b < B → Pass p d m0 (P' b) (g' b) root (θ' b) leaf (qs' b) as) (W : Nat → Arr ℝ) :
    g.loss P root θ leaf as.length W = k * ∑ b ∈ Finset.range B, (g' b).loss (P' b) root (θ' b) leaf as.length W := by
  have hlen : qs.length = as.length := hq.length_eq
  obtain ⟨tr, hm⟩ := h.made
  have hg := hm.hist.inv.wf
  refine hL.objective hB hm (fun b hb => (h' b hb).made) h.root_lt (fun b hb => (h' b hb).root_lt) fun b hb i hi hl => ?_
  have hinj : ∀ k l, k < as.length → l < as.length → leaf k = leaf l → k = l := fun k l h1 h2 => h.inGraph.inj k l (by omega) (by omega)
  by_cases hk : ∃ k, k < as.length ∧ leaf k = i
  · obtain ⟨k, hk, rfl⟩ := hk
    rw [setLeaves_leaf W hinj hk, setLeaves_leaf W hinj hk]
    obtain ⟨q, hqk, hia⟩ := hq.get (List.getElem?_eq_getElem hk)
    obtain ⟨h1, h2, -⟩ := h.inGraph.node k q hqk
    have hbt : (g.nodeShape (leaf k, 0)).batch = 1 := by rw [param_nodeShape hm h1 h2, hia.value.shape]; exact hia.batch
    refine ⟨.inl hbt, fun c _ => ?_⟩
    unfold bb
    rw [if_pos hbt]
  · have hne : ∀ k, k < as.length → (leaf k, 0) ≠ (i, 0) := fun k h e => hk ⟨k, h, by simpa using e⟩
    rw [setLeaves_other W hne, setLeaves_other W hne]
    obtain ⟨node, n1, n2, n3⟩ := hL.cover hi hl
    obtain ⟨hS, hn'⟩ := n3 b hb
    obtain ⟨hl', x, x', hx, hx', hsam⟩ := hS.leaf i n2 hl
    obtain ⟨t, ht, hth⟩ := h.input i hi hl fun k hk' e => hk ⟨k, by omega, e⟩
    obtain ⟨t', ht', hth'⟩ := (h' b hb).input i (hn'.trans (hS.needs n2)) hl' fun k hk' e => hk ⟨k, by rw [← hq' b hb]; exact hk', e⟩
    rw [hx] at ht
    rw [hx'] at ht'
    obtain rfl := Option.some.inj ht
    obtain rfl := Option.some.inj ht'
    exact hsam.sampled hb hth hth'

/-- C78.  The samples of a minibatch one after another: the graph of each sample is made (with the parameters as the sample before left them) and
`backward` is called in it, and there is no update in between.  Then the gradients of the parameters have gained `D`, the sum of the gradients of
the samples, where `backward` in the graph of the whole minibatch adds `k * D` (`k = 1`, or `1 / B` if the loss ends in `batch_mean`). -/
theorem C78_samples_one_by_one (hB : 0 < B) (hL : LossOf d B P g P' g' root k) {qs : Nat → List (Param ℝ)} (hq : Params d (qs 0) as)
    (h : Pass p d m0 P g root θ leaf (qs 0) as) (h' : ∀ b, b < B → Pass p d m0 (P' b) (g' b) root (θ' b) leaf (qs b) as)
    {tr order : List Nat} {r : Res (Graph (Tensor ℝ))} (hb : Backward (tensorLike p m0) g root tr order r)
    {tr' order' : Nat → List Nat} {r' : Nat → Res (Graph (Tensor ℝ))}
    (hb' : ∀ b, b < B → Backward (tensorLike p m0) (g' b) root (tr' b) (order' b) (r' b))
    (hnext : ∀ b gb, b < B → r' b = ok gb → qs (b + 1) = gb.giveBack leaf (qs b)) :
    ∃ (g1 : Graph (Tensor ℝ)) (D : Nat → Arr ℝ), r = ok g1 ∧ (∀ b, b < B → ∃ gb, r' b = ok gb) ∧
      Params d (qs B) (PArr.gained D as) ∧ Params d (g1.giveBack leaf (qs 0)) (PArr.gained (fun j c b => k * D j c b) as) := by
  obtain ⟨D, hok, -, hsum, hall⟩ := C78_accumulation (P := P') (g := g') (root := fun _ => root) (θ := θ') (leaf := fun _ => leaf) hq h' hb' hnext
  obtain ⟨g1, E, e, hE, hp⟩ := C78_pass h hq hb
  refine ⟨g1, _, e, hok, hall B le_rfl, hp.gained_congr fun j hj c b hv => ?_⟩
  have hloss : g.loss P root θ leaf as.length = fun W => k * ∑ b ∈ Finset.range B, (g' b).loss (P' b) root (θ' b) leaf as.length W := by
    funext W
    exact hL.loss hB hq h (fun b hbB => by rw [(hall b hbB.le).length_eq, PArr.gained_length]) h' W
  rw [hloss] at hE
  exact hE.unique (hsum.scale k) hq.shapes_wf (by simpa using hj) hv

/-- C78.  Unless the loss ends in `batch_mean`, an update of any optimizer (with the statistics it needs) after the samples one after another
leaves the same in the parameters as after the whole minibatch. -/
theorem C78_same_update (hB : 0 < B) (hL : LossOf d B P g P' g' root 1) {qs : Nat → List (Param ℝ)} (hq : Params d (qs 0) as)
    (h : Pass p d m0 P g root θ leaf (qs 0) as) (h' : ∀ b, b < B → Pass p d m0 (P' b) (g' b) root (θ' b) leaf (qs b) as)
    {tr order : List Nat} {r : Res (Graph (Tensor ℝ))} (hb : Backward (tensorLike p m0) g root tr order r)
    {tr' order' : Nat → List Nat} {r' : Nat → Res (Graph (Tensor ℝ))}
    (hb' : ∀ b, b < B → Backward (tensorLike p m0) (g' b) root (tr' b) (order' b) (r' b))
    (hnext : ∀ b gb, b < B → r' b = ok gb → qs (b + 1) = gb.giveBack leaf (qs b))
    (o : Opt ℝ) (ho : ∀ a ∈ as, a.Ready o.kind) (he : o.epoch + 1 < U32) (mm mm' : Nat → Nat → Mem ℝ) :
    ∃ (g1 : Graph (Tensor ℝ)) (A : List (PArr ℝ)) (q1 q2 : List (Param ℝ)), r = ok g1 ∧
      o.updateParameters p mm (g1.giveBack leaf (qs 0)) = (q1, ok (o.epoch + 1)) ∧ Params d q1 A ∧
      o.updateParameters p mm' (qs B) = (q2, ok (o.epoch + 1)) ∧ Params d q2 A := by
  obtain ⟨g1, D, e, -, h1, h2⟩ := C78_samples_one_by_one hB hL hq h h' hb hb' hnext
  simp only [one_mul] at h2
  have hr : ∀ a ∈ PArr.gained D as, a.Ready o.kind := fun a ha => by
    obtain ⟨j, hj⟩ := List.getElem?_of_mem ha
    rw [PArr.gained_get] at hj
    cases hja : as[j]? with
    | none => rw [hja] at hj; cases hj
    | some a0 =>
      rw [hja] at hj
      obtain rfl := Option.some.inj hj
      have := ho a0 (List.mem_of_getElem? hja)
      revert this
      cases o.kind <;> exact id
  obtain ⟨q1, e1, k1⟩ := updateParameters_ok mul_comm o he h2 hr p mm
  obtain ⟨q2, e2, k2⟩ := updateParameters_ok mul_comm o he h1 hr p mm'
  exact ⟨g1, _, q1, q2, e, e1, k1, e2, k2⟩

end Graph
end Verif
