import Verif.AdGraph

/-!
# Reverse-mode differentiation on a graph: one operator, and the whole order
-/

set_option linter.unusedSectionVars false

namespace Verif
open Res
attribute [local instance] realFlt

namespace Graph
variable {p : Profile} {d : Nat} {m0 : Nat → ℝ} {P : Nat → NodeOp ℝ} {g : Graph (Tensor ℝ)} {root : Nat} {θ : Nat × Nat → Arr ℝ}
  {E : Nat → Oper (Tensor ℝ)} {J : Nat → (Nat → Arr ℝ) → Nat → Arr ℝ}

/-- `δ` at the arguments of `i`. -/
def argD (g : Graph (Tensor ℝ)) (δ : Nat × Nat → Arr ℝ) (i k : Nat) : Arr ℝ :=
  match (g.argsOf i)[k]? with
  | some a => δ a
  | none => fun _ _ => 0

/-- What is known of the `backward` of the needed operators. -/
structure Adj (p : Profile) (d : Nat) (P : Nat → NodeOp ℝ) (g : Graph (Tensor ℝ)) (root : Nat) (θ : Nat × Nat → Arr ℝ) (E : Nat → Oper (Tensor ℝ))
    (J : Nat → (Nat → Arr ℝ) → Nat → Arr ℝ) : Prop where
  shapes : ∀ a, Node g root a → (g.nodeShape a).WF ∧ (g.nodeShape a).size ≤ 2 ^ 31
  args : ∀ i, Needs g root i → ∀ a ∈ g.argsOf i, Node g root a
  leaf : ∀ i, Needs g root i → (P i).isLeaf = true → g.argsOf i = [] ∧ ∀ xs ys gys ss, (E i).bw xs ys gys ss = []
  node : ∀ i, Needs g root i → (P i).isLeaf = false → ∀ xs ys gys G, HoldsAll d xs (g.argShapes i) (g.argVal P θ i) →
    HoldsAll d ys (g.outShapes i) (evalR g P θ i) → HoldsAll d gys (g.outShapes i) G →
      ∃ cs : List (Nat × Arr ℝ),
        List.Forall₂ (fun u c => u.1 = c.1 ∧ ∃ s, (g.argShapes i)[c.1]? = some s ∧
          ∀ gx H, gx.Holds d s H → Yields (u.2 gx) d s (fun i b => H i b + c.2 i b)) ((E i).bw xs ys gys (g.argShapes i)) cs ∧
        ∀ δ : Nat → Arr ℝ, (cs.map fun c => dot (shp (g.argShapes i) c.1) c.2 (δ c.1)).sum =
          ∑ v ∈ Finset.range (g.outShapes i).length, dot (shp (g.outShapes i) v) (G v) (J i δ v)

/-- `δ` is consistent with `J` at `i`. -/
def Consistent (g : Graph (Tensor ℝ)) (J : Nat → (Nat → Arr ℝ) → Nat → Arr ℝ) (δ : Nat × Nat → Arr ℝ) (i : Nat) : Prop :=
  ∀ v, v < g.results i → ∀ c b, (g.nodeShape (i, v)).Valid c b → δ (i, v) c b = J i (g.argD δ i) v c b

theorem shp_out {i v : Nat} (h : v < g.results i) : shp (g.outShapes i) v = g.nodeShape (i, v) := by
  rw [shp, List.getD_eq_getElem?_getD, outShapes_get h]; rfl

theorem Evald.vals {gk : Graph (Tensor ℝ)} (h : Evald d P g root θ E gk) {a : Nat × Nat} (ha : Node g root a) :
    ∃ t, gk.val a = ok t ∧ t.Holds d (g.nodeShape a) (evalR g P θ a.1 a.2) := by
  obtain ⟨o, ho, -, -, h3, -, -⟩ := h a.1 ha.1
  obtain ⟨t, ht, hh⟩ := h3.2 a.2 _ (outShapes_get ha.2)
  exact ⟨t, val_eq_ok.mpr ⟨o, ho, ht⟩, hh⟩

theorem Evald.shapeOf {gk : Graph (Tensor ℝ)} (h : Evald d P g root θ E gk) {a : Nat × Nat} (ha : Node g root a) :
    shapeOf (tensorLike p m0) gk a = ok (g.nodeShape a) := by
  obtain ⟨o, ho, -, -, -, h4, -⟩ := h a.1 ha.1
  have e := outShapes_get ha.2
  rw [← h4, List.getElem?_map] at e
  cases ht : o.init[a.2]? with
  | none => rw [ht] at e; cases e
  | some t =>
    rw [ht] at e
    simp only [Graph.shapeOf, at'_eq_ok.mpr ho, ok_bind, at'_eq_ok.mpr ht]
    exact congrArg ok (Option.some.inj e)

theorem mapR_eq_ok {A B : Type} {f : A → Res B} {h : A → B} (l : List A) (e : ∀ a ∈ l, f a = ok (h a)) : mapR f l = ok (l.map h) := by
  induction l with
  | nil => rfl
  | cons a l ih => simp [mapR, e a (by simp), ih fun b hb => e b (by simp [hb])]

theorem bw_step (hA : Adj p d P g root θ E J) {gk : Graph (Tensor ℝ)} {H : Nat × Nat → Arr ℝ} {U : Nat × Nat → Prop} (hg : WF g)
    (hE : Evald d P g root θ E gk) (hG : Grads d g root gk H U) {i : Nat} (hi : Needs g root i) (hU : ∀ v, v < g.results i → ¬ U (i, v))
    (hsink : ∀ t, gk.sinkOf i = some t → 0 < g.results i ∧ ∃ S, t.Holds d (g.nodeShape (i, 0)) S) :
    ∃ g' H', bwOne (tensorLike p m0) gk i = ok g' ∧ SameValues gk g' ∧ Grads d g root g' H' (fun b => U b ∧ b ∉ g.argsOf i) ∧
      (∀ b, b ∉ g.argsOf i → H' b = H b) ∧ (∀ j, j ≠ i → g'.sinkOf j = gk.sinkOf j) ∧
      ((P i).isLeaf = true → H' = H) ∧
      ((P i).isLeaf = false → ∀ A : Finset Nat, (∀ a ∈ g.argsOf i, a.1 ∈ A) → ∀ δ, Consistent g J δ i →
        ∑ j ∈ A, wt g H' δ j = ∑ j ∈ A, wt g H δ j + wt g H δ i) := by
  obtain ⟨o, ho, h1, h2, h3, h4, h5⟩ := hE i hi
  -- own gradients
  have hown : HoldsAll d o.grads (g.outShapes i) (fun v => H (i, v)) := by
    refine ⟨by rw [h5, outShapes_length], fun v s hv => ?_⟩
    have hvl : v < g.results i := by rw [← outShapes_length]; exact (List.getElem?_eq_some_iff.mp hv).1
    have e := outShapes_get hvl
    rw [hv] at e
    obtain rfl := Option.some.inj e
    obtain ⟨t, ht, hc⟩ := hG (i, v) ⟨hi, hvl⟩
    obtain ⟨o', ho', ht'⟩ := grad_eq_ok.mp ht
    rw [ho] at ho'
    obtain rfl := Option.some.inj ho'
    rcases hc with hc | ⟨-, -, hu⟩
    · exact ⟨t, ht', hc⟩
    · exact absurd hu (hU v hvl)
  -- the arguments
  have hAr : ArgsHold d P g θ gk.val i := fun a ha => hE.vals (hA.args i hi a ha)
  obtain ⟨xs, hxs, hx⟩ := hAr.all
  have hss : mapR (shapeOf (tensorLike p m0) gk) o.args = ok (g.argShapes i) := by
    rw [h2]; exact mapR_eq_ok _ fun a ha => hE.shapeOf (hA.args i hi a ha)
  obtain ⟨g1, e1, o1, hG1⟩ := ensures_step (p := p) (m0 := m0) (g.argsOf i) hG hA.shapes (hA.args i hi)
  -- the updates
  obtain ⟨g2, H', e2, o2, hG2, hoth, hlf, hnd⟩ : ∃ g2 H', foldR (update (g.argsOf i)) ((E i).bw xs o.vals o.grads (g.argShapes i)) g1 = ok g2 ∧ OnlyGrads g1 g2 ∧
      Grads d g root g2 H' (fun b => U b ∧ b ∉ g.argsOf i) ∧ (∀ b, b ∉ g.argsOf i → H' b = H b) ∧ ((P i).isLeaf = true → H' = H) ∧
      ((P i).isLeaf = false → ∀ A : Finset Nat, (∀ a ∈ g.argsOf i, a.1 ∈ A) → ∀ δ, Consistent g J δ i →
        ∑ j ∈ A, wt g H' δ j = ∑ j ∈ A, wt g H δ j + wt g H δ i) := by
    cases hl : (P i).isLeaf with
    | true =>
      rw [(hA.leaf i hi hl).2]
      exact ⟨g1, H, rfl, OnlyGrads.refl _, hG1, fun _ _ => rfl, fun _ => rfl, fun h => by cases h⟩
    | false =>
      obtain ⟨cs, hcs, hadj⟩ := hA.node i hi hl xs o.vals o.grads _ hx h3 hown
      obtain ⟨g2, e2, o2, hG2⟩ := updates_step (g.argsOf i) hG1 (fun a ha => ⟨hA.args i hi a ha, fun h => h.2 ha⟩) hcs
      refine ⟨g2, _, e2, o2, hG2, fun b hb => addAll_other _ _ _ hb, fun h => (by cases h), fun _ A hAA δ hδ => ?_⟩
      have hcl : ∀ c ∈ cs, c.1 < (g.argsOf i).length := by
        intro c hc
        obtain ⟨k, hk⟩ := List.getElem?_of_mem hc
        have hlen := hcs.length_eq
        have hkl : k < cs.length := (List.getElem?_eq_some_iff.mp hk).1
        obtain ⟨_, s, hs, _⟩ := (List.forall₂_iff_get.mp hcs).2 k (by omega) hkl
        have : cs.get ⟨k, hkl⟩ = c := by rw [List.getElem?_eq_getElem hkl] at hk; exact Option.some.inj hk
        rw [this] at hs
        have := (List.getElem?_eq_some_iff.mp hs).1
        simpa [argShapes] using this
      rw [pot_addAll A (g.argsOf i) (fun a ha => ⟨hAA a ha, (hA.args i hi a ha).2⟩) cs hcl H δ]
      congr 1
      refine Eq.trans ?_ ((hadj (g.argD δ i)).trans ?_)
      · exact congrArg List.sum (List.map_congr_left fun c _ => by
          unfold argD argShapes
          cases (g.argsOf i)[c.1]? <;> rfl)
      unfold wt
      rw [outShapes_length]
      refine Finset.sum_congr rfl fun v hv => ?_
      have hvl := Finset.mem_range.mp hv
      rw [shp_out hvl]
      refine dot_congr (hA.shapes _ ⟨hi, hvl⟩).1 fun c b hcb => ?_
      rw [hδ v hvl c b hcb]
  have hs2 : SameValues gk g2 := (o1.trans o2).sameValues
  have hsk : ∀ j, g2.sinkOf j = gk.sinkOf j := (o1.trans o2).sinkOf
  have hpre : bwOne (tensorLike p m0) gk i = (match o.sink with
      | none => ok g2
      | some t => do
        let gy ← at' o.grads 0
        let t ← (tensorLike p m0).addTo t gy
        ok (g2.setSink i t)) := by
    simp only [bwOne, at'_eq_ok.mpr ho, ok_bind]
    rw [hss, h2, hxs, ok_bind, ok_bind, e1, ok_bind, h1, e2, ok_bind]
    cases o.sink <;> rfl
  cases hs : o.sink with
  | none =>
    rw [hs] at hpre
    exact ⟨g2, H', hpre, hs2, hG2, hoth, fun j _ => hsk j, hlf, hnd⟩
  | some t =>
    rw [hs] at hpre
    obtain ⟨hr, S, hS⟩ := hsink t (by simp [sinkOf, ho, hs])
    obtain ⟨gy, hgy, hgh⟩ := hown.2 0 _ (outShapes_get hr)
    obtain ⟨y, ey, -⟩ := TF.addAssign_same hS hgh p
    have : (tensorLike p m0).addTo t gy = ok y := ey
    simp only [at'_eq_ok.mpr hgy, ok_bind, this] at hpre
    obtain ⟨q1, q2, q3⟩ := setSink_spec g2 i y
    refine ⟨_, H', hpre, hs2.trans q1, fun a ha => ?_, hoth, fun j hj => ?_, hlf, hnd⟩
    · rw [q2]; exact hG2 a ha
    · rw [q3, if_neg (fun h => hj h.1), hsk]

/-- The loop of `backward`. -/
theorem bw_run (hA : Adj p d P g root θ E J) (hg : WF g) (order : List Nat) (hnd : order.Nodup) (hmem : ∀ j, j ∈ order ↔ Needs g root j)
    (hord : ∀ l1 i l2, order = l1 ++ i :: l2 → ∀ a ∈ g.argsOf i, a.1 ∈ l2)
    (hused : ∀ i v, Needs g root i → i ≠ root → v < g.results i → ∃ j, Needs g root j ∧ (i, v) ∈ g.argsOf j)
    (l : List Nat) : ∀ (done : List Nat) (gk : Graph (Tensor ℝ)) (H : Nat × Nat → Arr ℝ), order = done ++ l → Evald d P g root θ E gk →
    Grads d g root gk H (fun a => a.1 ≠ root ∧ ∀ j ∈ done, a ∉ g.argsOf j) →
    (∀ i ∈ l, ∀ t, gk.sinkOf i = some t → 0 < g.results i ∧ ∃ S, t.Holds d (g.nodeShape (i, 0)) S) →
    ∃ g' H', foldR (bwOne (tensorLike p m0)) l gk = ok g' ∧ SameValues gk g' ∧
      Grads d g root g' H' (fun a => a.1 ≠ root ∧ ∀ j ∈ order, a ∉ g.argsOf j) ∧
      ∀ δ, (∀ i ∈ l, (P i).isLeaf = false → Consistent g J δ i) →
        ∑ j ∈ order.toFinset.filter (fun j => j ∈ l ∨ (P j).isLeaf = true), wt g H δ j =
        ∑ j ∈ order.toFinset.filter (fun j => (P j).isLeaf = true), wt g H' δ j := by
  induction l with
  | nil =>
    intro done gk H ho hE hG hs
    simp only [List.append_nil] at ho
    subst ho
    refine ⟨gk, H, rfl, SameValues.refl _, hG, fun δ _ => ?_⟩
    simp
  | cons i l ih =>
    intro done gk H ho hE hG hs
    have hi : Needs g root i := (hmem i).mp (by rw [ho]; simp)
    have hargs := hord done i l ho
    have hU : ∀ v, v < g.results i → ¬ ((i, v).1 ≠ root ∧ ∀ j ∈ done, (i, v) ∉ g.argsOf j) := by
      rintro v hv ⟨hne, hno⟩
      obtain ⟨j, hj, hja⟩ := hused i v hi hne hv
      have hjo := (hmem j).mpr hj
      rw [ho] at hjo
      rcases List.mem_append.mp hjo with hd | hd
      · exact hno j hd hja
      · -- j is i or after i, impossible
        rcases List.mem_cons.mp hd with rfl | hd
        · exact absurd (hg.lt hja) (lt_irrefl _)
        · obtain ⟨m1, m2, rfl⟩ := List.append_of_mem hd
          have h2 := hord (done ++ i :: m1) j m2 (by rw [ho]; simp) _ hja
          rw [ho] at hnd
          have h1 := (List.nodup_append.mp hnd).2.1
          exact (List.nodup_cons.mp h1).1 (by simp only [List.mem_append, List.mem_cons]; exact .inr (.inr h2))
    obtain ⟨g1, H1, e1, s1, hG1, hoth, hsk, hlf, hndf⟩ := bw_step (p := p) (m0 := m0) hA hg hE hG hi hU (hs i (by simp))
    have hil : i ∉ l := by
      rw [ho] at hnd
      exact (List.nodup_cons.mp (List.nodup_append.mp hnd).2.1).1
    obtain ⟨g2, H2, e2, s2, hG2, hphi⟩ := ih (done ++ [i]) g1 H1 (by rw [ho]; simp) (hE.of_same s1)
      (hG1.mono fun a _ ⟨⟨h1, h2⟩, h3⟩ => ⟨h1, fun j hj => by
        rcases List.mem_append.mp hj with hj | hj
        · exact h2 j hj
        · rw [List.mem_singleton.mp hj]; exact h3⟩)
      (fun j hj t ht => hs j (by simp [hj]) t (by rw [← hsk j (fun e => hil (e ▸ hj))]; exact ht))
    refine ⟨g2, H2, by rw [foldR, e1, ok_bind, e2], s1.trans s2, hG2, fun δ hδ => ?_⟩
    rw [← hphi δ fun j hj => hδ j (by simp [hj])]
    cases hl : (P i).isLeaf with
    | true =>
      rw [hlf hl]
      refine Finset.sum_congr (Finset.filter_congr fun j _ => ?_) fun _ _ => rfl
      simp only [List.mem_cons]
      constructor
      · rintro ((rfl | h) | h)
        · exact .inr hl
        · exact .inl h
        · exact .inr h
      · rintro (h | h)
        · exact .inl (.inr h)
        · exact .inr h
    | false =>
      have hmo : ∀ j ∈ l, j ∈ order := fun j hj => by rw [ho]; simp [hj]
      rw [hndf hl _ (fun a ha => by
        have := hargs a ha
        simp [hmo _ this, this]) δ (hδ i (by simp) hl)]
      have : order.toFinset.filter (fun j => j ∈ i :: l ∨ (P j).isLeaf = true) =
          insert i (order.toFinset.filter (fun j => j ∈ l ∨ (P j).isLeaf = true)) := by
        ext j
        simp only [Finset.mem_filter, List.mem_toFinset, List.mem_cons, Finset.mem_insert]
        constructor
        · rintro ⟨h1, (h2 | h2) | h2⟩
          · exact .inl h2
          · exact .inr ⟨h1, .inl h2⟩
          · exact .inr ⟨h1, .inr h2⟩
        · rintro (rfl | ⟨h1, h2⟩)
          · exact ⟨by rw [ho]; simp, .inl (.inl rfl)⟩
          · exact ⟨h1, h2.imp .inr id⟩
      rw [this, Finset.sum_insert (by simp [hil, hl]), add_comm]

end Graph
end Verif
