import Verif.AdMade

/-!
# The values of a graph of library operators, over the real numbers
-/

set_option linter.unusedSectionVars false

namespace Verif
open Res
attribute [local instance] realFlt

namespace Graph
variable {p : Profile} {d : Nat} {m0 : Nat → ℝ} {P : Nat → NodeOp ℝ} {g : Graph (Tensor ℝ)} {root : Nat} {θ : Nat × Nat → Arr ℝ}

/-- The assumptions of C36 about values. -/
structure Point (p : Profile) (d : Nat) (P : Nat → NodeOp ℝ) (g : Graph (Tensor ℝ)) (root : Nat) (θ : Nat × Nat → Arr ℝ) : Prop where
  wf : WF g
  ops : ∀ (i : Nat) (o : OpInfo (Tensor ℝ)), g[i]? = some o → OpAt p d P g i o
  leaf : ∀ i, Needs g root i → (P i).isLeaf = true → ∃ t : Tensor ℝ, (P i).leafValue = some t ∧ t.Holds d (g.nodeShape (i, 0)) (θ (i, 0))
  small : ∀ i v, Needs g root i → v < g.results i → (g.nodeShape (i, v)).size ≤ 2 ^ 31
  smooth : ∀ i, Needs g root i → (P i).isLeaf = false → (P i).Smooth (g.argShapes i) (g.argVal P θ i) (g.outShapes i)

theorem outShapes_some {i : Nat} {o : OpInfo (Tensor ℝ)} (h : g[i]? = some o) : g.outShapes i = o.init.map Tensor.shape := by simp [outShapes, h]
theorem results_some {i : Nat} {o : OpInfo (Tensor ℝ)} (h : g[i]? = some o) : g.results i = o.init.length := by simp [results, h]

theorem outShapes_length (i : Nat) : (g.outShapes i).length = g.results i := by
  cases h : g[i]? with
  | none => simp [outShapes, results, h]
  | some o => simp [outShapes, results, h]

theorem outShapes_get {i v : Nat} (h : v < g.results i) : (g.outShapes i)[v]? = some (g.nodeShape (i, v)) := by
  cases ho : g[i]? with
  | none => simp [results, ho] at h
  | some o =>
    rw [results_some ho] at h
    simp [outShapes, nodeShape, ho, List.getD_eq_getElem?_getD, h]

theorem evalR_leaf {i : Nat} (h : (P i).isLeaf = true) (v : Nat) : evalR g P θ i v = θ (i, v) := by
  rw [evalR, if_pos h]

theorem evalR_node (hg : WF g) {i : Nat} (h : (P i).isLeaf = false) : evalR g P θ i = (P i).real (g.argShapes i) (g.argVal P θ i) := by
  rw [evalR, if_neg (by simp [h])]
  congr 1
  funext k
  unfold argVal
  split
  · rename_i a ha
    rw [dif_pos (hg.lt (List.mem_of_getElem? ha))]
  · rfl

theorem Needs.snoc' {i j : Nat} {a : Nat × Nat} (h : Needs g i j) (ha : a ∈ g.argsOf j) : Needs g i a.1 := h.snoc ha

/-- All arguments hold their values. -/
def ArgsHold (d : Nat) (P : Nat → NodeOp ℝ) (g : Graph (Tensor ℝ)) (θ : Nat × Nat → Arr ℝ) (f : Nat × Nat → Res (Tensor ℝ)) (i : Nat) : Prop :=
  ∀ a ∈ g.argsOf i, ∃ t : Tensor ℝ, f a = ok t ∧ t.Holds d (g.nodeShape a) (evalR g P θ a.1 a.2)

theorem ArgsHold.all {f : Nat × Nat → Res (Tensor ℝ)} {i : Nat} (h : ArgsHold d P g θ f i) :
    ∃ xs, mapR f (g.argsOf i) = ok xs ∧ HoldsAll d xs (g.argShapes i) (g.argVal P θ i) := by
  obtain ⟨xs, hxs⟩ := mapR_ok fun a ha => (h a ha).imp fun t ht => ht.1
  refine ⟨xs, hxs, by rw [mapR_length hxs]; simp [argShapes], fun k s hk => ?_⟩
  rw [argShapes, List.getElem?_map] at hk
  cases ha : (g.argsOf i)[k]? with
  | none => rw [ha] at hk; cases hk
  | some a =>
    rw [ha] at hk
    obtain rfl := Option.some.inj hk
    obtain ⟨t, ht, e⟩ := mapR_get hxs ha
    obtain ⟨t', e', hh⟩ := h a (List.mem_of_getElem? ha)
    rw [e] at e'
    obtain rfl := Res.ok.inj e'
    refine ⟨t, ht, ?_⟩
    rw [argVal, ha]
    exact hh

theorem leaf_fw (op : NodeOp ℝ) (hl : op.isLeaf = true) {t : Tensor ℝ} (ht : op.leafValue = some t) {s : Shape} {f : Nat → Arr ℝ} (hh : t.Holds d s (f 0))
    (m : Mem ℝ) : ∃ ys, op.fw p d m [] [Tensor.new d s] = ok ys ∧ HoldsAll d ys [s] f := by
  obtain ⟨l, hl1, hl2, hl3⟩ := hh.buf
  have href : Tensor.refer (Tensor.new d s) t = ok { (Tensor.new d s : Tensor ℝ) with buf := t.buf } := by
    simp [Tensor.refer, Tensor.new, hh.device, hh.shape, Tensor.valid, check]
  have hy : { (Tensor.new d s : Tensor ℝ) with buf := t.buf }.Holds d s (f 0) := ⟨rfl, rfl, rfl, hh.wf, hh.small, l, hl1, hl2, hl3⟩
  cases op with
  | input v =>
    obtain rfl := Option.some.inj ht
    exact ⟨_, by show (do let y ← at' [Tensor.new d s] 0; let y ← y.refer v; ok ([Tensor.new d s].set 0 y)) = _
                 rw [show at' [(Tensor.new d s : Tensor ℝ)] 0 = ok (Tensor.new d s) from rfl, ok_bind, href]; rfl, .mk1 hy⟩
  | parameter v =>
    obtain rfl := Option.some.inj ht
    exact ⟨_, by show (do let y ← at' [Tensor.new d s] 0; let y ← y.refer v; ok ([Tensor.new d s].set 0 y)) = _
                 rw [show at' [(Tensor.new d s : Tensor ℝ)] 0 = ok (Tensor.new d s) from rfl, ok_bind, href]; rfl, .mk1 hy⟩
  | inputOwner v =>
    obtain rfl := Option.some.inj ht
    obtain ⟨y, e, hr⟩ := Tensor.alloc_new hh.wf hh.small p d (m 0)
    obtain ⟨y', e1, h1⟩ := K.resetByTensor_ok (p := p) (u := []) (v := []) hh.flat hr rfl
    have h2 := h1.holds (f := f 0) fun c b hv => Arr.flat_offset hh.wf _ hv
    have hv : y.valid = true := by
      obtain ⟨l', h', _⟩ := hr.buf
      simp [Tensor.valid, h']
    refine ⟨[y'], ?_, .mk1 ?_⟩
    · show (do
        let y ← at' [Tensor.new d s] 0
        let y ← y.alloc p (m 0)
        let _ ← y.dev
        let y ← Dev.resetTensorByTensor p y v
        ok ([Tensor.new d s].set 0 y)) = _
      rw [show at' [(Tensor.new d s : Tensor ℝ)] 0 = ok (Tensor.new d s) from rfl, ok_bind, e, ok_bind]
      have : y.dev = ok d := by simp [Tensor.dev, hr.device, unwrap]
      rw [this, ok_bind]
      unfold Dev.resetTensorByTensor Dev.callFw
      rw [check_true _ hv, ok_bind, check_true _ (by simp [Tensor.valid, hl1]), ok_bind, hr.shape, hh.shape,
        Shape.sizeU_eq hh.small, ok_bind, ok_bind, check_true _ rfl, ok_bind]
      show (K.resetByTensor p [v] [] [] y >>= _) = _
      rw [e1]
      rfl
    · exact h2
  | _ => cases hl

/-- Every needed operator can be evaluated, to the values `evalR`. -/
theorem Point.values (h : Point p d P g root θ) : ∀ (i : Nat) (o : OpInfo (Tensor ℝ)), Needs g root i → g[i]? = some o →
    ∃ ys, den g i = ok ys ∧ HoldsAll d ys (g.outShapes i) (evalR g P θ i) := by
  intro i
  induction i using Nat.strong_induction_on with
  | _ i ih =>
    intro o hn ho
    obtain ⟨⟨m, hop⟩, har, ⟨outs, hsh, hinit⟩, -⟩ := h.ops i o ho
    have hargs : g.argsOf i = o.args := argsOf_some ho
    have houts : g.outShapes i = outs := by
      rw [outShapes_some ho, hinit, List.map_map]
      conv_rhs => rw [← List.map_id outs]
      exact List.map_congr_left fun _ _ => rfl
    rw [den_some ho, houts, hop, hinit]
    cases hl : (P i).isLeaf with
    | true =>
      obtain ⟨t, ht, hh⟩ := h.leaf i hn hl
      have hnil : o.args = [] := by
        cases hP : P i <;> rw [hP] at hl har <;> first | exact List.length_eq_zero_iff.mp har | cases hl
      have hone : outs = [t.shape] := by
        cases hP : P i <;> rw [hP] at hl hsh ht <;> first | (simp only [NodeOp.shapes, Res.ok.injEq] at hsh; obtain rfl := Option.some.inj ht; exact hsh.symm) | cases hl
      have hs0 : g.nodeShape (i, 0) = t.shape := hh.shape.symm
      rw [hnil, hone]
      rw [hs0] at hh
      obtain ⟨ys, e, hy⟩ := leaf_fw (p := p) (P i) hl ht (f := evalR g P θ i) (by rw [evalR_leaf hl]; exact hh) m
      exact ⟨ys, e, hy⟩
    | false =>
      have hA : ArgsHold d P g θ (fun a => if _h : a.1 < i then (do let ys ← den g a.1; at' ys a.2) else panic) i := by
        intro a ha
        rw [hargs] at ha
        obtain ⟨hlt, o', ho', hv, -⟩ := h.wf.args i o ho a ha
        obtain ⟨ys, e, hl, hy⟩ := ih a.1 hlt o' (hn.snoc (by rw [hargs]; exact ha)) ho'
        have hv' : a.2 < g.results a.1 := by rw [results_some ho']; exact hv
        obtain ⟨t, ht, hh⟩ := hy a.2 _ (outShapes_get hv')
        refine ⟨t, ?_, hh⟩
        simp only [hlt, dif_pos, e, ok_bind]
        exact at'_eq_ok.mpr ht
      obtain ⟨xs, hxs, hx⟩ := hA.all
      have hmem : ∀ s, s ∈ g.argShapes i → s.WF ∧ s.size ≤ 2 ^ 31 := fun s hs => by
        obtain ⟨a, ha, rfl⟩ := List.mem_map.mp hs
        obtain ⟨t, _, hh⟩ := hA a ha
        exact ⟨hh.wf, hh.small⟩
      have hloc := local_of_smooth (p := p) (d := d) (m := m) (x := g.argVal P θ i) (P i) (ss := g.argShapes i) (outs := outs) hl
        (by rw [argShapes, List.length_map, hargs]; exact har) (fun s hs => (hmem s hs).1) (fun s hs => (hmem s hs).2)
        (fun s hs => by
          obtain ⟨v, hv⟩ := List.getElem?_of_mem hs
          have hvl : v < g.results i := by
            rw [← outShapes_length, houts]; exact (List.getElem?_eq_some_iff.mp hv).1
          have e := outShapes_get hvl
          rw [houts, hv] at e
          rw [Option.some.inj e]
          exact h.small i v hn hvl)
        (by rw [argShapes, hargs]; exact hsh) (by rw [← houts]; exact h.smooth i hn hl)
      obtain ⟨ys, e, hy⟩ := hloc.1 xs hx
      refine ⟨ys, ?_, by rw [evalR_node h.wf hl]; exact hy⟩
      rw [← hargs, hxs, ok_bind]
      exact e

end Graph
end Verif
