import Verif.NodeLemmas5

/-! # Lemmas for C38: split, batch_split, concat, batch_concat, softmax -/

set_option linter.unusedSectionVars false

namespace Verif
open Res
variable {α : Type} [Flt α]

namespace NF

/-- Values of a list of nodes. -/
def values (g : Graph (Tensor α)) (xs : List Node) : Res (List (Tensor α)) := mapR (value g) xs

theorem put_append {d : Nat} {s : Shape} {t : Tensor α} (ht : t.device = some d ∧ t.host = none ∧ t.shape = s) (ret : List (Tensor α)) (k : Nat) :
    NodeOp.put (ret ++ List.replicate (k + 1) (Tensor.new d s)) ret.length t = ok ((ret ++ [t]) ++ List.replicate k (Tensor.new d s)) := by
  obtain ⟨h1, h2, h3⟩ := ht
  have e : ({ (Tensor.new d s : Tensor α) with buf := t.buf } : Tensor α) = t := by
    cases t; simp only [Tensor.new] at *; simp_all
  have hat : Graph.at' (ret ++ List.replicate (k + 1) (Tensor.new d s : Tensor α)) ret.length = ok (Tensor.new d s) := by
    rw [Graph.at'_eq_ok]; simp
  simp only [NodeOp.put, hat, Res.ok_bind]
  have hr : (Tensor.new d s : Tensor α).replace t = ok t := by
    simp only [Tensor.replace]
    rw [check_true _ (by simp [Tensor.new, h1]), check_true _ (by simp [Tensor.new, Tensor.valid]), check_true _ (by simp [Tensor.new, h3]), check_true _ (by simp [Tensor.new])]
    simp only [Res.ok_bind, e]
  rw [hr, Res.ok_bind]
  simp [List.replicate_succ]

theorem loop_parts {d : Nat} {s : Shape} {f : Nat → Res (Tensor α)} (hf : ∀ i t, f i = ok t → t.device = some d ∧ t.host = none ∧ t.shape = s)
    (n k : Nat) (hk : k ≤ n) :
    loop k (fun i ys => do let t ← f i; NodeOp.put ys i t) (List.replicate n (Tensor.new d s)) =
      (do let ret ← loop k (fun i ret => do let t ← f i; ok (ret ++ [t])) []; ok (ret ++ List.replicate (n - k) (Tensor.new d s))) ∧
    ∀ ret, loop k (fun i ret => do let t ← f i; ok (ret ++ [t])) [] = ok ret → ret.length = k := by
  induction k with
  | zero => simp [loop]
  | succ k ih =>
    obtain ⟨ih1, ih2⟩ := ih (by omega)
    rw [loop_succ, loop_succ, ih1]
    constructor
    · cases hl : loop k (fun i ret => do let t ← f i; ok (ret ++ [t])) [] with
      | panic => rfl
      | ub => rfl
      | ok ret =>
        simp only [Res.ok_bind]
        cases ht : f k with
        | panic => rfl
        | ub => rfl
        | ok t =>
          simp only [Res.ok_bind]
          have := put_append (hf k t ht) ret (n - k - 1)
          rw [show n - k = n - k - 1 + 1 by omega, ← ih2 ret hl, ih2 ret hl]
          have e := ih2 ret hl
          rw [e] at this
          rw [this, show n - (k + 1) = n - k - 1 by omega]
    · intro ret hr
      simp only [Res.bind_eq_ok, Res.ok.injEq] at hr
      obtain ⟨ret0, h0, t, _, rfl⟩ := hr
      simp [ih2 ret0 h0]

/-- Creating an operator with `n` results. -/
theorem create_many {p : Profile} {m : Mem α} {g : Graph (Tensor α)} {d : Nat} {op : NodeOp α} {xs : List Node} {ts : List (Tensor α)} (h : NodeVals g xs ts)
    {n : Nat} {s : Shape} (hs : op.shapes p (ts.map Tensor.shape) = ok (List.replicate n s)) :
    ∃ o : OpInfo (Tensor α), create p m g d op none xs = ok (g ++ [o], (List.range n).map fun i => ⟨g.length, i, d⟩) ∧
      o.oper = op.oper p d m ∧ o.init = List.replicate n (Tensor.new d s) ∧ o.vals = o.init ∧ o.args = xs.map Node.id ∧ o.forwarded = false ∧
      Graph.den (g ++ [o]) g.length = op.fw p d m ts (List.replicate n (Tensor.new d s)) := by
  obtain ⟨t0s, hv, hsh⟩ := h.shapes
  refine ⟨⟨op.oper p d m, xs.map Node.id, List.replicate n (Tensor.new d s), List.replicate n (Tensor.new d s), List.replicate n (Tensor.new d s), false,
      ((xs.map Node.id).map fun a => g.depthOf a.1).foldl Max.max 0 + 1, none⟩, ?_, rfl, rfl, rfl, rfl, rfl, ?_⟩
  · have : (op.oper p d m).shapes (t0s.map (tensorLike p (m 0)).shape) = ok (List.replicate n s) := by
      rw [show (tensorLike p (m 0)).shape = (Tensor.shape : Tensor α → Shape) from rfl, hsh]; exact hs
    simp only [create, Graph.create]
    rw [hv, Res.ok_bind, this, Res.ok_bind]
    simp [Graph.at']
    exact Or.inr rfl
  · rw [Graph.den_some (o := _) (by simp; rfl)]
    rw [NodeVals.args h]
    rfl

theorem values_range {g : Graph (Tensor α)} {i d : Nat} {ys : List (Tensor α)} (h : Graph.den g i = ok ys) :
    values g ((List.range ys.length).map fun k => ⟨i, k, d⟩) = ok ys := by
  have key : ∀ k, k ≤ ys.length → mapR (value g) ((List.range' k (ys.length - k)).map fun k => (⟨i, k, d⟩ : Node)) = ok (ys.drop k) := by
    intro k
    induction hk : ys.length - k generalizing k with
    | zero =>
      intro hle
      have : ys.drop k = [] := List.drop_eq_nil_of_le (by omega)
      rw [this]; simp [mapR]
    | succ n ih =>
      intro hle
      have hlt : k < ys.length := by omega
      rw [List.range'_succ, List.map_cons]
      simp only [mapR]
      rw [ih (k + 1) (by omega) (by omega)]
      have : value g ⟨i, k, d⟩ = ok ys[k] := by simp [value, h, Graph.at', hlt]
      rw [this, Res.ok_bind, Res.ok_bind, List.drop_eq_getElem_cons hlt]
  have := key 0 (by omega)
  simpa [values, List.range_eq_range'] using this

/-- A function that creates an operator with parts as results. -/
theorem parts_iff {p : Profile} {m : Mem α} {g : Graph (Tensor α)} {d : Nat} {op : NodeOp α} {x : Node} {t : Tensor α} (h : NodeVal g x t) {n : Nat}
    {f : Nat → Res (Tensor α)} {sz : Res Shape} (hs : op.shapes p [t.shape] = (do let s ← sz; ok (List.replicate n s)))
    (hfw : ∀ ys, op.fw p d m [t] ys = loop n (fun i ys => do let t ← f i; NodeOp.put ys i t) ys)
    (hf : ∀ i t, f i = ok t → t.device = some d ∧ t.host = none ∧ sz = ok t.shape) (hn : n ≠ 0) {ys : List (Tensor α)} :
    (∃ g' ns, create p m g d op none [x] = ok (g', ns) ∧ values g' ns = ok ys) ↔ loop n (fun i ret => do let t ← f i; ok (ret ++ [t])) [] = ok ys := by
  have hch : ∀ ys, loop n (fun i ret => do let t ← f i; ok (ret ++ [t])) [] = ok ys → ∃ s, sz = ok s := by
    intro ys hl
    obtain ⟨k, rfl⟩ : ∃ k, n = k + 1 := ⟨n - 1, by omega⟩
    rw [loop_succ] at hl
    simp only [Res.bind_eq_ok] at hl
    obtain ⟨_, _, t, ht, _⟩ := hl
    exact ⟨_, (hf k t ht).2.2⟩
  have key : ∀ s, sz = ok s → ∃ g' ns, create p m g d op none [x] = ok (g', ns) ∧ ns = (List.range n).map (fun i => ⟨g.length, i, d⟩) ∧
      Graph.den g' g.length = loop n (fun i ret => do let t ← f i; ok (ret ++ [t])) [] := by
    intro s e
    have hs' : op.shapes p ([t].map Tensor.shape) = ok (List.replicate n s) := by simp [hs, e]
    obtain ⟨o, h1, _, _, _, _, _, h7⟩ := create_many (m := m) (d := d) (.cons h .nil) hs'
    refine ⟨_, _, h1, rfl, ?_⟩
    have h8 : ∀ i t, f i = ok t → t.device = some d ∧ t.host = none ∧ t.shape = s := by
      intro i t ht
      obtain ⟨a, b, c⟩ := hf i t ht
      rw [e] at c
      exact ⟨a, b, (Res.ok.inj c).symm⟩
    rw [h7, hfw, (loop_parts h8 n n (le_refl n)).1]
    simp
  constructor
  · rintro ⟨g', ns, hc, hv⟩
    have hsz : ∃ s, sz = ok s := by
      simp only [create, Graph.create, Res.bind_eq_ok] at hc
      obtain ⟨_, ⟨t0s, h0, ss, h1, _⟩, _⟩ := hc
      obtain ⟨t0s', h0', h1'⟩ := (NodeVals.shapes (.cons h .nil) : ∃ t0s, mapR g.val ([x].map Node.id) = ok t0s ∧ t0s.map Tensor.shape = [t].map Tensor.shape)
      rw [h0] at h0'
      obtain rfl := Res.ok.inj h0'
      have : op.shapes p (t0s.map Tensor.shape) = ok ss := h1
      rw [h1', List.map_cons, List.map_nil, hs, Res.bind_eq_ok] at this
      obtain ⟨s, h2, _⟩ := this
      exact ⟨s, h2⟩
    obtain ⟨s, e⟩ := hsz
    obtain ⟨g1, ns1, h1, h2, h3⟩ := key s e
    rw [h1] at hc
    simp only [Res.ok.injEq, Prod.mk.injEq] at hc
    obtain ⟨rfl, rfl⟩ := hc
    rw [h2] at hv
    have hd : ∃ zs, Graph.den g1 g.length = ok zs := by
      obtain ⟨k, rfl⟩ : ∃ k, n = k + 1 := ⟨n - 1, by omega⟩
      rw [List.range_eq_range', List.range'_succ, List.map_cons] at hv
      simp only [values, mapR, value, Res.bind_eq_ok] at hv
      obtain ⟨_, ⟨zs, h4, _⟩, _⟩ := hv
      exact ⟨zs, h4⟩
    obtain ⟨zs, hd⟩ := hd
    have hl : zs.length = n := by
      have h8 : ∀ i t, f i = ok t → t.device = some d ∧ t.host = none ∧ t.shape = s := by
        intro i t ht
        obtain ⟨a, b, c⟩ := hf i t ht
        rw [e] at c
        exact ⟨a, b, (Res.ok.inj c).symm⟩
      exact (loop_parts h8 n n (le_refl n)).2 zs (by rw [← h3]; exact hd)
    have := values_range (d := d) hd
    rw [hl, hv] at this
    obtain rfl := Res.ok.inj this
    rw [← h3, hd]
  · intro hl
    obtain ⟨s, e⟩ := hch ys hl
    obtain ⟨g1, ns1, h1, h2, h3⟩ := key s e
    refine ⟨g1, ns1, h1, ?_⟩
    have h8 : ∀ i t, f i = ok t → t.device = some d ∧ t.host = none ∧ t.shape = s := by
      intro i t ht
      obtain ⟨a, b, c⟩ := hf i t ht
      rw [e] at c
      exact ⟨a, b, (Res.ok.inj c).symm⟩
    have hlen := (loop_parts h8 n n (le_refl n)).2 ys hl
    have := values_range (d := d) (h3.trans hl)
    rw [hlen] at this
    rw [h2, this]

theorem slice_shape_eq {p : Profile} {x s : Shape} {dim i k : Nat} (h : ShapeOps.slice p x dim (i * k) ((i + 1) * k) = ok s) : x.resizeDim p dim k = ok s := by
  simp only [ShapeOps.slice, Res.bind_eq_ok] at h
  obtain ⟨_, _, _, _, h⟩ := h
  rwa [show (i + 1) * k - i * k = k by rw [Nat.add_mul]; omega] at h

theorem batchSlice_shape_eq {x s : Shape} {i k : Nat} (h : ShapeOps.batchSlice x (i * k) ((i + 1) * k) = ok s) : x.resizeBatch k = ok s := by
  simp only [ShapeOps.batchSlice, Res.bind_eq_ok] at h
  obtain ⟨_, _, h⟩ := h
  rwa [show (i + 1) * k - i * k = k by rw [Nat.add_mul]; omega] at h

theorem split_iff {p : Profile} {m : Mem α} {g : Graph (Tensor α)} {x : Node} {t : Tensor α} (h : NodeVal g x t) {dim n : Nat} {ys : List (Tensor α)} :
    (∃ g' ns, split p m g x dim n = ok (g', ns) ∧ values g' ns = ok ys) ↔ TF.split p m t dim n = ok ys := by
  by_cases hn : n = 0
  · subst hn
    constructor
    · rintro ⟨g', ns, hc, _⟩
      obtain ⟨t0, h0, h1⟩ := h.shp
      simp only [split, create, Graph.create, List.map_cons, List.map_nil, mapR, h0, Res.ok_bind] at hc
      simp only [Res.bind_eq_ok] at hc
      obtain ⟨_, ⟨_, h2, _⟩, _⟩ := hc
      simp only [NodeOp.oper, NodeOp.shapes, Res.bind_eq_ok] at h2
      obtain ⟨_, _, _, h3, _⟩ := h2
      simp [check] at h3
    · intro hl
      simp [TF.split, check] at hl
  · by_cases hdiv : t.shape.get dim / n * n = t.shape.get dim
    · have hF : TF.split p m t dim n = loop n (fun i ret => do
          let t ← Dev.fw (.slice dim (i * (t.shape.get dim / n)) ((i + 1) * (t.shape.get dim / n))) p x.dev (m i) [t]
          ok (ret ++ [t])) [] := by
        simp only [TF.split, TF.slice, call_eq h.dev]
        rw [check_true _ hn, check_true _ hdiv]
        rfl
      rw [hF]
      refine parts_iff (op := .split dim n) h (sz := t.shape.resizeDim p dim (t.shape.get dim / n)) ?_ ?_ ?_ hn
      · simp only [NodeOp.shapes, Graph.at', List.getElem?_cons_zero, Res.ok_bind]
        rw [check_true _ hn, check_true _ hdiv]
        rfl
      · intro ys
        simp only [NodeOp.fw, Graph.at', List.getElem?_cons_zero, Res.ok_bind]
        rw [check_true _ hn]
        rfl
      · intro i u hu
        obtain ⟨a, b, c, _⟩ := Dev.fw_frame hu
        exact ⟨a, b, slice_shape_eq c⟩
    · constructor
      · rintro ⟨g', ns, hc, _⟩
        obtain ⟨t0, h0, h1⟩ := h.shp
        simp only [split, create, Graph.create, List.map_cons, List.map_nil, mapR, h0, Res.ok_bind] at hc
        simp only [Res.bind_eq_ok] at hc
        obtain ⟨_, ⟨_, h2, _⟩, _⟩ := hc
        have h2' : (NodeOp.split dim n : NodeOp α).shapes p [t0.shape] = ok _ := h2
        simp only [NodeOp.shapes, Graph.at', List.getElem?_cons_zero, Res.ok_bind, h1] at h2'
        rw [check_true _ hn, Res.ok_bind, check_false _ hdiv, Res.panic_bind] at h2'
        cases h2'
      · intro hl
        simp only [TF.split] at hl
        rw [check_true _ hn, Res.ok_bind, check_false _ hdiv, Res.panic_bind] at hl
        cases hl

theorem batchSplit_iff {p : Profile} {m : Mem α} {g : Graph (Tensor α)} {x : Node} {t : Tensor α} (h : NodeVal g x t) {n : Nat} {ys : List (Tensor α)} :
    (∃ g' ns, batchSplit p m g x n = ok (g', ns) ∧ values g' ns = ok ys) ↔ TF.batchSplit p m t n = ok ys := by
  by_cases hn : n = 0
  · subst hn
    constructor
    · rintro ⟨g', ns, hc, _⟩
      obtain ⟨t0, h0, h1⟩ := h.shp
      simp only [batchSplit, create, Graph.create, List.map_cons, List.map_nil, mapR, h0, Res.ok_bind] at hc
      simp only [Res.bind_eq_ok] at hc
      obtain ⟨_, ⟨_, h2, _⟩, _⟩ := hc
      simp only [NodeOp.oper, NodeOp.shapes, Res.bind_eq_ok] at h2
      obtain ⟨_, _, _, h3, _⟩ := h2
      simp [check] at h3
    · intro hl
      simp [TF.batchSplit, check] at hl
  · by_cases hdiv : t.shape.batch / n * n = t.shape.batch
    · have hF : TF.batchSplit p m t n = loop n (fun i ret => do
          let t ← Dev.fw (.batchSlice (i * (t.shape.batch / n)) ((i + 1) * (t.shape.batch / n))) p x.dev (m i) [t]
          ok (ret ++ [t])) [] := by
        simp only [TF.batchSplit, TF.batchSlice, call_eq h.dev]
        rw [check_true _ hn, check_true _ hdiv]
        rfl
      rw [hF]
      refine parts_iff (op := .batchSplit n) h (sz := t.shape.resizeBatch (t.shape.batch / n)) ?_ ?_ ?_ hn
      · simp only [NodeOp.shapes, Graph.at', List.getElem?_cons_zero, Res.ok_bind]
        rw [check_true _ hn, check_true _ hdiv]
        rfl
      · intro ys
        simp only [NodeOp.fw, Graph.at', List.getElem?_cons_zero, Res.ok_bind]
        rw [check_true _ hn]
        rfl
      · intro i u hu
        obtain ⟨a, b, c, _⟩ := Dev.fw_frame hu
        exact ⟨a, b, batchSlice_shape_eq c⟩
    · constructor
      · rintro ⟨g', ns, hc, _⟩
        obtain ⟨t0, h0, h1⟩ := h.shp
        simp only [batchSplit, create, Graph.create, List.map_cons, List.map_nil, mapR, h0, Res.ok_bind] at hc
        simp only [Res.bind_eq_ok] at hc
        obtain ⟨_, ⟨_, h2, _⟩, _⟩ := hc
        have h2' : (NodeOp.batchSplit n : NodeOp α).shapes p [t0.shape] = ok _ := h2
        simp only [NodeOp.shapes, Graph.at', List.getElem?_cons_zero, Res.ok_bind, h1] at h2'
        rw [check_true _ hn, Res.ok_bind, check_false _ hdiv, Res.panic_bind] at h2'
        cases h2'
      · intro hl
        simp only [TF.batchSplit] at hl
        rw [check_true _ hn, Res.ok_bind, check_false _ hdiv, Res.panic_bind] at hl
        cases hl

/-- `concat` and `batch_concat`. -/
theorem concat_iff {p : Profile} {m : Mem α} {g : Graph (Tensor α)} {xs : List Node} {ts : List (Tensor α)} (h : NodeVals g xs ts) {dim : Nat} {y : Tensor α} :
    (∃ g' n, concat p m g xs dim = ok (g', n) ∧ value g' n = ok y) ↔ TF.concat p (m 0) ts dim = ok y := by
  cases h with
  | nil => simp [concat, TF.concat, check, ix]
  | @cons x t xs ts h hs =>
    simp only [concat, TF.concat, ix, Graph.at', List.getElem?_cons_zero, Res.ok_bind, call_eq h.dev]
    rw [check_true _ (by simp), Res.ok_bind]
    rw [create1_iff (d := x.dev) (op := .concat dim) trivial (.cons h hs) (shapes_single (op := .concat dim) trivial p) (fun y e => by
      obtain ⟨a, b, _⟩ := Dev.fw_frame e
      exact ⟨a, b⟩)]
    constructor
    · exact fun h => h.2
    · intro e
      obtain ⟨_, _, c, _⟩ := Dev.fw_frame e
      refine ⟨?_, e⟩
      simp only [FwOp.shape] at c
      rw [check_true _ (by simp), Res.ok_bind] at c
      simp only [NodeOp.shapes, c, Res.ok_bind]

theorem batchConcat_iff {p : Profile} {m : Mem α} {g : Graph (Tensor α)} {xs : List Node} {ts : List (Tensor α)} (h : NodeVals g xs ts) {y : Tensor α} :
    (∃ g' n, batchConcat p m g xs = ok (g', n) ∧ value g' n = ok y) ↔ TF.batchConcat p (m 0) ts = ok y := by
  cases h with
  | nil => simp [batchConcat, TF.batchConcat, check]
  | @cons x t xs ts h hs =>
    simp only [batchConcat, TF.batchConcat, ix, Graph.at', List.getElem?_cons_zero, Res.ok_bind, call_eq h.dev]
    rw [check_true _ (by simp), Res.ok_bind, check_true _ (by simp), Res.ok_bind]
    rw [create1_iff (d := x.dev) (op := .batchConcat) trivial (.cons h hs) (shapes_single (op := .batchConcat) trivial p) (fun y e => by
      obtain ⟨a, b, _⟩ := Dev.fw_frame e
      exact ⟨a, b⟩)]
    constructor
    · exact fun h => h.2
    · intro e
      obtain ⟨_, _, c, _⟩ := Dev.fw_frame e
      refine ⟨?_, e⟩
      simp only [FwOp.shape] at c
      rw [check_true _ (by simp), Res.ok_bind] at c
      simp only [NodeOp.shapes, c, Res.ok_bind]

/-- `flatten`. -/
theorem flatten_iff {p : Profile} {m : Mem α} {g : Graph (Tensor α)} {x : Node} {t : Tensor α} (h : NodeVal g x t) {y : Tensor α} :
    (∃ g' n, flatten p m g x = ok (g', n) ∧ value g' n = ok y) ↔ TF.flatten p (m 0) t = ok y := by
  unfold flatten TF.flatten
  rw [h.shape, Res.ok_bind]
  cases hs : Shape.new p [t.shape.volume] t.shape.batch with
  | panic => simp
  | ub => simp
  | ok s =>
    simp only [Res.ok_bind]
    have := un1_iff (p := p) (m := m) (op := .reshape s) trivial h (y := y)
    unfold reshape
    rw [this]
    simp only [NodeOp.apply1, Graph.at', List.getElem?_cons_zero, Res.ok_bind, TF.reshape, Tensor.dev, h.dev, unwrap]

/-- A chain: the value of the last node. -/
theorem un1_step {p : Profile} {m : Mem α} {g g' : Graph (Tensor α)} {op : NodeOp α} (hop : Plain op) {x n : Node} {t : Tensor α}
    (h : NodeVal g x t) (hc : un1 op p m g x = ok (g', n)) {y : Tensor α} (hy : op.apply1 p x.dev m [t] = ok y) : NodeVal g' n y ∧ n.dev = x.dev ∧
      ∀ z u, NodeVal g z u → NodeVal g' z u := by
  obtain ⟨g1, n1, h1, h2⟩ := (un1_iff hop h).mpr hy
  rw [hc] at h1
  simp only [Res.ok.injEq, Prod.mk.injEq] at h1
  obtain ⟨rfl, rfl⟩ := h1
  exact create1_nodeVal hop.single hc h2

/-- If a node just created has a value, so have its arguments. -/
theorem value_args {p : Profile} {m : Mem α} {g g' : Graph (Tensor α)} {d : Nat} {op : NodeOp α} (hop : Single op) {xs : List Node} {n : Node}
    (h : create1 p m g d op xs = ok (g', n)) {y : Tensor α} (hv : value g' n = ok y) {x : Node} (hx : x ∈ xs) : ∃ t, value g x = ok t := by
  obtain ⟨o, s, rfl, rfl, h1, h2, h3, h4⟩ := create1_spec hop h
  rw [value, Graph.den_some (o := o) (by simp)] at hv
  simp only [Res.bind_eq_ok] at hv
  obtain ⟨ys, ⟨ts, hm, _⟩, _⟩ := hv
  obtain ⟨t, ht⟩ := mapR_mem hm (a := x.id) (by rw [h2]; exact List.mem_map_of_mem hx)
  refine ⟨t, ?_⟩
  by_cases hlt : x.id.1 < List.length g
  · rw [dif_pos hlt] at ht
    have hs : Graph.SameOps g.length g (g ++ [o]) := fun i hi => by rw [List.getElem?_append_left hi]
    have e : Graph.den g x.op = Graph.den (g ++ [o]) x.op := hs.den hlt
    rw [value, e]
    exact ht
  · rw [dif_neg hlt] at ht; cases ht

/-- `ln_softmax` (`m i`: memory of the i-th operator). -/
theorem lnSoftmax_iff {m : Nat → Mem α} {g : Graph (Tensor α)} {x : Node} {t : Tensor α} (h : NodeVal g x t) (ht : t.shape.WF) {dim : Nat} {y : Tensor α} :
    (∃ g' n, lnSoftmax .debug m g x dim = ok (g', n) ∧ value g' n = ok y) ↔ TF.lnSoftmax .debug (fun i => m i 0) t dim = ok y := by
  have hshape : ∀ {a b : Tensor α}, TF.logsumexp .debug (m 0 0) t dim = ok a → TF.broadcast .debug (m 1 0) a dim (t.shape.get dim) = ok b → b.shape = t.shape := by
    intro a b ha hb
    rw [TF.logsumexp, call_eq h.dev] at ha
    obtain ⟨a1, _, a3, _⟩ := Dev.fw_frame ha
    rw [TF.broadcast, call_eq a1] at hb
    obtain ⟨_, _, b3, _⟩ := Dev.fw_frame hb
    exact rebroadcast ht a3 b3
  constructor
  · rintro ⟨g3, n3, hc, hv⟩
    simp only [lnSoftmax, logsumexp, broadcast, Res.bind_eq_ok] at hc
    obtain ⟨⟨g1, n1⟩, h1, s, hs, ⟨g2, n2⟩, h2, h3⟩ := hc
    have hx1 : NodeVal g1 x t := h.addNode (op := .logsumexp dim) trivial h1
    rw [hx1.shape] at hs
    obtain rfl := Res.ok.inj hs
    have hx2 : NodeVal g2 x t := hx1.addNode (op := .broadcast dim (t.shape.get dim)) trivial h2
    have hb : ∃ b, value g2 n2 = ok b := by
      simp only [sub, ab, hx2.shape, Res.ok_bind] at h3
      split at h3
      · exact value_args (op := .sc .subL) trivial h3 hv (by simp)
      · simp only [Res.bind_eq_ok] at h3
        obtain ⟨_, _, h3⟩ := h3
        split at h3
        · exact value_args (op := .sc .subR) trivial h3 hv (by simp)
        · exact value_args (op := .bi .sub) trivial h3 hv (by simp)
    obtain ⟨b, hb⟩ := hb
    obtain ⟨a, ha⟩ := value_args (op := .broadcast dim (t.shape.get dim)) trivial h2 hb (x := n1) (by simp)
    have ha' := (un1_iff (op := .logsumexp dim) trivial h).mp ⟨g1, n1, h1, ha⟩
    obtain ⟨nv1, d1, _⟩ := create1_nodeVal (op := .logsumexp dim) trivial h1 ha
    have hb' := (un1_iff (op := .broadcast dim (t.shape.get dim)) trivial nv1).mp ⟨g2, n2, h2, hb⟩
    obtain ⟨nv2, d2, _⟩ := create1_nodeVal (op := .broadcast dim (t.shape.get dim)) trivial h2 hb
    have ea : TF.logsumexp .debug (m 0 0) t dim = ok a := by rw [TF.logsumexp, call_eq h.dev]; exact ha'
    have eb : TF.broadcast .debug (m 1 0) a dim (t.shape.get dim) = ok b := by rw [TF.broadcast, call_eq nv1.dev]; exact hb'
    simp only [TF.lnSoftmax, ea, eb, Res.ok_bind]
    exact (ab_iff hx2 nv2 (by rw [hshape ea eb]) .sub .subL .subR).mp ⟨g3, n3, h3, hv⟩
  · intro hy
    simp only [TF.lnSoftmax, Res.bind_eq_ok] at hy
    obtain ⟨a, ea, b, eb, hy⟩ := hy
    have ha' : (NodeOp.logsumexp dim : NodeOp α).apply1 .debug x.dev (m 0) [t] = ok a := by rw [TF.logsumexp, call_eq h.dev] at ea; exact ea
    obtain ⟨g1, n1, h1, hv1⟩ := (un1_iff (op := .logsumexp dim) trivial h).mpr ha'
    obtain ⟨nv1, d1, k1⟩ := un1_step (op := .logsumexp dim) trivial h h1 ha'
    have hb' : (NodeOp.broadcast dim (t.shape.get dim) : NodeOp α).apply1 .debug n1.dev (m 1) [a] = ok b := by
      rw [TF.broadcast, call_eq nv1.dev] at eb; exact eb
    obtain ⟨g2, n2, h2, hv2⟩ := (un1_iff (op := .broadcast dim (t.shape.get dim)) trivial nv1).mpr hb'
    obtain ⟨nv2, d2, k2⟩ := un1_step (op := .broadcast dim (t.shape.get dim)) trivial nv1 h2 hb'
    have hx2 := k2 x t (k1 x t h)
    obtain ⟨g3, n3, h3, hv3⟩ := (ab_iff hx2 nv2 (by rw [hshape ea eb]) .sub .subL .subR).mpr hy
    refine ⟨g3, n3, ?_, hv3⟩
    simp only [lnSoftmax, logsumexp, broadcast, h1, Res.ok_bind, (k1 x t h).shape, h2]
    exact h3

/-- `softmax`. -/
theorem softmax_iff {m : Nat → Mem α} {g : Graph (Tensor α)} {x : Node} {t : Tensor α} (h : NodeVal g x t) (ht : t.shape.WF) {dim : Nat} {y : Tensor α} :
    (∃ g' n, softmax .debug m g x dim = ok (g', n) ∧ value g' n = ok y) ↔ TF.softmax .debug (fun i => m i 0) t dim = ok y := by
  have hsub : ∀ {g1 : Graph (Tensor α)} {n1 : Node} {a : Tensor α}, lnSoftmax .debug m g x dim = ok (g1, n1) → value g1 n1 = ok a → NodeVal g1 n1 a := by
    intro g1 n1 a h1 hv
    simp only [lnSoftmax, Res.bind_eq_ok, sub, ab] at h1
    obtain ⟨_, _, _, _, ⟨g2, n2⟩, _, _, _, h3⟩ := h1
    split at h3
    · exact (create1_nodeVal (op := .sc .subL) trivial h3 hv).1
    · simp only [Res.bind_eq_ok] at h3
      obtain ⟨_, _, h3⟩ := h3
      split at h3
      · exact (create1_nodeVal (op := .sc .subR) trivial h3 hv).1
      · exact (create1_nodeVal (op := .bi .sub) trivial h3 hv).1
  constructor
  · rintro ⟨g2, n2, hc, hv⟩
    simp only [softmax, exp, Res.bind_eq_ok] at hc
    obtain ⟨⟨g1, n1⟩, h1, h2⟩ := hc
    obtain ⟨a, ha⟩ := value_args (op := .un .exp) trivial h2 hv (x := n1) (by simp)
    have e1 := (lnSoftmax_iff h ht).mp ⟨g1, n1, h1, ha⟩
    have nv := hsub h1 ha
    have e2 := (un1_iff (op := .un .exp) trivial nv).mp ⟨g2, n2, h2, hv⟩
    simp only [TF.softmax, e1, Res.ok_bind, TF.exp, call_eq nv.dev]
    exact e2
  · intro hy
    simp only [TF.softmax, Res.bind_eq_ok] at hy
    obtain ⟨a, ea, hy⟩ := hy
    obtain ⟨g1, n1, h1, hv1⟩ := (lnSoftmax_iff h ht).mpr ea
    have nv := hsub h1 hv1
    obtain ⟨g2, n2, h2, hv2⟩ := (un1_iff (p := .debug) (m := m 3) (op := .un .exp) trivial nv (y := y)).mpr (by
      rw [TF.exp, call_eq nv.dev] at hy; exact hy)
    refine ⟨g2, n2, ?_, hv2⟩
    simp only [softmax, exp, h1, Res.ok_bind]
    exact h2

theorem fw_devices {op : FwOp α} {p : Profile} {d : Nat} {m : Nat → α} {xs : List (Tensor α)} {y : Tensor α} (h : Dev.fw op p d m xs = ok y) :
    ∀ x, x ∈ xs → x.device = some d := by
  unfold Dev.fw at h
  rw [Res.bind_eq_ok] at h
  obtain ⟨u, hu, _⟩ := h
  exact Dev.onAll_eq_ok.mp hu

theorem abOp_devices {p : Profile} {m : Nat → α} {fw : Bi} {l r : Sc} {t1 t2 y : Tensor α} {d : Nat} (hd : t1.device = some d)
    (h : TF.abOp fw l r p m t1 t2 = ok y) : t2.device = some d := by
  unfold TF.abOp at h
  simp only [call_eq hd] at h
  split at h
  · exact fw_devices h t2 (by simp)
  · split at h <;> exact fw_devices h t2 (by simp)

/-- `softmax_cross_entropy`. -/
theorem sce_iff {m : Mem α} {g : Graph (Tensor α)} {x1 x2 : Node} {t1 t2 : Tensor α} (h1 : NodeVal g x1 t1) (h2 : NodeVal g x2 t2)
    (w1 : t1.shape.WF) (w2 : t2.shape.WF) (hk : t1.shape.isScalar = t2.shape.isScalar) {dim : Nat} {y : Tensor α} :
    (∃ g' n, softmaxCrossEntropy .debug m g x1 x2 dim = ok (g', n) ∧ value g' n = ok y) ↔ TF.softmaxCrossEntropy .debug m t1 t2 dim = ok y := by
  have hframe : ∀ y, TF.softmaxCrossEntropy .debug m t1 t2 dim = ok y → y.device = some x1.dev ∧ y.host = none ∧
      (NodeOp.softmaxCrossEntropy dim : NodeOp α).shapes .debug [t1.shape, t2.shape] = ok [y.shape] := by
    intro y e
    simp only [TF.softmaxCrossEntropy, Res.bind_eq_ok] at e
    obtain ⟨a, ea, b, eb, c, ec, e⟩ := e
    obtain ⟨a1, a2, a3⟩ := lnSoftmax_frame h1.dev w1 ea
    obtain ⟨b1, b2, b3⟩ := abOp_frame h2.dev eb
    rw [TF.sum, call_eq b1] at ec
    obtain ⟨c1, c2, c3, _⟩ := Dev.fw_frame ec
    rw [TF.neg, call_eq c1] at e
    obtain ⟨d1, d2, d3, _⟩ := Dev.fw_frame e
    have hd := abOp_devices h2.dev eb
    rw [a1] at hd
    rw [hd]
    refine ⟨d1, d2, ?_⟩
    simp only [List.map_cons, List.map_nil, FwOp.shape] at c3 d3
    have d4 := Res.ok.inj d3
    have hb : ShapeOps.elementwise t1.shape t2.shape = ok b.shape := by
      rw [a3] at b3
      cases hs : t2.shape.isScalar with
      | true =>
        rw [hs] at b3 hk
        rw [elementwise_scalar hk hs]
        simpa using b3
      | false =>
        rw [hs] at b3 hk
        rw [hk] at b3
        simp only [Bool.false_eq_true, if_false] at b3
        rw [Shape.elementwise_iff w2 w1] at b3
        obtain ⟨e1, e2, e3⟩ := b3
        rw [Shape.elementwise_iff w1 w2]
        refine ⟨fun i => (e1 i).symm, ?_, ?_⟩
        · rcases e2 with e2 | e2 | e2
          · exact Or.inl e2.symm
          · exact Or.inr (Or.inr e2)
          · exact Or.inr (Or.inl e2)
        · exact ⟨e3.1, fun i => (e3.2.1 i).trans (e1 i), by rw [e3.2.2]; exact Nat.max_comm _ _⟩
    simp only [NodeOp.shapes, Graph.at', List.getElem?_cons_zero, List.getElem?_cons_succ, Res.ok_bind, hb, c3, d4]
  unfold softmaxCrossEntropy bin1
  rw [create1_iff (d := x1.dev) (op := .softmaxCrossEntropy dim) trivial (.cons h1 (.cons h2 .nil)) (shapes_single (op := .softmaxCrossEntropy dim) trivial _)
    (fun y e => ⟨(hframe y e).1, (hframe y e).2.1⟩)]
  constructor
  · exact fun h => h.2
  · exact fun e => ⟨(hframe y e).2.2, e⟩

/-- `sparse_softmax_cross_entropy`. -/
theorem ssce_iff {m : Mem α} {g : Graph (Tensor α)} {x : Node} {t : Tensor α} (h : NodeVal g x t) (w : t.shape.WF) {ids : List Nat} {dim : Nat} {y : Tensor α} :
    (∃ g' n, sparseSoftmaxCrossEntropy .debug m g x ids dim = ok (g', n) ∧ value g' n = ok y) ↔ TF.sparseSoftmaxCrossEntropy .debug m t ids dim = ok y := by
  have hframe : ∀ y, TF.sparseSoftmaxCrossEntropy .debug m t ids dim = ok y → y.device = some x.dev ∧ y.host = none ∧
      (NodeOp.sparseSoftmaxCrossEntropy ids dim : NodeOp α).shapes .debug [t.shape] = ok [y.shape] := by
    intro y e
    simp only [TF.sparseSoftmaxCrossEntropy, Res.bind_eq_ok] at e
    obtain ⟨a, ea, b, eb, e⟩ := e
    obtain ⟨a1, a2, a3⟩ := lnSoftmax_frame h.dev w ea
    rw [call_eq a1] at eb
    obtain ⟨b1, b2, b3, _⟩ := Dev.fw_frame eb
    rw [TF.neg, call_eq b1] at e
    obtain ⟨c1, c2, c3, _⟩ := Dev.fw_frame e
    refine ⟨c1, c2, ?_⟩
    simp only [List.map_cons, List.map_nil, FwOp.shape, a3] at b3 c3
    simp only [NodeOp.shapes, Graph.at', List.getElem?_cons_zero, Res.ok_bind, b3, Res.ok.inj c3]
  unfold sparseSoftmaxCrossEntropy un1
  rw [create1_iff (d := x.dev) (op := .sparseSoftmaxCrossEntropy ids dim) trivial (.cons h .nil) (shapes_single (op := .sparseSoftmaxCrossEntropy ids dim) trivial _)
    (fun y e => ⟨(hframe y e).1, (hframe y e).2.1⟩)]
  constructor
  · exact fun h => h.2
  · exact fun e => ⟨(hframe y e).2.2, e⟩

end NF
end Verif
