import Verif.NodeLemmas3

/-! # Lemmas for C38: nodes in histories -/

set_option linter.unusedSectionVars false

namespace Verif
open Res
variable {α : Type} [Flt α]

namespace Graph
variable {T : Type} {C : TensorLike T}

/-- The results of an operator were created as null tensors. -/
theorem Hist.init {g : Graph T} {tr : List Nat} (h : Hist C g tr) : ∀ (i : Nat) (o : OpInfo T), g[i]? = some o → ∃ ss : List Shape, o.init = ss.map o.oper.null := by
  induction h with
  | empty => intro i o h; simp at h
  | @create g g' tr op sink args _ hc ih =>
    intro i o ho
    simp only [Graph.create, Res.bind_eq_ok, Res.ok.injEq] at hc
    obtain ⟨xs, _, ss, _, rfl⟩ := hc
    by_cases hi : i < g.length
    · rw [List.getElem?_append_left hi] at ho; exact ih i o ho
    · have hl := mem_lt ho
      simp at hl
      have : i = g.length := by omega
      subst this
      simp at ho
      subst ho
      exact ⟨ss, rfl⟩
  | @forward g g' tr tr' root r hh hr hf ih =>
    obtain ⟨_, _, _, _, _, hran, _⟩ := forward_spec hh.inv hr hf
    intro i o ho
    obtain ⟨o', ho', h1, _, h3, _⟩ := ((hran.same (i + 1)).symm).some (Nat.lt_succ_self i) ho
    obtain ⟨ss, e⟩ := ih i o' ho'
    exact ⟨ss, by rw [← h3, ← h1]; exact e⟩
  | @backward g g1 g' tr tr' popped root hh hr hf hb ih =>
    obtain ⟨hinv, _, _, _, _, hran, _⟩ := forward_spec hh.inv hr hf
    have hs := (backward_spec hinv.wf (by rw [hran.len]; exact hr) hb).2.2.2.same
    intro i o ho
    obtain ⟨o', ho', h1, _, h3, _⟩ := (((hran.same (i + 1)).trans (hs.same (i + 1))).symm).some (Nat.lt_succ_self i) ho
    obtain ⟨ss, e⟩ := ih i o' ho'
    exact ⟨ss, by rw [← h3, ← h1]; exact e⟩
  | @backwardPanic g g1 g' tr tr' popped root hh hr hf _ hs ih =>
    obtain ⟨hinv, _, _, _, _, hran, _⟩ := forward_spec hh.inv hr hf
    intro i o ho
    obtain ⟨o', ho', h1, _, h3, _⟩ := (((hran.same (i + 1)).trans (hs.same (i + 1))).symm).some (Nat.lt_succ_self i) ho
    obtain ⟨ss, e⟩ := ih i o' ho'
    exact ⟨ss, by rw [← h3, ← h1]; exact e⟩

/-- An expression that has a value is made of expressions that have values. -/
theorem den_evaluable {g : Graph T} (hg : WF g) {i : Nat} {ys : List T} (h : den g i = ok ys) : Evaluable g i := by
  induction i using Nat.strong_induction_on generalizing ys with
  | _ i ih =>
    intro j hj
    cases hj with
    | refl => exact ⟨ys, h⟩
    | @arg _ _ a ha hn =>
      cases ho : g[i]? with
      | none => simp [argsOf, ho] at ha
      | some o =>
        rw [argsOf_some ho] at ha
        rw [den_some ho, Res.bind_eq_ok] at h
        obtain ⟨xs, hxs, _⟩ := h
        obtain ⟨x, hx⟩ := mapR_mem hxs ha
        have hlt := (hg.args i o ho a ha).1
        rw [dif_pos hlt, Res.bind_eq_ok] at hx
        obtain ⟨zs, hz, _⟩ := hx
        exact ih a.1 hlt hz j hn

end Graph

/-- An operator of the library only fills the buffers of its results. -/
theorem put_frame {ys ys' : List (Tensor α)} {i : Nat} {t : Tensor α} (h : NodeOp.put ys i t = ok ys') {k : Nat} {y' : Tensor α}
    (hk : ys'[k]? = some y') : ∃ y, ys[k]? = some y ∧ y'.device = y.device ∧ y'.shape = y.shape ∧ y'.host = y.host := by
  simp only [NodeOp.put, Tensor.replace, Res.bind_eq_ok, Res.ok.injEq] at h
  obtain ⟨y, hy, _, ⟨_, _, _, _, _, _, _, _, rfl⟩, rfl⟩ := h
  rw [Graph.at'_eq_ok] at hy
  by_cases e : i = k
  · subst e
    have : i < ys.length := (List.getElem?_eq_some_iff.mp hy).1
    rw [List.getElem?_set_self this] at hk
    obtain rfl := Option.some.inj hk
    exact ⟨y, hy, rfl, rfl, rfl⟩
  · rw [List.getElem?_set_ne e] at hk
    exact ⟨y', hk, rfl, rfl, rfl⟩

theorem refer_set_frame {ys : List (Tensor α)} {y y1 : Tensor α} (hy : Graph.at' ys 0 = ok y) (h : y.device = y1.device ∧ y.shape = y1.shape ∧ y.host = y1.host)
    {k : Nat} {y' : Tensor α} (hk : (ys.set 0 y1)[k]? = some y') : ∃ y, ys[k]? = some y ∧ y'.device = y.device ∧ y'.shape = y.shape ∧ y'.host = y.host := by
  rw [Graph.at'_eq_ok] at hy
  by_cases e : 0 = k
  · subst e
    have : 0 < ys.length := (List.getElem?_eq_some_iff.mp hy).1
    rw [List.getElem?_set_self this] at hk
    obtain rfl := Option.some.inj hk
    exact ⟨y, hy, h.1.symm, h.2.1.symm, h.2.2.symm⟩
  · rw [List.getElem?_set_ne e] at hk
    exact ⟨y', hk, rfl, rfl, rfl⟩

theorem loop_put_frame {n : Nat} {f : Nat → Res (Tensor α)} {ys ys' : List (Tensor α)}
    (h : loop n (fun i ys => do let t ← f i; NodeOp.put ys i t) ys = ok ys') {k : Nat} {y' : Tensor α}
    (hk : ys'[k]? = some y') : ∃ y, ys[k]? = some y ∧ y'.device = y.device ∧ y'.shape = y.shape ∧ y'.host = y.host := by
  induction n generalizing ys' y' with
  | zero => simp only [loop, Res.ok.injEq] at h; subst h; exact ⟨y', hk, rfl, rfl, rfl⟩
  | succ n ih =>
    rw [loop_succ, Res.bind_eq_ok] at h
    obtain ⟨zs, hz, h⟩ := h
    simp only [Res.bind_eq_ok] at h
    obtain ⟨t, _, hp⟩ := h
    obtain ⟨z, h1, h2, h3, h4⟩ := put_frame hp hk
    obtain ⟨y, g1, g2, g3, g4⟩ := ih hz h1
    exact ⟨y, g1, h2.trans g2, h3.trans g3, h4.trans g4⟩

theorem NodeOp.fw_keeps {p : Profile} {d : Nat} {m : Mem α} {op : NodeOp α} {xs ys ys' : List (Tensor α)} (h : op.fw p d m xs ys = ok ys')
    {k : Nat} {y' : Tensor α} (hk : ys'[k]? = some y') : ∃ y, ys[k]? = some y ∧ y'.device = y.device ∧ y'.shape = y.shape ∧ y'.host = y.host := by
  cases op with
  | input v | parameter v =>
    simp only [NodeOp.fw, Tensor.refer, Res.bind_eq_ok, Res.ok.injEq] at h
    obtain ⟨y, hy, _, ⟨_, _, _, _, _, _, _, _, rfl⟩, rfl⟩ := h
    exact refer_set_frame (y1 := { y with buf := v.buf }) hy ⟨rfl, rfl, rfl⟩ hk
  | inputOwner v =>
    simp only [NodeOp.fw, Tensor.alloc, Dev.resetTensorByTensor, Res.bind_eq_ok, Res.ok.injEq] at h
    obtain ⟨y, hy, _, ⟨_, _, _, _, _, _, _, _, _, _, rfl⟩, _, _, y1, ⟨_, _, _, _, _, _, _, _, _, _, hc⟩, rfl⟩ := h
    obtain ⟨h1, h2, h3, _⟩ := callFw_keeps p .resetTensorByTensor [v] [] [] _ y1 hc
    exact refer_set_frame hy ⟨h1.symm, h2.symm, h3.symm⟩ hk
  | split dim n =>
    simp only [NodeOp.fw, Res.bind_eq_ok] at h
    obtain ⟨x, _, _, _, h⟩ := h
    exact loop_put_frame (f := fun i => Dev.fw (.slice dim (i * _) ((i + 1) * _)) p d (m i) [x]) h hk
  | batchSplit n =>
    simp only [NodeOp.fw, Res.bind_eq_ok] at h
    obtain ⟨x, _, _, _, h⟩ := h
    exact loop_put_frame (f := fun i => Dev.fw (.batchSlice (i * _) ((i + 1) * _)) p d (m i) [x]) h hk
  | _ =>
    simp only [NodeOp.fw, Res.bind_eq_ok] at h
    obtain ⟨_, _, h⟩ := h
    exact put_frame h hk

namespace NF

/-- `x` is a node of `g` made by an operator of the library on device `x.dev`. -/
def IsNode (p : Profile) (g : Graph (Tensor α)) (x : Node) : Prop :=
  ∃ (o : OpInfo (Tensor α)) (m : Mem α) (op : NodeOp α), g[x.op]? = some o ∧ o.oper = op.oper p x.dev m ∧ x.vid < o.vals.length

theorem nodeVal_of {C : TensorLike (Tensor α)} {p : Profile} {g : Graph (Tensor α)} {tr : List Nat} (h : Graph.Hist C g tr) {x : Node}
    (hx : IsNode p g x) {t : Tensor α} (hv : value g x = ok t) : NodeVal g x t := by
  obtain ⟨o, m, op, ho, hop, hl⟩ := hx
  have hv' := hv
  simp only [value, Res.bind_eq_ok] at hv'
  obtain ⟨ys, hden, hat⟩ := hv'
  have hden' := hden
  rw [Graph.den_some ho, Res.bind_eq_ok] at hden'
  obtain ⟨xs, _, hfw⟩ := hden'
  obtain ⟨ss, hi⟩ := h.init _ o ho
  rw [hop] at hfw hi
  rw [Graph.at'_eq_ok] at hat
  obtain ⟨y, hy, h1, h2, h3⟩ := NodeOp.fw_keeps (op := op) hfw hat
  rw [hi] at hy
  simp only [List.getElem?_map, Option.map_eq_some_iff] at hy
  obtain ⟨s, hs, rfl⟩ := hy
  refine ⟨Graph.mem_lt ho, hv, h1, h3, ?_⟩
  have hinv := h.inv
  by_cases hf : o.forwarded = true
  · have e := hinv.value _ o ho hf (Graph.den_evaluable hinv.wf hden)
    rw [hden] at e
    obtain rfl := Res.ok.inj e
    exact ⟨t, Graph.val_eq_ok.mpr ⟨o, ho, hat⟩, rfl⟩
  · have e := hinv.fresh _ o ho (by simpa using hf)
    refine ⟨Tensor.new x.dev s, Graph.val_eq_ok.mpr ⟨o, ho, ?_⟩, h2.symm⟩
    rw [e, hi]
    simp only [List.getElem?_map, Node.id, hs, Option.map_some]
    rfl

/-- What C30 says about a node with a value. -/
theorem value_forward {C : TensorLike (Tensor α)} {g : Graph (Tensor α)} {tr : List Nat} (h : Graph.Hist C g tr) {x : Node} (hx : x.op < g.length)
    {t : Tensor α} (hv : value g x = ok t) {g' : Graph (Tensor α)} {tr' : List Nat} {r : Res Unit} (hf : Graph.Forward g x.op g' tr' r) :
    r = ok () ∧ g'.val x.id = ok t := by
  simp only [value, Res.bind_eq_ok] at hv
  obtain ⟨ys, hden, hat⟩ := hv
  obtain ⟨h1, _, h2, _⟩ := Graph.C30_forward_evaluates h hx (Graph.den_evaluable h.inv.wf hden) hf
  refine ⟨h1, ?_⟩
  obtain ⟨o, ho⟩ : ∃ o, g[x.op]? = some o := ⟨g[x.op], by simp [hx]⟩
  obtain ⟨zs, hz, e⟩ := h2 x.op o (.refl _) ho
  rw [hden] at hz
  obtain rfl := Res.ok.inj hz
  rw [Graph.at'_eq_ok] at hat
  exact Graph.val_eq_ok.mpr ⟨_, e, hat⟩

theorem create1_hist {p : Profile} {m : Mem α} {m0 : Nat → α} {g g' : Graph (Tensor α)} {d : Nat} {op : NodeOp α} {xs : List Node} {n : Node}
    (h : create1 p m g d op xs = ok (g', n)) {tr : List Nat} (hh : Graph.Hist (tensorLike p m0) g tr) : Graph.Hist (tensorLike p m0) g' tr := by
  simp only [create1, create, Res.bind_eq_ok, Res.ok.injEq] at h
  obtain ⟨_, ⟨g1, hc, _, _, rfl⟩, _, _, h⟩ := h
  simp only [Prod.mk.injEq] at h
  obtain ⟨rfl, _⟩ := h
  exact .create hh hc

/-- If `forward` succeeds on a node just created from nodes that have values, the node has a value. -/
theorem forward_value {C : TensorLike (Tensor α)} {g g' : Graph (Tensor α)} {tr : List Nat} (h : Graph.Hist C g' tr) {o : OpInfo (Tensor α)} {n : Node}
    {xs : List Node} {ts : List (Tensor α)} (hg : g' = g ++ [o]) (hn : n.op = g.length) (ho : o.args = xs.map Node.id) (hf0 : o.forwarded = false)
    (hx : NodeVals g xs ts) {g'' : Graph (Tensor α)} {tr' : List Nat} (hf : Graph.Forward g' n.op g'' tr' (ok ())) {y : Tensor α}
    (hy : g''.val n.id = ok y) : value g' n = ok y := by
  subst hg
  have hlt : n.op < (g ++ [o]).length := by simp [hn]
  obtain ⟨hinv, _, _, _, _, hran, _, hfail⟩ := Graph.forward_spec h.inv hlt hf
  have harg : ∀ a ∈ (g ++ [o]).argsOf n.op, Graph.Evaluable (g ++ [o]) a.1 := by
    intro a ha
    rw [Graph.argsOf_some (o := o) (by rw [hn]; simp), ho, List.mem_map] at ha
    obtain ⟨x, hxm, rfl⟩ := ha
    obtain ⟨t, hv⟩ : ∃ t, NodeVal g x t := by
      clear ho hf0 hf hy hfail
      induction hx with
      | nil => simp at hxm
      | cons h _ ih =>
        rcases List.mem_cons.mp hxm with rfl | hm
        · exact ⟨_, h⟩
        · exact ih hm
    have hv' := (hv.grow o).val
    simp only [value, Res.bind_eq_ok] at hv'
    obtain ⟨ys, hd, _⟩ := hv'
    exact Graph.den_evaluable h.inv.wf hd
  have hev : Graph.Evaluable (g ++ [o]) n.op := by
    refine hfail rfl ?_
    intro j oj hj hoj hfj
    cases hj with
    | refl =>
      rw [hn] at hoj
      simp at hoj
      subst hoj
      rw [hf0] at hfj; cases hfj
    | arg ha hn' =>
      intro k hk
      exact harg _ ha k (hn'.trans hk)
  obtain ⟨ys, hd⟩ := hev n.op (.refl _)
  obtain ⟨_, _, h2, _⟩ := Graph.C30_forward_evaluates h hlt hev hf
  obtain ⟨zs, hz, e⟩ := h2 n.op o (.refl _) (by rw [hn]; simp)
  obtain ⟨o2, ho2, hv2⟩ := Graph.val_eq_ok.mp hy
  have : o2 = { o with forwarded := true, vals := zs } := Option.some.inj (ho2.symm.trans e)
  subst this
  simp only [value, hz, Res.ok_bind]
  exact Graph.at'_eq_ok.mpr hv2

end NF
end Verif
