import Verif.AdLocal7
import Verif.GraphLater
import Verif.PropsShape

/-!
# Graphs made of the operators of the library
-/

set_option linter.unusedSectionVars false

namespace Verif
open Res
attribute [local instance] realFlt

namespace Graph

/-- Everything a program can do with a graph of the operators of the library on device `d` (as `Hist`); `P i` is operator `i`.  The shapes
are computed without overflow (in a debug build: always). -/
inductive Made (p : Profile) (d : Nat) (m0 : Nat → ℝ) (P : Nat → NodeOp ℝ) : Graph (Tensor ℝ) → List Nat → Prop
  | empty : Made p d m0 P [] []
  | create {g g' : Graph (Tensor ℝ)} {tr : List Nat} {m : Mem ℝ} {sink : Option (Tensor ℝ)} {args : List (Nat × Nat)} :
      Made p d m0 P g tr → (P g.length).Arity args.length → (∃ outs, (P g.length).shapes .debug (args.map g.nodeShape) = ok outs) →
      create (tensorLike p m0) g ((P g.length).oper p d m) sink args = ok g' → Made p d m0 P g' tr
  | forward {g g' : Graph (Tensor ℝ)} {tr tr' : List Nat} {root : Nat} {r : Res Unit} :
      Made p d m0 P g tr → root < g.length → Forward g root g' tr' r → Made p d m0 P g' (tr ++ tr')
  | backward {g g1 g' : Graph (Tensor ℝ)} {tr tr' popped : List Nat} {root : Nat} :
      Made p d m0 P g tr → root < g.length → Forward g root g1 tr' (ok ()) → BackwardOnly (tensorLike p m0) g1 root popped (ok g') →
      Made p d m0 P g' (tr ++ tr')
  | backwardPanic {g g1 g' : Graph (Tensor ℝ)} {tr tr' popped : List Nat} {root : Nat} :
      Made p d m0 P g tr → root < g.length → Forward g root g1 tr' (ok ()) → BackwardOnly (tensorLike p m0) g1 root popped panic →
      SameValues g1 g' → Made p d m0 P g' (tr ++ tr')

variable {p : Profile} {d : Nat} {m0 : Nat → ℝ} {P : Nat → NodeOp ℝ}

theorem Made.hist {g : Graph (Tensor ℝ)} {tr : List Nat} (h : Made p d m0 P g tr) : Hist (tensorLike p m0) g tr := by
  induction h with
  | empty => exact .empty
  | create _ _ _ hc ih => exact ih.create hc
  | forward _ hr hf ih => exact ih.forward hr hf
  | backward _ hr hf hb ih => exact ih.backward hr hf hb
  | backwardPanic _ hr hf hb hs ih => exact ih.backwardPanic hr hf hb hs

theorem _root_.Verif.NodeOp.shapes_refines (op : NodeOp ℝ) (ss : List Shape) : Refines (op.shapes .debug ss) (op.shapes .release ss) := by
  obtain ⟨-, h2, -, -, -, h6, h7, h8, h9, h10, h11, h12⟩ := C08_release_agrees
  cases op with
  | sum => exact .bind .rfl fun _ => .bind (h2 _ _ _) fun _ => .rfl
  | max => exact .bind .rfl fun _ => .bind (h2 _ _ _) fun _ => .rfl
  | min => exact .bind .rfl fun _ => .bind (h2 _ _ _) fun _ => .rfl
  | logsumexp => exact .bind .rfl fun _ => .bind (h2 _ _ _) fun _ => .rfl
  | broadcast => exact .bind .rfl fun _ => .bind (h6 _ _ _) fun _ => .rfl
  | softmaxCrossEntropy => exact .bind .rfl fun _ => .bind .rfl fun _ => .bind .rfl fun _ => .bind (h2 _ _ _) fun _ => .rfl
  | sparseSoftmaxCrossEntropy => exact .bind .rfl fun _ => .bind (h10 _ _ _) fun _ => .rfl
  | matmul => exact .bind .rfl fun _ => .bind .rfl fun _ => .bind (h7 _ _) fun _ => .rfl
  | transpose => exact .bind .rfl fun _ => .bind (h8 _) fun _ => .rfl
  | slice => exact .bind .rfl fun _ => .bind (h9 _ _ _ _) fun _ => .rfl
  | split => exact .bind .rfl fun _ => .bind .rfl fun _ => .bind .rfl fun _ => .bind (h2 _ _ _) fun _ => .rfl
  | pick => exact .bind .rfl fun _ => .bind (h10 _ _ _) fun _ => .rfl
  | concat => exact .bind (h11 _ _) fun _ => .rfl
  | batchConcat => exact .bind (h12 _) fun _ => .rfl
  | _ => exact .rfl

theorem shapes_any {op : NodeOp ℝ} {ss outs outs' : List Shape} (h : op.shapes .debug ss = ok outs) (h' : op.shapes p ss = ok outs') : outs' = outs := by
  cases p with
  | debug => rw [h] at h'; exact (Res.ok.inj h').symm
  | release => rw [op.shapes_refines ss outs h] at h'; exact (Res.ok.inj h').symm

theorem replace_shape {a b c : Tensor ℝ} (h : a.replace b = ok c) : c.shape = a.shape := by
  simp only [Tensor.replace, Res.bind_eq_ok, Res.ok.injEq] at h
  obtain ⟨_, _, _, _, _, _, _, _, rfl⟩ := h
  rfl

theorem set_shapes {ys : List (Tensor ℝ)} {i : Nat} {y y' : Tensor ℝ} (hy : ys[i]? = some y) (h : y'.shape = y.shape) :
    (ys.set i y').map Tensor.shape = ys.map Tensor.shape := by
  refine List.ext_getElem? fun k => ?_
  by_cases hk : k = i
  · subst hk
    have hi := (List.getElem?_eq_some_iff.mp hy).1
    have : ys[k] = y := (List.getElem?_eq_some_iff.mp hy).2
    simp [hi, h, this]
  · simp [List.getElem?_set_ne (Ne.symm hk)]

theorem put_shapes {ys ys' : List (Tensor ℝ)} {i : Nat} {t : Tensor ℝ} (h : NodeOp.put ys i t = ok ys') : ys'.map Tensor.shape = ys.map Tensor.shape := by
  simp only [NodeOp.put, Res.bind_eq_ok, Res.ok.injEq, at'_eq_ok] at h
  obtain ⟨y, hy, y', hr, rfl⟩ := h
  exact set_shapes hy (replace_shape hr)

theorem loop_put_shapes {n : Nat} {f : Nat → Res (Tensor ℝ)} {ys ys' : List (Tensor ℝ)}
    (h : loop n (fun i ys => do let t ← f i; NodeOp.put ys i t) ys = ok ys') : ys'.map Tensor.shape = ys.map Tensor.shape := by
  induction n generalizing ys' with
  | zero => simp only [loop, Res.ok.injEq] at h; rw [h]
  | succ n ih =>
    rw [loop_succ, Res.bind_eq_ok] at h
    obtain ⟨zs, hz, h⟩ := h
    simp only [Res.bind_eq_ok] at h
    obtain ⟨t, _, hp⟩ := h
    rw [put_shapes hp, ih hz]

theorem _root_.Verif.NodeOp.fw_shapes (p : Profile) (d : Nat) (m : Mem ℝ) (op : NodeOp ℝ) (xs ys ys' : List (Tensor ℝ))
    (h : op.fw p d m xs ys = ok ys') : ys'.map Tensor.shape = ys.map Tensor.shape := by
  have refer_shape : ∀ {a b c : Tensor ℝ}, a.refer b = ok c → c.shape = a.shape := by
    intro a b c h
    simp only [Tensor.refer, Res.bind_eq_ok, Res.ok.injEq] at h
    obtain ⟨_, _, _, _, _, _, _, _, rfl⟩ := h
    rfl
  cases op with
  | input v =>
    simp only [NodeOp.fw, Res.bind_eq_ok, Res.ok.injEq, at'_eq_ok] at h
    obtain ⟨y, hy, y', hr, rfl⟩ := h
    exact set_shapes hy (refer_shape hr)
  | parameter v =>
    simp only [NodeOp.fw, Res.bind_eq_ok, Res.ok.injEq, at'_eq_ok] at h
    obtain ⟨y, hy, y', hr, rfl⟩ := h
    exact set_shapes hy (refer_shape hr)
  | inputOwner v =>
    simp only [NodeOp.fw, Res.bind_eq_ok, Res.ok.injEq, at'_eq_ok] at h
    obtain ⟨y, hy, y1, h1, _, _, y2, h2, rfl⟩ := h
    refine set_shapes hy ?_
    unfold Dev.resetTensorByTensor Tensor.alloc at *
    simp only [Res.bind_eq_ok, Res.ok.injEq] at h1 h2
    obtain ⟨_, _, _, _, _, _, _, _, _, _, rfl⟩ := h1
    obtain ⟨_, _, _, _, _, _, _, _, _, _, h2⟩ := h2
    exact (callFw_keeps p .resetTensorByTensor [v] [] [] _ _ h2).2.1
  | split dim n =>
    simp only [NodeOp.fw, Res.bind_eq_ok] at h
    obtain ⟨x, _, _, _, h⟩ := h
    exact loop_put_shapes (f := fun i => Dev.fw (.slice dim (i * _) ((i + 1) * _)) p d (m i) [x]) h
  | batchSplit n =>
    simp only [NodeOp.fw, Res.bind_eq_ok] at h
    obtain ⟨x, _, _, _, h⟩ := h
    exact loop_put_shapes (f := fun i => Dev.fw (.batchSlice (i * _) ((i + 1) * _)) p d (m i) [x]) h
  | _ =>
    simp only [NodeOp.fw, Res.bind_eq_ok] at h
    obtain ⟨_, _, h⟩ := h
    exact put_shapes h

theorem _root_.Verif.NodeOp.left_shapes (p : Profile) (d : Nat) (m : Mem ℝ) (op : NodeOp ℝ) (xs ys : List (Tensor ℝ)) :
    (op.left p d m xs ys).map Tensor.shape = ys.map Tensor.shape := by
  have hput : ∀ (f : Nat → Res (Tensor ℝ)) (n : Nat),
      (NodeOp.loopLeft n (fun i ys => do let t ← f i; NodeOp.put ys i t) ys).map Tensor.shape = ys.map Tensor.shape := by
    intro f n
    refine NodeOp.loopLeft_keeps (P := fun zs : List (Tensor ℝ) => zs.map Tensor.shape = ys.map Tensor.shape) rfl fun i zs ws hzs h => ?_
    simp only [Res.bind_eq_ok] at h
    obtain ⟨t, _, hp⟩ := h
    exact (put_shapes hp).trans hzs
  cases op <;> simp only [NodeOp.left]
  case inputOwner v =>
    split
    · rename_i z hz
      obtain ⟨y, hy, hz⟩ := Res.bind_eq_ok.mp hz
      refine set_shapes (at'_eq_ok.mp hy) ?_
      simp only [Tensor.alloc, Res.bind_eq_ok, Res.ok.injEq] at hz
      obtain ⟨_, _, _, _, _, _, _, _, _, _, rfl⟩ := hz
      rfl
    · rfl
  case split dim n =>
    split
    · rename_i x _
      exact hput (fun i => Dev.fw (.slice dim (i * (x.shape.get dim / n)) ((i + 1) * (x.shape.get dim / n))) p d (m i) [x]) n
    · rfl
  case batchSplit n =>
    split
    · rename_i x _
      exact hput (fun i => Dev.fw (.batchSlice (i * (x.shape.batch / n)) ((i + 1) * (x.shape.batch / n))) p d (m i) [x]) n
    · rfl

/-- What is known of an operator of a graph made of library operators. -/
structure OpAt (p : Profile) (d : Nat) (P : Nat → NodeOp ℝ) (g : Graph (Tensor ℝ)) (i : Nat) (o : OpInfo (Tensor ℝ)) : Prop where
  oper : ∃ m, o.oper = (P i).oper p d m
  arity : (P i).Arity o.args.length
  shapes : ∃ outs, (P i).shapes .debug (o.args.map g.nodeShape) = ok outs ∧ o.init = outs.map (Tensor.new d)
  vals : o.vals.map Tensor.shape = o.init.map Tensor.shape

theorem nodeShape_same {n : Nat} {g g' : Graph (Tensor ℝ)} (h : SameOps n g g') {a : Nat × Nat} (ha : a.1 < n) : g'.nodeShape a = g.nodeShape a := by
  unfold nodeShape
  cases ho : g[a.1]? with
  | none =>
    have := h a.1 ha
    rw [ho] at this
    cases ho' : g'[a.1]? with
    | none => rfl
    | some o => rw [ho'] at this; simp at this
  | some o =>
    obtain ⟨o', e, -, -, e2, -⟩ := h.some ha ho
    simp [e, e2]

theorem fwRun_vals (l : List Nat) {g : Graph (Tensor ℝ)}
    (h : ∀ (i : Nat) (o : OpInfo (Tensor ℝ)), g[i]? = some o → (∃ m, o.oper = (P i).oper p d m) ∧ o.vals.map Tensor.shape = o.init.map Tensor.shape)
    {g' : Graph (Tensor ℝ)} {tr : List Nat} {r : Res Unit} (hr : fwRun l g = (g', tr, r)) :
    ∀ (i : Nat) (o : OpInfo (Tensor ℝ)), g'[i]? = some o → (∃ m, o.oper = (P i).oper p d m) ∧ o.vals.map Tensor.shape = o.init.map Tensor.shape := by
  induction l generalizing g tr with
  | nil =>
    simp only [fwRun, Prod.mk.injEq] at hr
    obtain ⟨rfl, -, -⟩ := hr
    exact h
  | cons i l ih =>
    have one : ∀ g1 b r1, fwOne g i = (g1, b, r1) →
        ∀ (i : Nat) (o : OpInfo (Tensor ℝ)), g1[i]? = some o → (∃ m, o.oper = (P i).oper p d m) ∧ o.vals.map Tensor.shape = o.init.map Tensor.shape := by
      intro g1 b r1 e
      unfold fwOne at e
      cases ho : g[i]? with
      | none => rw [ho] at e; simp only [Prod.mk.injEq] at e; obtain ⟨rfl, -, -⟩ := e; exact h
      | some o =>
        rw [ho] at e
        simp only at e
        have hi := mem_lt ho
        split at e
        · simp only [Prod.mk.injEq] at e; obtain ⟨rfl, -, -⟩ := e; exact h
        · obtain ⟨⟨m, hm⟩, hv⟩ := h i o ho
          split at e
          · rename_i ys hys
            simp only [Prod.mk.injEq] at e; obtain ⟨rfl, -, -⟩ := e
            intro j o' hj
            by_cases hij : i = j
            · subst hij
              simp [hi] at hj; subst hj
              refine ⟨⟨m, hm⟩, ?_⟩
              simp only [Res.bind_eq_ok, hm] at hys
              obtain ⟨xs, _, hys⟩ := hys
              exact (NodeOp.fw_shapes p d m (P i) xs _ _ hys).trans hv
            · rw [List.getElem?_set_ne hij] at hj; exact h j o' hj
          · simp only [Prod.mk.injEq] at e; obtain ⟨rfl, -, -⟩ := e
            intro j o' hj
            by_cases hij : i = j
            · subst hij; simp [hi] at hj; subst hj
              refine ⟨⟨m, hm⟩, Eq.trans ?_ hv⟩
              show (leftOf g o).map Tensor.shape = _
              unfold leftOf
              split
              · rw [hm]; exact NodeOp.left_shapes p d m (P i) _ _
              · rfl
            · rw [List.getElem?_set_ne hij] at hj; exact h j o' hj
          · simp only [Prod.mk.injEq] at e; obtain ⟨rfl, -, -⟩ := e
            intro j o' hj
            by_cases hij : i = j
            · subst hij; simp [hi] at hj; subst hj
              refine ⟨⟨m, hm⟩, Eq.trans ?_ hv⟩
              show (leftOf g o).map Tensor.shape = _
              unfold leftOf
              split
              · rw [hm]; exact NodeOp.left_shapes p d m (P i) _ _
              · rfl
            · rw [List.getElem?_set_ne hij] at hj; exact h j o' hj
    rw [fwRun] at hr
    split at hr
    · rename_i g1 b e
      have h1 := one _ _ _ e
      cases h2 : fwRun l g1 with
      | mk g2 r2 =>
        obtain ⟨t2, r2⟩ := r2
        rw [h2] at hr
        simp only [Prod.mk.injEq] at hr
        obtain ⟨rfl, -, rfl⟩ := hr
        exact ih h1 h2
    · rename_i g1 b r1 _ e
      simp only [Prod.mk.injEq] at hr
      obtain ⟨rfl, -, rfl⟩ := hr
      exact one _ _ _ e

theorem OpAt.of_same {g g' : Graph (Tensor ℝ)} (hg : WF g) (hs : SameOps g.length g g') (hl : g'.length = g.length)
    (h : ∀ (i : Nat) (o : OpInfo (Tensor ℝ)), g[i]? = some o → OpAt p d P g i o)
    (hv : ∀ (i : Nat) (o : OpInfo (Tensor ℝ)), g'[i]? = some o → o.vals.map Tensor.shape = o.init.map Tensor.shape) :
    ∀ (i : Nat) (o : OpInfo (Tensor ℝ)), g'[i]? = some o → OpAt p d P g' i o := by
  intro i o ho
  have hi : i < g.length := by rw [← hl]; exact mem_lt ho
  obtain ⟨o1, h1⟩ : ∃ o1, g[i]? = some o1 := ⟨g[i], by simp [hi]⟩
  obtain ⟨o', e, e1, e2, e3, -⟩ := hs.some hi h1
  rw [ho] at e
  obtain rfl := Option.some.inj e
  obtain ⟨a1, a2, ⟨outs, a3, a4⟩, a5⟩ := h i o1 h1
  refine ⟨by rw [e1]; exact a1, by rw [e2]; exact a2, ⟨outs, ?_, by rw [e3]; exact a4⟩, hv i o ho⟩
  rw [← a3, e2]
  congr 1
  refine List.map_congr_left fun a ha => ?_
  exact nodeShape_same hs (lt_trans (hg.args i o1 h1 a ha).1 hi)

theorem Made.ops {g : Graph (Tensor ℝ)} {tr : List Nat} (h : Made p d m0 P g tr) :
    ∀ (i : Nat) (o : OpInfo (Tensor ℝ)), g[i]? = some o → OpAt p d P g i o := by
  have fwd : ∀ {g g' : Graph (Tensor ℝ)} {tr tr' : List Nat} {root : Nat} {r : Res Unit}, Made p d m0 P g tr → root < g.length → Forward g root g' tr' r →
      (∀ (i : Nat) (o : OpInfo (Tensor ℝ)), g[i]? = some o → OpAt p d P g i o) → Inv g' (tr ++ tr') ∧
      ∀ (i : Nat) (o : OpInfo (Tensor ℝ)), g'[i]? = some o → OpAt p d P g' i o := by
    intro g g' tr tr' root r hm hr hf ih
    obtain ⟨hinv, popped, -, -, -, hran, -⟩ := forward_spec hm.hist.inv hr hf
    refine ⟨hinv, OpAt.of_same hm.hist.inv.wf (hran.same _) hran.len ih ?_⟩
    obtain ⟨_, popped, _, _, hrun⟩ := hf
    exact fun i o ho => (fwRun_vals popped (fun i o ho => ⟨(ih i o ho).oper, (ih i o ho).vals⟩) hrun i o ho).2
  have same : ∀ {g g' : Graph (Tensor ℝ)}, WF g → SameValues g g' → (∀ (i : Nat) (o : OpInfo (Tensor ℝ)), g[i]? = some o → OpAt p d P g i o) →
      ∀ (i : Nat) (o : OpInfo (Tensor ℝ)), g'[i]? = some o → OpAt p d P g' i o := by
    intro g g' hg hs h
    refine OpAt.of_same hg (hs.same _) hs.1.symm h fun i o ho => ?_
    have hi : i < g.length := by rw [hs.1]; exact mem_lt ho
    obtain ⟨o1, h1⟩ : ∃ o1, g[i]? = some o1 := ⟨g[i], by simp [hi]⟩
    obtain ⟨gr, sk, _, e⟩ := hs.2 i o1 h1
    rw [ho] at e
    obtain rfl := Option.some.inj e
    exact (h i o1 h1).vals
  induction h with
  | empty => intro i o ho; simp at ho
  | @create g g' tr m sink args hm har hsh hc ih =>
    intro i o ho
    have hc' := hc
    simp only [Graph.create, Res.bind_eq_ok, Res.ok.injEq] at hc
    obtain ⟨xs, hxs, ss, hss, rfl⟩ := hc
    have hold : ∀ a : Nat × Nat, a.1 < g.length → ∀ o, nodeShape (g ++ [o]) a = g.nodeShape a := fun a ha o => by
      unfold nodeShape; rw [List.getElem?_append_left ha]
    have hargs : ∀ a ∈ args, a.1 < g.length := fun a ha => by
      obtain ⟨b, hb⟩ := mapR_mem hxs ha
      obtain ⟨o, ho, _⟩ := val_eq_ok.mp hb
      exact mem_lt ho
    by_cases hi : i < g.length
    · rw [List.getElem?_append_left hi] at ho
      obtain ⟨a1, a2, ⟨outs, a3, a4⟩, a5⟩ := ih i o ho
      refine ⟨a1, a2, ⟨outs, ?_, a4⟩, a5⟩
      rw [← a3]
      congr 1
      exact List.map_congr_left fun a ha => hold a (lt_trans (hm.hist.inv.wf.args i o ho a ha).1 hi) _
    · have : i = g.length := by have := mem_lt ho; simp at this; omega
      subst this
      simp at ho
      subst ho
      refine ⟨⟨m, rfl⟩, har, ?_, rfl⟩
      obtain ⟨outs, hd⟩ := hsh
      have e : xs.map Tensor.shape = args.map g.nodeShape := by
        refine List.ext_getElem? fun k => ?_
        rw [List.getElem?_map, List.getElem?_map]
        cases hk : args[k]? with
        | none =>
          have : xs[k]? = none := by rw [List.getElem?_eq_none_iff] at hk ⊢; rw [mapR_length hxs]; exact hk
          rw [this]; rfl
        | some a =>
          obtain ⟨b, hb, hv⟩ := mapR_get hxs hk
          rw [hb]
          obtain ⟨o, ho, hv⟩ := val_eq_ok.mp hv
          have := (ih a.1 o ho).vals
          have h2 : (o.vals.map Tensor.shape)[a.2]? = some b.shape := by simp [hv]
          rw [this] at h2
          simp only [Option.map_some, nodeShape, ho]
          rw [List.getD_eq_getElem?_getD, h2]; rfl
      have hss' : (P g.length).shapes p (args.map g.nodeShape) = ok ss := by rw [← e]; exact hss
      have := shapes_any hd hss'
      subst this
      refine ⟨ss, ?_, rfl⟩
      rw [← hd]
      congr 1
      exact List.map_congr_left fun a ha => hold a (hargs a ha) _
  | forward hm hr hf ih => exact (fwd hm hr hf ih).2
  | backward hm hr hf hb ih =>
    obtain ⟨hinv, h1⟩ := fwd hm hr hf ih
    obtain ⟨_, popped, _, _, _, hran, _⟩ := forward_spec hm.hist.inv hr hf
    obtain ⟨_, _, _, hacc⟩ := backward_spec hinv.wf (by rw [hran.len]; exact hr) hb
    exact same hinv.wf hacc.same h1
  | backwardPanic hm hr hf hb hs ih =>
    obtain ⟨hinv, h1⟩ := fwd hm hr hf ih
    exact same hinv.wf hs h1

end Graph
end Verif
