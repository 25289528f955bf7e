import Verif.NodeLemmas7
import Verif.PropsFw
import Verif.PropsOpt2

/-!
# C38: functions on nodes agree with functions on tensors

Specification: `Verif.NodeSpec` (`Ready`, `Computes`, `Agrees`).  `m` is the stale content of the memory that is allocated; both sides get
the same.
-/

set_option linter.unusedSectionVars false

namespace Verif
open Res
variable {α : Type} [Flt α]

namespace NF

/-- The functions of one operand (and constants) of `BasicFunctions` and of the arithmetic operators, with their names: on nodes and on
tensors. -/
inductive Unary : (Profile → Mem α → Graph (Tensor α) → Node → Res (Graph (Tensor α) × Node)) → (Profile → Mem α → Tensor α → Res (Tensor α)) → Prop
  | neg : Unary NF.neg (fun p m x => TF.neg p (m 0) x)
  | addC (k : α) : Unary (fun p m g x => NF.addC p m g x k) (fun p m x => TF.addC p (m 0) x k)
  | subC (k : α) : Unary (fun p m g x => NF.subC p m g x k) (fun p m x => TF.subC p (m 0) x k)
  | mulC (k : α) : Unary (fun p m g x => NF.mulC p m g x k) (fun p m x => TF.mulC p (m 0) x k)
  | divC (k : α) : Unary (fun p m g x => NF.divC p m g x k) (fun p m x => TF.divC p (m 0) x k)
  | cAdd (k : α) : Unary (fun p m g x => NF.cAdd p m g x k) (fun p m x => TF.cAdd p (m 0) k x)
  | cSub (k : α) : Unary (fun p m g x => NF.cSub p m g x k) (fun p m x => TF.cSub p (m 0) k x)
  | cMul (k : α) : Unary (fun p m g x => NF.cMul p m g x k) (fun p m x => TF.cMul p (m 0) k x)
  | cDiv (k : α) : Unary (fun p m g x => NF.cDiv p m g x k) (fun p m x => TF.cDiv p (m 0) k x)
  | powf (k : α) : Unary (fun p m g x => NF.powf p m g x k) (fun p m x => TF.powf p (m 0) x k)
  | powi (k : Int) : Unary (fun p m g x => NF.powi p m g x k) (fun p m x => TF.powi p (m 0) x k)
  | sqrt : Unary NF.sqrt (fun p m x => TF.sqrt p (m 0) x)
  | abs : Unary NF.abs (fun p m x => TF.abs p (m 0) x)
  | sin : Unary NF.sin (fun p m x => TF.sin p (m 0) x)
  | cos : Unary NF.cos (fun p m x => TF.cos p (m 0) x)
  | tan : Unary NF.tan (fun p m x => TF.tan p (m 0) x)
  | exp : Unary NF.exp (fun p m x => TF.exp p (m 0) x)
  | ln : Unary NF.ln (fun p m x => TF.ln p (m 0) x)
  | tanh : Unary NF.tanh (fun p m x => TF.tanh p (m 0) x)
  | sigmoid : Unary NF.sigmoid (fun p m x => TF.sigmoid p (m 0) x)
  | softplus : Unary NF.softplus (fun p m x => TF.softplus p (m 0) x)
  | sum (dim : Nat) : Unary (fun p m g x => NF.sum p m g x dim) (fun p m x => TF.sum p (m 0) x dim)
  | max (dim : Nat) : Unary (fun p m g x => NF.max p m g x dim) (fun p m x => TF.max p (m 0) x dim)
  | min (dim : Nat) : Unary (fun p m g x => NF.min p m g x dim) (fun p m x => TF.min p (m 0) x dim)
  | logsumexp (dim : Nat) : Unary (fun p m g x => NF.logsumexp p m g x dim) (fun p m x => TF.logsumexp p (m 0) x dim)
  | broadcast (dim size : Nat) : Unary (fun p m g x => NF.broadcast p m g x dim size) (fun p m x => TF.broadcast p (m 0) x dim size)
  | transpose : Unary NF.transpose (fun p m x => TF.transpose p (m 0) x)
  | triangularL (k : Nat) : Unary (fun p m g x => NF.triangularL p m g x k) (fun p m x => TF.triangularL p (m 0) x k)
  | triangularU (k : Nat) : Unary (fun p m g x => NF.triangularU p m g x k) (fun p m x => TF.triangularU p (m 0) x k)
  | relu : Unary NF.relu (fun p m x => TF.relu p (m 0) x)
  | lrelu : Unary NF.lrelu (fun p m x => TF.lrelu p (m 0) x)
  | prelu (a : α) : Unary (fun p m g x => NF.prelu p m g x a) (fun p m x => TF.prelu p (m 0) x a)
  | slice (dim lower upper : Nat) : Unary (fun p m g x => NF.slice p m g x dim lower upper) (fun p m x => TF.slice p (m 0) x dim lower upper)
  | pick (ids : List Nat) (dim : Nat) : Unary (fun p m g x => NF.pick p m g x ids dim) (fun p m x => TF.pick p (m 0) x ids dim)
  | reshape (s : Shape) : Unary (fun p m g x => NF.reshape p m g x s) (fun p m x => TF.reshape p (m 0) x s)
  | flatten : Unary NF.flatten (fun p m x => TF.flatten p (m 0) x)
  | batchSum : Unary NF.batchSum (fun p m x => TF.batchSum p (m 0) x)
  | batchSlice (lower upper : Nat) : Unary (fun p m g x => NF.batchSlice p m g x lower upper) (fun p m x => TF.batchSlice p (m 0) x lower upper)
  | batchPick (ids : List Nat) : Unary (fun p m g x => NF.batchPick p m g x ids) (fun p m x => TF.batchPick p (m 0) x ids)

variable {p : Profile} {m0 : Nat → α} {g : Graph (Tensor α)}

theorem un1_agrees (hr : Ready p m0 g) {x : Node} {t : Tensor α} (hn : NodeVal g x t) (op : NodeOp α) (hop : Plain op) (m : Mem α)
    (f : Res (Tensor α)) (hf : op.apply1 p x.dev m [t] = f) : Agrees p m0 (un1 op p m g x) f := by
  subst hf
  exact .of hr (fun g' n e => create1_made e) (fun y => un1_iff hop hn)

/-- Creating an operator keeps what the other nodes evaluate to. -/
theorem C38_others_unchanged (hr : Ready p m0 g) {m : Mem α} {d : Nat} {op : NodeOp α} {sink : Option (Tensor α)} {xs ns : List Node}
    {g' : Graph (Tensor α)} (h : create p m g d op sink xs = ok (g', ns)) {x : Node} (hx : IsNode p g x) {t : Tensor α} (hc : Computes g x t) :
    IsNode p g' x ∧ Computes g' x t := by
  have hn := hr.nodeVal hx hc
  have hr' := create_ready h hr
  obtain ⟨o, ss, rfl, _⟩ := create_spec h
  refine ⟨?_, hr'.computes (hn.grow o)⟩
  obtain ⟨o', m', op', ho, h1, h2⟩ := hx
  exact ⟨o', m', op', by rw [List.getElem?_append_left (Graph.mem_lt ho)]; exact ho, h1, h2⟩

theorem leaf_value {m : Mem α} {d : Nat} {op : NodeOp α} {sink : Option (Tensor α)} {s : Shape} {y : Tensor α} (hs : op.shapes p [] = ok [s])
    (hf : op.fw p d m [] [Tensor.new d s] = ok [y]) (hr : Ready p m0 g) :
    ∃ g', create p m g d op sink [] = ok (g', [⟨g.length, 0, d⟩]) ∧ Ready p m0 g' ∧ IsNode p g' ⟨g.length, 0, d⟩ ∧ Computes g' ⟨g.length, 0, d⟩ y := by
  have hc : create p m g d op sink [] = ok (g ++ [⟨op.oper p d m, [], [Tensor.new d s], [Tensor.new d s], [Tensor.new d s], false, 0 + 1, sink⟩],
      [⟨g.length, 0, d⟩]) := by
    have : (op.oper p d m).shapes ([].map (tensorLike p (m 0)).shape) = ok [s] := hs
    simp only [create, Graph.create, List.map_nil, mapR, Res.ok_bind]
    rw [show (op.oper p d m).shapes [] = ok [s] from hs, Res.ok_bind]
    simp [Graph.at']
    rfl
  have hr' := create_ready hc hr
  have hnode := (create_isNode hc (n := ⟨g.length, 0, d⟩) (by simp)).1
  refine ⟨_, hc, hr', hnode, hr'.computes ?_⟩
  obtain ⟨tr, hh⟩ := hr'.hist
  refine nodeVal_of hh hnode ?_
  rw [value, Graph.den_some (o := _) (by simp; rfl)]
  simp only [mapR, Res.ok_bind]
  rw [show (op.oper p d m).fw [] [Tensor.new d s] = ok [y] from hf, Res.ok_bind]
  rfl

theorem refer_eq {d : Nat} {t : Tensor α} (hd : t.device = some d) (hh : t.host = none) : (Tensor.new d t.shape).refer t = ok t := by
  simp only [Tensor.refer, Tensor.new, Tensor.valid, hd]
  simp [check]
  cases t; simp_all

/-- C38: a node made from a borrowed tensor evaluates to it, and so does a node made from a parameter (to its value). -/
theorem C38_leaf (hr : Ready p m0 g) {t : Tensor α} {d : Nat} (hd : t.device = some d) (hh : t.host = none) (gradient : Tensor α) (m : Mem α) :
    (∃ g' n, NF.ofTensor p m g t = ok (g', n) ∧ Ready p m0 g' ∧ IsNode p g' n ∧ Computes g' n t) ∧
    (∃ g' n, NF.ofParameter p m g t gradient = ok (g', n) ∧ Ready p m0 g' ∧ IsNode p g' n ∧ Computes g' n t) := by
  have hf := refer_eq hd hh
  obtain ⟨g1, h1, r1⟩ := leaf_value (p := p) (m := m) (d := d) (op := .input t) (sink := none) (s := t.shape) (y := t) rfl (by
    simp only [NodeOp.fw, Graph.at', List.getElem?_cons_zero, Res.ok_bind, hf]; rfl) hr
  obtain ⟨g2, h2, r2⟩ := leaf_value (p := p) (m := m) (d := d) (op := .parameter t) (sink := some gradient) (s := t.shape) (y := t) rfl (by
    simp only [NodeOp.fw, Graph.at', List.getElem?_cons_zero, Res.ok_bind, hf]; rfl) hr
  refine ⟨⟨g1, _, ?_, r1⟩, ⟨g2, _, ?_, r2⟩⟩
  · simp only [ofTensor, Tensor.dev, hd, unwrap, Res.ok_bind, create1, h1]; rfl
  · simp only [ofParameter, Tensor.dev, hd, unwrap, Res.ok_bind, h2]; rfl

/-- C38: a node made from an owned tensor evaluates to a copy of it. -/
theorem C38_owned (hr : Ready p m0 g) {t : Tensor α} {d : Nat} {s : Shape} {f : Arr α} (ht : t.Holds d s f) (m : Mem α) :
    ∃ g' n y, NF.ofOwned p m g t = ok (g', n) ∧ Ready p m0 g' ∧ IsNode p g' n ∧ Computes g' n y ∧ y.Holds d s f := by
  obtain ⟨y, hy, hh⟩ := Dev.copyTensor_ok ht p d (m 0)
  obtain ⟨g1, h1, r1, r2, r3⟩ := leaf_value (p := p) (m := m) (d := d) (op := .inputOwner t) (sink := none) (s := t.shape) (y := y) rfl (by
    simp only [Dev.copyTensor, Res.bind_eq_ok] at hy
    obtain ⟨z, hz, hy⟩ := hy
    have : z.device = some d := by
      simp only [Tensor.alloc, Res.bind_eq_ok, Res.ok.injEq] at hz
      obtain ⟨_, _, _, _, _, _, _, _, _, _, rfl⟩ := hz
      rfl
    simp only [NodeOp.fw, Graph.at', List.getElem?_cons_zero, Res.ok_bind, hz, Tensor.dev, this, unwrap, hy]
    rfl) hr
  refine ⟨g1, _, y, ?_, r1, r2, r3, hh⟩
  simp only [ofOwned, Tensor.dev, ht.device, unwrap, Res.ok_bind, create1, h1]; rfl

/-- The empty graph. -/
theorem ready_nil : Ready p m0 ([] : Graph (Tensor α)) := ⟨⟨[], .empty⟩, fun i o h => by simp at h⟩

/-- C38: every function of one operand except `elu`: on a node that evaluates to `t` it gives a node that evaluates to what the function on
tensors gives for `t`. -/
theorem C38_unary (hr : Ready p m0 g) {x : Node} (hx : IsNode p g x) {t : Tensor α} (hc : Computes g x t)
    {F : Profile → Mem α → Graph (Tensor α) → Node → Res (Graph (Tensor α) × Node)} {f : Profile → Mem α → Tensor α → Res (Tensor α)}
    (hF : Unary F f) (m : Mem α) : Agrees p m0 (F p m g x) (f p m t) := by
  have hn := hr.nodeVal hx hc
  cases hF
  case flatten =>
    refine .of hr (fun g' n e => ?_) (fun y => flatten_iff hn)
    simp only [NF.flatten, NF.reshape, Res.bind_eq_ok] at e
    obtain ⟨_, _, s, _, e⟩ := e
    exact create1_made (op := .reshape s) e
  case reshape s =>
    refine un1_agrees hr hn (.reshape s) trivial m _ ?_
    simp [NodeOp.apply1, Graph.at', TF.reshape, Tensor.dev, unwrap, hn.dev]
  case pick ids dim => exact un1_agrees hr hn (.pick ids dim) trivial m _ rfl
  case batchPick ids => exact un1_agrees hr hn (.batchPick ids) trivial m _ rfl
  all_goals
    show Agrees p m0 (un1 _ p m g x) _
    refine un1_agrees hr hn _ ?_ m _ ?_
    · trivial
    · exact (call_eq hn.dev).symm

/-- C38: `elu` on nodes agrees with `prelu` on tensors … -/
theorem C38_elu_is_prelu (hr : Ready p m0 g) {x : Node} (hx : IsNode p g x) {t : Tensor α} (hc : Computes g x t) (a : α) (m : Mem α) :
    Agrees p m0 (NF.elu p m g x a) (TF.prelu p (m 0) t a) := by
  have hn := hr.nodeVal hx hc
  exact un1_agrees hr hn (.cn .elu a) trivial m _ (call_eq hn.dev).symm

/-- C38: `+`, `-`, `*`, `/` on nodes both or none of which are scalars. -/
theorem C38_arith (hr : Ready p m0 g) {x y : Node} (hx : IsNode p g x) (hy : IsNode p g y) {t u : Tensor α} (hcx : Computes g x t)
    (hcy : Computes g y u) (hk : t.shape.isScalar = u.shape.isScalar) (m : Mem α) :
    Agrees p m0 (NF.add p m g x y) (TF.add p (m 0) t u) ∧ Agrees p m0 (NF.sub p m g x y) (TF.sub p (m 0) t u) ∧
    Agrees p m0 (NF.mul p m g x y) (TF.mul p (m 0) t u) ∧ Agrees p m0 (NF.div p m g x y) (TF.div p (m 0) t u) := by
  have hn := hr.nodeVal hx hcx
  have hn' := hr.nodeVal hy hcy
  exact ⟨.of hr (fun _ _ e => ab_made e) (fun _ => ab_iff hn hn' hk _ _ _), .of hr (fun _ _ e => ab_made e) (fun _ => ab_iff hn hn' hk _ _ _),
    .of hr (fun _ _ e => ab_made e) (fun _ => ab_iff hn hn' hk _ _ _), .of hr (fun _ _ e => ab_made e) (fun _ => ab_iff hn hn' hk _ _ _)⟩

/-- C38: … but with exactly one scalar operand the node cannot be created (on tensors the scalar is broadcast, C20). -/
theorem C38_arith_mixed_panics (hr : Ready p m0 g) {x y : Node} (hx : IsNode p g x) (hy : IsNode p g y) {t u : Tensor α} (hcx : Computes g x t)
    (hcy : Computes g y u) (hk : t.shape.isScalar ≠ u.shape.isScalar) (m : Mem α) :
    NF.add p m g x y = panic ∧ NF.sub p m g x y = panic ∧ NF.mul p m g x y = panic ∧ NF.div p m g x y = panic ∧ NF.pow p m g x y = panic := by
  have hn := hr.nodeVal hx hcx
  have hn' := hr.nodeVal hy hcy
  exact ⟨ab_mixed hn hn' hk _ _ _, ab_mixed hn hn' hk _ _ _, ab_mixed hn hn' hk _ _ _, ab_mixed hn hn' hk _ _ _, ab_mixed hn hn' hk _ _ _⟩

/-- C38: `matmul`. -/
theorem C38_matmul (hr : Ready p m0 g) {x y : Node} (hx : IsNode p g x) (hy : IsNode p g y) {t u : Tensor α} (hcx : Computes g x t)
    (hcy : Computes g y u) (m : Mem α) : Agrees p m0 (NF.matmul p m g x y) (TF.matmul p (m 0) t u) := by
  have hn := hr.nodeVal hx hcx
  have hn' := hr.nodeVal hy hcy
  refine .of hr (fun _ _ e => create1_made (op := .matmul) e) (fun z => ?_)
  rw [TF.matmul, call_eq hn.dev]
  refine bin_iff (op := .matmul) (f := .matmul) trivial hn hn' rfl (fun s hs => ?_)
  simp only [FwOp.shape] at hs
  simp [NodeOp.shapes, Graph.at', hs]

/-- C38: `pow` of nodes that are no scalars. -/
theorem C38_pow (hr : Ready p m0 g) {x y : Node} (hx : IsNode p g x) (hy : IsNode p g y) {t u : Tensor α} (hcx : Computes g x t)
    (hcy : Computes g y u) (hk : t.shape.isScalar = false) (hk' : u.shape.isScalar = false) (m : Mem α) :
    Agrees p m0 (NF.pow p m g x y) (TF.pow p (m 0) t u) := by
  have hn := hr.nodeVal hx hcx
  have hn' := hr.nodeVal hy hcy
  refine .of hr (fun _ _ e => ab_made e) (fun z => ?_)
  rw [show NF.pow p m g x y = ab .powf .powfL .powfR p m g x y from rfl, ab_iff hn hn' (hk.trans hk'.symm)]
  simp [TF.abOp, hk, hk', TF.pow]

/-- C38: `concat`. -/
theorem C38_concat (hr : Ready p m0 g) {xs : List Node} {ts : List (Tensor α)} (h : List.Forall₂ (fun x t => IsNode p g x ∧ Computes g x t) xs ts)
    (dim : Nat) (m : Mem α) : Agrees p m0 (NF.concat p m g xs dim) (TF.concat p (m 0) ts dim) := by
  have hn : NodeVals g xs ts := h.imp (fun _ _ h => hr.nodeVal h.1 h.2)
  refine .of hr (fun _ _ e => ?_) (fun z => concat_iff hn)
  simp only [NF.concat, Res.bind_eq_ok] at e
  obtain ⟨_, _, _, _, e⟩ := e
  exact create1_made (op := .concat dim) e

/-- C38: `batch_concat`. -/
theorem C38_batch_concat (hr : Ready p m0 g) {xs : List Node} {ts : List (Tensor α)} (h : List.Forall₂ (fun x t => IsNode p g x ∧ Computes g x t) xs ts)
    (m : Mem α) : Agrees p m0 (NF.batchConcat p m g xs) (TF.batchConcat p (m 0) ts) := by
  have hn : NodeVals g xs ts := h.imp (fun _ _ h => hr.nodeVal h.1 h.2)
  refine .of hr (fun _ _ e => ?_) (fun z => batchConcat_iff hn)
  simp only [NF.batchConcat, Res.bind_eq_ok] at e
  obtain ⟨_, _, _, _, e⟩ := e
  exact create1_made (op := .batchConcat) e

/-- C38: `split` and `batch_split`. -/
theorem C38_splits (hr : Ready p m0 g) {x : Node} (hx : IsNode p g x) {t : Tensor α} (hc : Computes g x t) (dim n : Nat) (m : Mem α) :
    AgreesList p m0 (NF.split p m g x dim n) (TF.split p m t dim n) ∧ AgreesList p m0 (NF.batchSplit p m g x n) (TF.batchSplit p m t n) := by
  have hn := hr.nodeVal hx hc
  exact ⟨.of hr (fun ys => split_iff hn), .of hr (fun ys => batchSplit_iff hn)⟩

/-- C38: `ln_softmax` and `softmax` (debug profile: with overflow checks). -/
theorem C38_softmax {m0 : Nat → α} (hr : Ready .debug m0 g) {x : Node} (hx : IsNode .debug g x) {t : Tensor α} (hc : Computes g x t) (ht : t.shape.WF) (dim : Nat)
    (m : Nat → Mem α) : Agrees .debug m0 (NF.lnSoftmax .debug m g x dim) (TF.lnSoftmax .debug (fun i => m i 0) t dim) ∧
      Agrees .debug m0 (NF.softmax .debug m g x dim) (TF.softmax .debug (fun i => m i 0) t dim) := by
  have hn := hr.nodeVal hx hc
  exact ⟨.of hr (fun _ _ e => lnSoftmax_made e) (fun _ => lnSoftmax_iff hn ht), .of hr (fun _ _ e => softmax_made e) (fun _ => softmax_iff hn ht)⟩

/-- C38: the cross entropies. -/
theorem C38_cross_entropy {m0 : Nat → α} (hr : Ready .debug m0 g) {x y : Node} (hx : IsNode .debug g x) (hy : IsNode .debug g y) {t u : Tensor α}
    (hcx : Computes g x t) (hcy : Computes g y u) (ht : t.shape.WF) (hu : u.shape.WF) (hk : t.shape.isScalar = u.shape.isScalar)
    (ids : List Nat) (dim : Nat) (m : Mem α) :
    Agrees .debug m0 (NF.softmaxCrossEntropy .debug m g x y dim) (TF.softmaxCrossEntropy .debug m t u dim) ∧
    Agrees .debug m0 (NF.sparseSoftmaxCrossEntropy .debug m g x ids dim) (TF.sparseSoftmaxCrossEntropy .debug m t ids dim) := by
  have hn := hr.nodeVal hx hcx
  have hn' := hr.nodeVal hy hcy
  exact ⟨.of hr (fun _ _ e => create1_made (op := .softmaxCrossEntropy dim) e) (fun _ => sce_iff hn hn' ht hu hk),
    .of hr (fun _ _ e => create1_made (op := .sparseSoftmaxCrossEntropy ids dim) e) (fun _ => ssce_iff hn ht)⟩

end NF
end Verif
