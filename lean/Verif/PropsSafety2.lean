import Verif.Safety9
import Verif.PropsSafety
import Verif.PropsGraph2
import Verif.Optim

/-!
# Property C54: memory safety of programs that use graphs

A program starts with an empty graph and calls, in any order and any number of times, the functions that make nodes, `forward` and
`backward`; build with overflow checks.  `ub` is a raw-pointer access outside the buffer of a tensor.
-/

set_option linter.unusedSectionVars false

namespace Verif
open Res NF

section
variable {α : Type} [Flt α]

/-- A call of a function of the public interface that makes nodes.  Every other function on nodes (`softmax`, `ln_softmax` and the
functions of the contrib crate) is a composition of these. -/
inductive NodeCall (α : Type) where
  /-- `Node::from(&tensor)` -/
  | ofTensor (t : Tensor α)
  /-- `Node::from(tensor)` -/
  | ofOwned (t : Tensor α)
  /-- `Node::from(&mut parameter)` -/
  | ofParameter (value gradient : Tensor α)
  /-- the functions of one node, `NF.neg` … `NF.batchPick` -/
  | un (op : NodeOp α) (x : Node)
  /-- `matmul`, `softmax_cross_entropy` -/
  | bin (op : NodeOp α) (x y : Node)
  /-- `x + y`, `x - y`, `x * y`, `x / y`, `x.pow(y)` -/
  | ab (fw : Bi) (l r : Sc) (x y : Node)
  | flatten (x : Node)
  | split (x : Node) (dim n : Nat)
  | batchSplit (x : Node) (n : Nat)
  | concat (xs : List Node) (dim : Nat)
  | batchConcat (xs : List Node)

/-- One node as a list. -/
def one1' (r : Res (Graph (Tensor α) × Node)) : Res (Graph (Tensor α) × List Node) := do
  let r ← r
  ok (r.1, [r.2])

/-- The effect of the call. -/
def NodeCall.run (m : Mem α) (g : Graph (Tensor α)) : NodeCall α → Res (Graph (Tensor α) × List Node)
  | .ofTensor t => one1' (NF.ofTensor .debug m g t)
  | .ofOwned t => one1' (NF.ofOwned .debug m g t)
  | .ofParameter v dv => one1' (NF.ofParameter .debug m g v dv)
  | .un op x => one1' (NF.un1 op .debug m g x)
  | .bin op x y => one1' (NF.bin1 op .debug m g x y)
  | .ab fw l r x y => one1' (NF.ab fw l r .debug m g x y)
  | .flatten x => one1' (NF.flatten .debug m g x)
  | .split x dim n => NF.split .debug m g x dim n
  | .batchSplit x n => NF.batchSplit .debug m g x n
  | .concat xs dim => one1' (NF.concat .debug m g xs dim)
  | .batchConcat xs => one1' (NF.batchConcat .debug m g xs)

/-- The operators the functions of nodes make: not the inputs and not the operators with a scalar, which `NodeCall.ab` makes. -/
def NodeOp.OfNodes : NodeOp α → Prop
  | .input _ => False
  | .inputOwner _ => False
  | .parameter _ => False
  | .sc _ => False
  | .reshape s => s.Reachable
  | _ => True

/-- The operators that the functions of two nodes make. -/
def NodeOp.OfPairs : NodeOp α → Prop
  | .softmaxCrossEntropy _ => True
  | .matmul => True
  | _ => False

theorem NodeOp.OfPairs.ofNodes {op : NodeOp α} (h : op.OfPairs) : op.OfNodes := by
  cases op <;> first | exact h.elim | trivial

/-- The greatest number of arguments with which the functions of the library make an operator (when there are less than it needs, the shape
function panics); an owned tensor is on a device and satisfies `V`. -/
def NodeOp.Joined (V : Tensor α → Prop) (op : NodeOp α) (n : Nat) : Prop :=
  match op with
  | .input _ => n = 0
  | .inputOwner v => n = 0 ∧ v.device ≠ none ∧ V v
  | .parameter _ => n = 0
  | .bi _ => n ≤ 2
  | .sc _ => n ≤ 2
  | .softmaxCrossEntropy _ => n ≤ 2
  | .matmul => n ≤ 2
  | .concat _ => True
  | .batchConcat => True
  | _ => n ≤ 1

theorem NodeOp.OfNodes.joined {V : Tensor α → Prop} {op : NodeOp α} (h : op.OfNodes) : op.Joined V 1 := by
  cases op <;> first | exact h.elim | trivial | exact Nat.le_refl 1 | exact Nat.le_succ 1

theorem NodeOp.OfPairs.joined {V : Tensor α → Prop} {op : NodeOp α} (h : op.OfPairs) : op.Joined V 2 := by
  cases op <;> first | exact h.elim | exact Nat.le_refl 2

/-- Tensors and shapes are made by the library (the types of the interface guarantee this); the gradient of a parameter has the shape of
its value, as `Device::new_parameter` makes it (the types do not guarantee this, see `C54_parameter_out_of_bounds`). -/
def NodeCall.Typed : NodeCall α → Prop
  | .ofTensor t => Obtainable t
  | .ofOwned t => Obtainable t
  | .ofParameter v dv => Obtainable v ∧ Obtainable dv ∧ dv.shape = v.shape
  | .un op _ => op.OfNodes
  | .bin op _ _ => op.OfPairs
  | _ => True

/-- What may become of a graph whose `backward` panicked: the values are the same, the gradients of the nodes and parameters are disturbed. -/
def Graph.Disturbed (g g' : Graph (Tensor α)) : Prop :=
  g'.length = g.length ∧ ∀ (i : Nat) (o : OpInfo (Tensor α)), g[i]? = some o → ∃ (gr : List (Tensor α)) (sk : Option (Tensor α)),
    List.Forall₂ Tensor.Disturbed o.grads gr ∧ Option.Rel Tensor.Disturbed o.sink sk ∧ g'[i]? = some { o with grads := gr, sink := sk }

/-- The graphs a program can reach.  `forward` and `backward` may also panic in the middle: the program can go on with the graph they
leave. -/
inductive Prog : Graph (Tensor α) → Prop
  | start : Prog []
  | call {g g' : Graph (Tensor α)} {c : NodeCall α} {m : Mem α} {ns : List Node} : Prog g → c.Typed → c.run m g = ok (g', ns) → Prog g'
  | forward {g g' : Graph (Tensor α)} {root : Nat} {tr : List Nat} {r : Res Unit} : Prog g → Graph.Forward g root g' tr r → Prog g'
  | backward {g g' : Graph (Tensor α)} {m0 : Nat → α} {root : Nat} {tr popped : List Nat} : Prog g →
      (∀ i ∈ popped, ∀ o ids d m, g[i]? = some o → o.oper = (NodeOp.batchPick ids).oper .debug d m → ids.length = 1) →
      Graph.Backward (tensorLike .debug m0) g root tr popped (ok g') → Prog g'
  | backwardPanic {g g1 g' : Graph (Tensor α)} {m0 : Nat → α} {root : Nat} {tr popped : List Nat} : Prog g →
      Graph.Forward g root g1 tr (ok ()) → Graph.BackwardOnly (tensorLike .debug m0) g1 root popped panic → g1.Disturbed g' → Prog g'

/-- A call makes one operator, whose arguments are as its kernels need them. -/
inductive Makes (V : Tensor α → Prop) (g : Graph (Tensor α)) (m : Mem α) : Res (Graph (Tensor α) × List Node) → Prop
  | fails {r : Res (Graph (Tensor α) × List Node)} : r.Safe → (∀ v, r ≠ ok v) → Makes V g m r
  | create {r : Res (Graph (Tensor α) × List Node)} {op : NodeOp α} {d : Nat} {sink : Option (Tensor α)} {args : List (Nat × Nat)} {g' : Graph (Tensor α)} {ns : List Node} :
      r = ok (g', ns) → op.Proper →
      (∀ t, sink = some t → t.Fine ∧ ∃ v, op = .parameter v ∧ t.shape = v.shape) →
      Graph.create (tensorLike .debug (m 0)) g (op.oper .debug d m) sink args = ok g' → op.Joined V args.length → Makes V g m r

theorem Makes.safe {V : Tensor α → Prop} {g : Graph (Tensor α)} {m : Mem α} {r : Res (Graph (Tensor α) × List Node)} (h : Makes V g m r) : r.Safe := by
  cases h with
  | fails h _ => exact h
  | create h _ _ _ _ => rw [h]; exact safe_ok _

theorem makes_create {V : Tensor α → Prop} {g : Graph (Tensor α)} {m : Mem α} {d : Nat} {op : NodeOp α} {sink : Option (Tensor α)} {args : List Node}
    (hp : op.Proper)
    (hs : ∀ t, sink = some t → t.Fine ∧ ∃ v, op = .parameter v ∧ t.shape = v.shape) (hj : op.Joined V args.length) :
    Makes V g m (NF.create .debug m g d op sink args) := by
  unfold NF.create
  cases e : Graph.create (tensorLike .debug (m 0)) g (op.oper .debug d m) sink (args.map Node.id) with
  | panic => exact .fails safe_panic fun v h => by cases h
  | ub => exact absurd e (Graph.create_safe _ _ _ _ _ _ _)
  | ok g' =>
    simp only [ok_bind]
    cases e2 : Graph.at' g' g.length with
    | panic => exact .fails safe_panic fun v h => by cases h
    | ub => exact absurd e2 (at_safe _ _)
    | ok o => exact .create rfl hp hs e (by rw [List.length_map]; exact hj)

theorem makes_one {V : Tensor α → Prop} {g : Graph (Tensor α)} {m : Mem α} {r : Res (Graph (Tensor α) × List Node)} (h : Makes V g m r) :
    Makes V g m (one1' (do
      let r ← r
      let n ← unwrap r.2.getLast?
      ok (r.1, n))) := by
  cases h with
  | fails h1 h2 =>
    cases r with
    | ok v => exact absurd rfl (h2 v)
    | panic => exact .fails safe_panic fun v h => by cases h
    | ub => exact absurd rfl h1
  | @create op d sink args g' ns e h1 h2 h3 h4 =>
    subst e
    simp only [one1', ok_bind]
    cases e : ns.getLast? with
    | none => exact .fails safe_panic fun v h => by cases h
    | some n => exact .create rfl h1 h2 h3 h4

theorem makes_create1 {V : Tensor α → Prop} {g : Graph (Tensor α)} {m : Mem α} {d : Nat} {op : NodeOp α} {args : List Node}
    (hp : op.Proper) (hj : op.Joined V args.length) :
    Makes V g m (one1' (NF.create1 .debug m g d op args)) :=
  makes_one (makes_create hp (fun t h => by cases h) hj)

theorem makes_bind {V : Tensor α → Prop} {g : Graph (Tensor α)} {m : Mem α} {B : Type} {r : Res B} {k : B → Res (Graph (Tensor α) × Node)} (h : r.Safe)
    (hk : ∀ b, r = ok b → Makes V g m (one1' (k b))) : Makes V g m (one1' (r >>= k)) := by
  cases r with
  | ok b => exact hk b rfl
  | panic => exact .fails safe_panic fun v h => by cases h
  | ub => exact absurd rfl h

theorem NodeOp.OfNodes.proper {op : NodeOp α} (h : op.OfNodes) : op.Proper := by
  cases op <;> first | trivial | exact h.elim | exact Shape.Reachable.wf h

/-- What the proofs need of the arguments of a call. -/
def NodeCall.FineArgs : NodeCall α → Prop
  | .ofTensor t => t.Fine
  | .ofOwned t => t.Fine
  | .ofParameter v dv => v.Fine ∧ dv.Fine ∧ dv.shape = v.shape
  | .un op _ => op.OfNodes
  | .bin op _ _ => op.OfPairs
  | _ => True

theorem NodeCall.Typed.fineArgs {c : NodeCall α} (h : c.Typed) : c.FineArgs := by
  cases c with
  | ofTensor t => exact (show Obtainable t from h).fine.1
  | ofOwned t => exact (show Obtainable t from h).fine.1
  | ofParameter v dv => exact ⟨h.1.fine.1, h.2.1.fine.1, h.2.2⟩
  | un op x => exact h
  | bin op x y => exact h
  | _ => trivial

theorem NodeCall.makesV {V : Tensor α → Prop} {c : NodeCall α} (hc : c.FineArgs) (hV : ∀ t, c = .ofOwned t → V t) (m : Mem α) (g : Graph (Tensor α)) : Makes V g m (c.run m g) := by
  have hshape : ∀ n, (NF.shape g n).Safe := fun n => Res.Safe.bind (Graph.val_safe _ _) fun _ _ => safe_ok _
  cases c with
  | ofTensor t => exact makes_bind t.dev_safe fun d _ => makes_create1 (op := .input t) hc rfl
  | ofOwned t => exact makes_bind t.dev_safe fun d hd => makes_create1 (op := .inputOwner t) hc ⟨rfl, fun e => by simp [Tensor.dev, unwrap, e] at hd, hV t rfl⟩
  | ofParameter v dv =>
    refine makes_bind v.dev_safe fun d _ => makes_one (makes_create (op := .parameter v) hc.1 (fun t h => ?_) rfl)
    cases h
    exact ⟨hc.2.1, v, rfl, hc.2.2⟩
  | un op x => exact makes_create1 (NodeOp.OfNodes.proper hc) (NodeOp.OfNodes.joined hc)
  | bin op x y => exact makes_create1 (NodeOp.OfNodes.proper (NodeOp.OfPairs.ofNodes hc)) (NodeOp.OfPairs.joined hc)
  | ab fw l r x y =>
    refine makes_bind (hshape x) fun s _ => ?_
    split
    · exact makes_create1 (op := .sc l) trivial (Nat.le_refl 2)
    · refine makes_bind (hshape y) fun t _ => ?_
      split
      · exact makes_create1 (op := .sc r) trivial (Nat.le_refl 2)
      · exact makes_create1 (op := .bi fw) trivial (Nat.le_refl 2)
  | flatten x =>
    refine makes_bind (hshape x) fun s _ => makes_bind (Shape.new_safe _ _ _) fun s' hs' => makes_create1 (op := .reshape s') ?_ (Nat.le_refl 1)
    exact (Shape.Reachable.new hs').wf
  | split x dim n => exact makes_create (op := .split dim n) trivial (fun t h => by cases h) (Nat.le_refl 1)
  | batchSplit x n => exact makes_create (op := .batchSplit n) trivial (fun t h => by cases h) (Nat.le_refl 1)
  | concat xs dim =>
    exact makes_bind (check_safe _) fun _ _ => makes_bind (at_safe _ _) fun _ _ => makes_create1 (op := .concat dim) trivial trivial
  | batchConcat xs =>
    exact makes_bind (check_safe _) fun _ _ => makes_bind (at_safe _ _) fun _ _ => makes_create1 (op := .batchConcat) trivial trivial

theorem NodeCall.makes {c : NodeCall α} (hc : c.FineArgs) (m : Mem α) (g : Graph (Tensor α)) : Makes (fun _ => True) g m (c.run m g) :=
  NodeCall.makesV hc (fun _ _ => trivial) m g

theorem oneId_of {ops : List (NodeOp α)} {D : List (List Shape)} {g : Graph (Tensor α)} (h : Graph.GFine ops D g) {popped : List Nat}
    (hone : ∀ i ∈ popped, ∀ o ids d m, g[i]? = some o → o.oper = (NodeOp.batchPick ids).oper .debug d m → ids.length = 1) :
    ∀ i ∈ popped, ∀ op, ops[i]? = some op → op.OneId := by
  intro i hi op hop
  have hlt : i < g.length := by
    have := h.len; have := h.len'; have := (List.getElem?_eq_some_iff.mp hop).1
    omega
  obtain ⟨op', outs, h1, _, h2⟩ := h.at' i g[i] (List.getElem?_eq_getElem hlt)
  rw [hop] at h1
  obtain rfl := Option.some.inj h1
  obtain ⟨d, m, ho⟩ := h2.oper
  cases op with
  | batchPick ids => exact hone i hi _ ids d m (List.getElem?_eq_getElem hlt) ho
  | _ => trivial

theorem call_fine {ops : List (NodeOp α)} {D : List (List Shape)} {g g' : Graph (Tensor α)} {c : NodeCall α} {m : Mem α} {ns : List Node}
    (hc : c.FineArgs) (h : Graph.GFine ops D g) (e : c.run m g = ok (g', ns)) : ∃ ops D, Graph.GFine ops D g' := by
  have hm := NodeCall.makes hc m g
  rw [e] at hm
  cases hm with
  | fails _ h => exact absurd rfl (h _)
  | @create op d sink args g2 ns2 e2 h1 h2 h3 h4 =>
    cases e2
    have hx : ∃ xs, mapR g.val args = ok xs := by
      simp only [Graph.create, Res.bind_eq_ok] at h3
      obtain ⟨xs, hxs, _⟩ := h3
      exact ⟨xs, hxs⟩
    obtain ⟨xs, hxs⟩ := hx
    obtain ⟨outs, ho⟩ := h.create hxs h1 h2 h3
    exact ⟨_, _, ho⟩

theorem Graph.Disturbed.fine {ops : List (NodeOp α)} {D : List (List Shape)} {g g' : Graph (Tensor α)} (h : g.Disturbed g') (hg : Graph.GFine ops D g) :
    Graph.GFine ops D g' := by
  refine ⟨h.1.trans hg.len, hg.len', fun i o' ho' => ?_⟩
  have hi : i < g.length := by rw [← h.1]; exact (List.getElem?_eq_some_iff.mp ho').1
  obtain ⟨gr, sk, h1, h2, h3⟩ := h.2 i g[i] (List.getElem?_eq_getElem hi)
  rw [h3] at ho'
  obtain rfl := Option.some.inj ho'
  obtain ⟨op, outs, e1, e2, e3⟩ := hg.at' i g[i] (List.getElem?_eq_getElem hi)
  have hgr : ∀ {l l' : List (Tensor α)}, List.Forall₂ Tensor.Disturbed l l' → (∀ t ∈ l, t.Fine) → l'.map Tensor.shape = l.map Tensor.shape ∧ ∀ t ∈ l', t.Fine := by
    intro l l' hl
    induction hl with
    | nil => exact fun _ => ⟨rfl, by simp⟩
    | cons hd _ ih =>
      intro hf
      obtain ⟨i1, i2⟩ := ih fun t ht => hf t (by simp [ht])
      refine ⟨by rw [List.map_cons, List.map_cons, i1, hd.shape], fun t ht => ?_⟩
      rcases List.mem_cons.mp ht with rfl | ht
      · exact hd.fine (hf _ (by simp))
      · exact i2 t ht
  obtain ⟨g1, g2⟩ := hgr h1 e3.grads.2
  refine ⟨op, outs, e1, e2, e3.oper, e3.args, e3.init, e3.vals, ⟨g1.trans e3.grads.1, g2⟩, fun t ht => ?_⟩
  have ht : sk = some t := ht
  subst ht
  cases hs : g[i].sink with
  | none => rw [hs] at h2; cases h2
  | some u =>
    rw [hs] at h2
    cases h2 with
    | some hd => obtain ⟨f1, f2⟩ := e3.sink u hs; exact ⟨hd.fine f1, by rw [hd.shape]; exact f2⟩

/-- The invariant behind C54. -/
theorem Prog.fine {g : Graph (Tensor α)} (h : Prog g) : ∃ ops D, Graph.GFine ops D g := by
  induction h with
  | start => exact ⟨[], [], rfl, rfl, fun i o h => by cases h⟩
  | @call g g' c m ns _ hc e ih =>
    obtain ⟨ops, D, ih⟩ := ih
    exact call_fine hc.fineArgs ih e
  | forward _ hf ih =>
    obtain ⟨ops, D, ih⟩ := ih
    exact ⟨ops, D, (Graph.forward_fine ih hf).1⟩
  | @backward g g' m0 root tr popped _ hone hb ih =>
    obtain ⟨ops, D, ih⟩ := ih
    obtain ⟨g1, r1, hf, hb | hb | hb⟩ := hb
    · exact ⟨ops, D, (Graph.backwardOnly_fine (Graph.forward_fine ih hf).1 (oneId_of ih hone) hb.2).2 g' rfl⟩
    · cases hb.2.1
    · cases hb.2.1
  | backwardPanic _ hf _ hd ih =>
    obtain ⟨ops, D, ih⟩ := ih
    exact ⟨ops, D, hd.fine (Graph.forward_fine ih hf).1⟩

/-- C54: a call of a function that makes nodes accesses no memory outside of the tensors; it returns or panics. -/
theorem C54_call_safe {c : NodeCall α} (hc : c.Typed) (m : Mem α) (g : Graph (Tensor α)) : (c.run m g).Safe :=
  (NodeCall.makes hc.fineArgs m g).safe

/-- C54: `forward` on any node of any graph a program can reach, also one on which an earlier `forward` has panicked. -/
theorem C54_forward_safe {g g' : Graph (Tensor α)} (h : Prog g) {root : Nat} {tr : List Nat} {r : Res Unit} (hf : Graph.Forward g root g' tr r) :
    r.Safe := by
  obtain ⟨ops, D, h⟩ := h.fine
  exact (Graph.forward_fine h hf).2

/-- C54: `backward` on any node of any graph a program can reach, unless it has to differentiate a `batch_pick` of several ids. -/
theorem C54_backward_safe {g : Graph (Tensor α)} (h : Prog g) {m0 : Nat → α} {root : Nat} {tr popped : List Nat} {r : Res (Graph (Tensor α))}
    (hone : ∀ i ∈ popped, ∀ o ids d m, g[i]? = some o → o.oper = (NodeOp.batchPick ids).oper .debug d m → ids.length = 1)
    (hb : Graph.Backward (tensorLike .debug m0) g root tr popped r) : r.Safe := by
  obtain ⟨ops, D, h⟩ := h.fine
  obtain ⟨g1, r1, hf, hb | hb | hb⟩ := hb
  · exact (Graph.backwardOnly_fine (Graph.forward_fine h hf).1 (oneId_of h hone) hb.2).1
  · rw [hb.2.1]; exact safe_panic
  · exact absurd hb.1 (Graph.forward_fine h hf).2

/-- C54: reading what a program finds in the graph, the values of the nodes, their gradients and the gradients of the parameters. -/
theorem C54_read_safe {g : Graph (Tensor α)} (h : Prog g) {t : Tensor α}
    (ht : (∃ a, g.val a = ok t) ∨ (∃ a, g.grad a = ok t) ∨ ∃ i, g.sinkOf i = some t) (d dim : Nat)
    {srt : (Nat → Nat → Bool) → List Nat → List Nat} (hs : ∀ le l, (srt le l).Perm l) :
    (t.toVec .debug).Safe ∧ (Dev.tensorToFloat .debug t).Safe ∧ (Dev.argmax .debug d t dim).Safe ∧
    (Dev.argmin .debug d t dim).Safe ∧ (Dev.argsort srt .debug d t dim).Safe := by
  obtain ⟨ops, D, h⟩ := h.fine
  have hf : t.Fine := by
    rcases ht with ⟨a, ha⟩ | ⟨a, ha⟩ | ⟨i, hi⟩
    · exact (h.val ha).1
    · exact (h.grad ha).1
    · unfold Graph.sinkOf at hi
      cases ho : g[i]? with
      | none => simp [ho] at hi
      | some o =>
        obtain ⟨op, outs, _, _, hk⟩ := h.at' i o ho
        exact (hk.sink t (by simpa [ho] using hi)).1
  exact ⟨Tensor.toVec_safe hf, Dev.tensorToFloat_safe hf, Dev.argmax_safe hf dim, Dev.argmin_safe hf dim, Dev.argsort_safe hs hf dim⟩

/-- C54: the functions composed of several calls. -/
theorem C54_softmax_safe (m : Nat → Mem α) (g : Graph (Tensor α)) (x : Node) (dim : Nat) :
    (NF.lnSoftmax .debug m g x dim).Safe ∧ (NF.softmax .debug m g x dim).Safe := by
  have hshape : ∀ (g : Graph (Tensor α)) n, (NF.shape g n).Safe := fun g n => Res.Safe.bind (Graph.val_safe _ _) fun _ _ => safe_ok _
  have one : ∀ {r : Res (Graph (Tensor α) × Node)}, (one1' r).Safe → r.Safe := by
    intro r h
    cases r with
    | ok v => exact safe_ok _
    | panic => exact safe_panic
    | ub => exact absurd rfl h
  have h1 : (NF.lnSoftmax .debug m g x dim).Safe :=
    Res.Safe.bind (one (C54_call_safe (c := .un (.logsumexp dim) x) trivial _ _)) fun r _ => Res.Safe.bind (hshape _ _) fun s _ =>
      Res.Safe.bind (one (C54_call_safe (c := .un (.broadcast dim (s.get dim)) r.2) trivial _ _)) fun r' _ =>
        one (C54_call_safe (c := .ab .sub .subL .subR x r'.2) trivial _ _)
  exact ⟨h1, Res.Safe.bind h1 fun r _ => one (C54_call_safe (c := .un (.un .exp) r.2) trivial _ _)⟩

end

/-! ### Examples, over the integers -/

attribute [local instance] intFlt

/-- The graph in a result. -/
def gOf2 {α : Type} : Res (Graph (Tensor α) × List Node) → Graph (Tensor α)
  | ok r => r.1
  | _ => []

/-- The nodes in a result. -/
def nOf2 {α : Type} : Res (Graph (Tensor α) × List Node) → List Node
  | ok r => r.2
  | _ => []

theorem gOf2_eq {α : Type} {r : Res (Graph (Tensor α) × List Node)} (h : Graph.isOk r = true) : r = ok (gOf2 r, nOf2 r) := by
  cases r with
  | ok g => rfl
  | panic => cases h
  | ub => cases h

/-- The graph after calls (new memory contains zeros). -/
def runs (g : Graph (Tensor ℤ)) : List (NodeCall ℤ) → Graph (Tensor ℤ)
  | [] => g
  | c :: l => runs (gOf2 (c.run (fun _ _ => 0) g)) l

/-- Whether all of them return. -/
def runsOk (g : Graph (Tensor ℤ)) : List (NodeCall ℤ) → Bool
  | [] => true
  | c :: l => Graph.isOk (c.run (fun _ _ => 0) g) && runsOk (gOf2 (c.run (fun _ _ => 0) g)) l

theorem Prog.runs : ∀ {l : List (NodeCall ℤ)} {g : Graph (Tensor ℤ)}, Prog g → (∀ c ∈ l, c.Typed) → runsOk g l = true → Prog (runs g l) := by
  intro l
  induction l with
  | nil => intro g h _ _; exact h
  | cons c l ih =>
    intro g h ht hr
    simp only [runsOk, Bool.and_eq_true] at hr
    exact ih (.call h (ht c (by simp)) (gOf2_eq hr.1)) (fun c hc => ht c (by simp [hc])) hr.2

theorem Obtainable.slice {α : Type} [Flt α] {d : Nat} {m : Nat → α} {s : Shape} {v : List α} {y : Tensor α} (hs : s.Reachable)
    (h : Dev.newBySlice .debug d m s v = ok y) : Obtainable y := by
  unfold Dev.newBySlice at h
  obtain ⟨t, h1, h2⟩ := Res.bind_eq_ok.mp h
  exact .resetBySlice (.alloc (.new d hs) h1) h2

theorem vec2_obtainable (a b : ℤ) : Obtainable (Graph.vec2 a b) :=
  .slice (vecShape_reachable rfl) (show Dev.newBySlice .debug 0 (fun _ => 0) (vecShape 2 1) [a, b] = ok (Graph.vec2 a b) from rfl)

/-- `w` (parameter), `x`, `w * x`, its parts, the sum of both. -/
def exCalls : List (NodeCall ℤ) :=
  [.ofParameter (Graph.vec2 2 3) (Graph.vec2 0 0), .ofTensor (Graph.vec2 5 7), .ab .mul .mul .mul ⟨0, 0, 0⟩ ⟨1, 0, 0⟩, .split ⟨2, 0, 0⟩ 0 2,
    .ab .add .add .add ⟨3, 0, 0⟩ ⟨3, 1, 0⟩, .un (.reshape (vecShape 3 1)) ⟨2, 0, 0⟩]

/-- Its graph. -/
def exG54 : Graph (Tensor ℤ) := runs [] exCalls

theorem exG54_prog : Prog exG54 := by
  refine Prog.runs .start (fun c hc => ?_) (by decide +kernel)
  simp only [exCalls, List.mem_cons, List.not_mem_nil, or_false] at hc
  rcases hc with rfl | rfl | rfl | rfl | rfl | rfl
  · exact ⟨vec2_obtainable _ _, vec2_obtainable _ _, rfl⟩
  · exact vec2_obtainable _ _
  · trivial
  · trivial
  · trivial
  · exact vecShape_reachable rfl

theorem exG54_forward : Graph.Forward exG54 4 (Graph.fwd exG54 [0, 1, 2, 3, 4]) [0, 1, 2, 3, 4] (ok ()) :=
  Graph.Forward.mk' (pushed := [4, 3, 2, 0, 1]) (by decide +kernel) (by decide +kernel) (by decide +kernel)

/-- C54 has instances: `backward` on `(w * x)[0] + (w * x)[1]` gives the parameter the gradient `x`; `forward` on a node that cannot be
evaluated panics, after which the graph can still be used. -/
example : Prog exG54 ∧ (∃ tr popped g', Graph.Backward (tensorLike .debug fun _ => 0) exG54 4 tr popped (ok g') ∧ Graph.sinkShows g' 0 = some (ok [5, 7])) ∧
    ∃ g' tr, Graph.Forward exG54 5 g' tr Res.panic ∧ Prog g' := by
  have hb := Graph.Backward.mk' exG54_forward (pushed := [4, 3, 2, 0, 1]) (popped := [4, 3, 2, 0, 1]) (by decide +kernel) (by decide +kernel) (by decide +kernel)
  have hf : Graph.Forward exG54 5 (Graph.fwd exG54 [0, 1, 2, 5]) [0, 1, 2, 5] Res.panic :=
    Graph.Forward.mk' (pushed := [5, 2, 0, 1]) (by decide +kernel) (by decide +kernel) (by decide +kernel)
  exact ⟨exG54_prog, ⟨_, _, _, hb, by decide +kernel⟩, _, _, hf, .forward exG54_prog hf⟩

/-- The graph as it is. -/
theorem Graph.Disturbed.refl {α : Type} [Flt α] (g : Graph (Tensor α)) : g.Disturbed g := by
  have key : ∀ l : List (Tensor α), List.Forall₂ Tensor.Disturbed l l := by
    intro l
    induction l with
    | nil => exact .nil
    | cons t l ih => exact .cons .unchanged ih
  refine ⟨rfl, fun i o ho => ⟨o.grads, o.sink, key _, ?_, ho⟩⟩
  cases o.sink with
  | none => exact .none
  | some t => exact .some .unchanged

/-- C54 has instances: after a `forward` that panicked, `backward` on the same node does not run it again and panics; the program goes on. -/
example : ∃ g1 tr g2 tr2 popped, Graph.Forward exG54 5 g1 tr Res.panic ∧ Graph.Forward g1 5 g2 tr2 (ok ()) ∧
    Graph.BackwardOnly (tensorLike .debug fun _ => 0) g2 5 popped Res.panic ∧ Prog g2 ∧ ∃ g3, g2.Disturbed g3 ∧ Prog g3 := by
  have hf : Graph.Forward exG54 5 (Graph.fwd exG54 [0, 1, 2, 5]) [0, 1, 2, 5] Res.panic :=
    Graph.Forward.mk' (pushed := [5, 2, 0, 1]) (by decide +kernel) (by decide +kernel) (by decide +kernel)
  have hf2 : Graph.Forward (Graph.fwd exG54 [0, 1, 2, 5]) 5 (Graph.fwd (Graph.fwd exG54 [0, 1, 2, 5]) [0, 1, 2, 5]) [] (ok ()) :=
    Graph.Forward.mk' (pushed := [5, 2, 0, 1]) (by decide +kernel) (by decide +kernel) (by decide +kernel)
  have key : ∀ r : Res (Graph (Tensor ℤ)), (match r with | .panic => true | _ => false) = true → r = Res.panic := by
    intro r h
    cases r with
    | ok _ => cases h
    | panic => rfl
    | ub => cases h
  have hb : Graph.BackwardOnly (tensorLike .debug fun _ => (0 : ℤ)) (Graph.fwd (Graph.fwd exG54 [0, 1, 2, 5]) [0, 1, 2, 5]) 5 [5, 2, 0, 1] Res.panic :=
    ⟨[5, 2, 0, 1], by decide +kernel, of_decide_eq_true (by decide +kernel), key (Graph.bwd (Graph.fwd (Graph.fwd exG54 [0, 1, 2, 5]) [0, 1, 2, 5]) 5 [5, 2, 0, 1]) (by decide +kernel)⟩
  exact ⟨_, _, _, _, _, hf, hf2, hb, .forward (.forward exG54_prog hf) hf2, _, .refl _, .backwardPanic (.forward exG54_prog hf) hf2 hb (.refl _)⟩

/-- The tensor in a result. -/
def tOf : Res (Tensor ℤ) → Tensor ℤ
  | ok t => t
  | _ => Tensor.new 0 (vecShape 1 1)

/-- 64 scalars in 64 batches. -/
def batch64 : Tensor ℤ := tOf (Dev.newByConstant .debug 0 (fun _ => 0) (vecShape 1 64) 0)

theorem batch64_obtainable : Obtainable batch64 := by
  have key : ∀ r : Res (Tensor ℤ), Graph.isOk r = true → r = ok (tOf r) := by
    intro r h
    cases r with
    | ok _ => rfl
    | panic => cases h
    | ub => cases h
  exact .const (vecShape_reachable rfl) (key (Dev.newByConstant .debug 0 (fun _ => 0) (vecShape 1 64) 0) (by decide +kernel))

/-- `x`, `x.batch_pick([0, 63])`. -/
def exG54b : Graph (Tensor ℤ) := runs [] [.ofTensor batch64, .un (.batchPick [0, 63]) ⟨0, 0, 0⟩]

/-- C54 is false of a `batch_pick` of several ids: from 64 scalars in 64 batches, batches 0 and 63.  `forward` returns, `backward`
writes outside of the gradient. -/
theorem C54_batch_pick_out_of_bounds : ∃ (g : Graph (Tensor ℤ)) (tr popped : List Nat), Prog g ∧ (∃ g', Graph.Forward g 1 g' tr (ok ())) ∧
    Graph.Backward (tensorLike .debug fun _ => 0) g 1 tr popped ub := by
  have hf : Graph.Forward exG54b 1 (Graph.fwd exG54b [0, 1]) [0, 1] (ok ()) :=
    Graph.Forward.mk' (pushed := [1, 0]) (by decide +kernel) (by decide +kernel) (by decide +kernel)
  refine ⟨exG54b, [0, 1], [1, 0], ?_, ⟨_, hf⟩, _, _, hf, .inl ⟨rfl, [1, 0], by decide +kernel, of_decide_eq_true (by decide +kernel), ?_⟩⟩
  · refine Prog.runs .start (fun c hc => ?_) (by decide +kernel)
    simp only [List.mem_cons, List.not_mem_nil, or_false] at hc
    rcases hc with rfl | rfl
    · exact batch64_obtainable
    · trivial
  · have key : ∀ r : Res (Graph (Tensor ℤ)), (match r with | ub => true | _ => false) = true → r = ub := by
      intro r h
      cases r with
      | ok _ => cases h
      | panic => cases h
      | ub => rfl
    exact key (Graph.bwd (Graph.fwd exG54b [0, 1]) 1 [1, 0]) (by decide +kernel)

/-- The tensor of zeros of a shape on device 0. -/
def zeros0 (s : Shape) : Tensor ℤ := tOf (Dev.newByConstant .debug 0 (fun _ => 0) s 0)

/-- C54 needs that the gradient of a parameter has the shape of its value, which `Parameter::new` does not check: with a value of 65
elements and a gradient of one, both accepted, `forward` returns and `backward` writes outside of the gradient. -/
theorem C54_parameter_out_of_bounds : ∃ (value gradient : Tensor ℤ) (g : Graph (Tensor ℤ)) (ns : List Node), Obtainable value ∧ Obtainable gradient ∧
    Param.new value gradient ≠ Res.panic ∧ (NodeCall.ofParameter value gradient).run (fun _ _ => 0) [] = ok (g, ns) ∧
    (∃ g', Graph.Forward g 0 g' [0] (ok ())) ∧ Graph.Backward (tensorLike .debug fun _ => 0) g 0 [0] [0] ub := by
  have key : ∀ r : Res (Tensor ℤ), Graph.isOk r = true → r = ok (tOf r) := by
    intro r h
    cases r with
    | ok _ => rfl
    | panic => cases h
    | ub => cases h
  refine ⟨zeros0 (vecShape 65 1), zeros0 (vecShape 1 1), _, _,
    .const (vecShape_reachable rfl) (key (Dev.newByConstant .debug 0 (fun _ => 0) (vecShape 65 1) 0) (by decide +kernel)),
    .const (vecShape_reachable rfl) (key (Dev.newByConstant .debug 0 (fun _ => 0) (vecShape 1 1) 0) (by decide +kernel)), ?_,
    gOf2_eq (by decide +kernel), ?_⟩
  · intro h
    have : Graph.isOk (Param.new (zeros0 (vecShape 65 1)) (zeros0 (vecShape 1 1))) = true := by decide +kernel
    rw [h] at this; cases this
  · generalize hg : gOf2 _ = g
    have hf : Graph.Forward g 0 (Graph.fwd g [0]) [0] (ok ()) := by
      subst hg
      exact Graph.Forward.mk' (pushed := [0]) (by decide +kernel) (by decide +kernel) (by decide +kernel)
    refine ⟨⟨_, hf⟩, _, _, hf, .inl ⟨rfl, [0], by subst hg; decide +kernel, by subst hg; exact of_decide_eq_true (by decide +kernel), ?_⟩⟩
    have key : ∀ r : Res (Graph (Tensor ℤ)), (match r with | ub => true | _ => false) = true → r = ub := by
      intro r h
      cases r with
      | ok _ => cases h
      | panic => cases h
      | ub => rfl
    subst hg
    exact key (Graph.bwd (Graph.fwd _ [0]) 0 [0]) (by decide +kernel)

end Verif
