import Verif.Shape

/-!
# Model of `prima_undine/src/graph.rs`: lazy evaluation and reverse-mode differentiation

The graph is the list of its operators in the order of creation (`Rc` pointers are positions in this list; operators that are no longer
referenced stay in the list; `Verif.Owner` has the reference counts).  The tensor type `T` and the tensor operations that the graph itself performs are parameters
(`TensorLike`), instantiated with the model of `Tensor` in `Verif.Operators`; the operators are arbitrary (`Operator` is a public trait).
The borrow flags of the `RefCell`s are in `Verif.Borrow`: C61 shows that they matter only to a program that keeps `Ref`s.
-/

namespace Verif
open Res

/-- What graph.rs uses of tensors. -/
structure TensorLike (T : Type) where
  /-- `t.shape` -/
  shape : T → Shape
  /-- `t.valid()` -/
  valid : T → Bool
  /-- `t.alloc(); t.reset(1.)` -/
  ones : T → Res T
  /-- `t.alloc(); t.reset(0.)` -/
  zeros : T → Res T
  /-- `alloc` makes the tensor valid -/
  zeros_valid : ∀ t t', zeros t = ok t' → valid t' = true
  /-- `a += b` -/
  addTo : T → T → Res T

/-- `trait Operator`, operator.rs:5-11.  `fw xs ys`: the new contents of the slots `ys`.  `bw xs ys gys gxShapes`: the updates of the
gradients `gx[k]`, in the order in which they are made.  An operator that keeps a reference to a parameter's gradient
(operators/parameter.rs) has it in the `sink` of its `OpInfo`. -/
structure Oper (T : Type) where
  /-- `forward_shape` -/
  shapes : List Shape → Res (List Shape)
  /-- `self.device().new_tensor(s)` -/
  null : Shape → T
  /-- `forward` -/
  fw : List T → List T → Res (List T)
  /-- `forward` gets a slice, whose length it cannot change -/
  fw_len : ∀ xs ys ys', fw xs ys = ok ys' → ys'.length = ys.length
  /-- what `forward` leaves in the slots `ys` when it does not come to its end -/
  left : List T → List T → List T := fun _ ys => ys
  left_len : ∀ xs ys, (left xs ys).length = ys.length := by intros; rfl
  /-- `backward` -/
  bw : List T → List T → List T → List Shape → List (Nat × (T → Res T))

/-- `struct OperatorInfo` with its `NodeData`, graph.rs:10-29.  An argument is (operator, number of its result).  `init` is the
value the results were created with (kept for specifications only). -/
structure OpInfo (T : Type) where
  oper : Oper T
  args : List (Nat × Nat)
  init : List T
  vals : List T
  grads : List T
  forwarded : Bool
  depth : Nat
  sink : Option T

/-- The graph. -/
abbrev Graph (T : Type) := List (OpInfo T)

/-- `l.map(f).collect()`, panicking at the first panic. -/
def mapR {A B : Type} (f : A → Res B) : List A → Res (List B)
  | [] => ok []
  | a :: l => do
    let b ← f a
    let bs ← mapR f l
    ok (b :: bs)

/-- `for a in l { s = f(s, a) }`. -/
def foldR {A S : Type} (f : S → A → Res S) : List A → S → Res S
  | [], s => ok s
  | a :: l, s => do
    let s ← f s a
    foldR f l s

namespace Graph
variable {T : Type}

/-- `l[i]` (panics when out of range). -/
def at' (l : List B) (i : Nat) : Res B :=
  match l[i]? with
  | some a => ok a
  | none => panic

/-- `data.op.rets[data.vid].value`. -/
def val (g : Graph T) (a : Nat × Nat) : Res T := do
  let o ← at' g a.1
  at' o.vals a.2

/-- `data.op.rets[data.vid].gradient`. -/
def grad (g : Graph T) (a : Nat × Nat) : Res T := do
  let o ← at' g a.1
  at' o.grads a.2

/-- Depth of an operator (0 when there is none; never used then). -/
def depthOf (g : Graph T) (i : Nat) : Nat :=
  match g[i]? with
  | some o => o.depth
  | none => 0

/-- Arguments of an operator. -/
def argsOf (g : Graph T) (i : Nat) : List (Nat × Nat) :=
  match g[i]? with
  | some o => o.args
  | none => []

/-- `OperatorInfo::new`, graph.rs:57-90, `Node::create`, graph.rs:189-203: the new operator is `g.length` in the new graph. -/
def create (C : TensorLike T) (g : Graph T) (op : Oper T) (sink : Option T) (args : List (Nat × Nat)) : Res (Graph T) := do
  let xs ← mapR g.val args
  let ss ← op.shapes (xs.map C.shape)
  let rets := ss.map op.null
  let depth := (args.map fun a => g.depthOf a.1).foldl max 0 + 1
  ok (g ++ [⟨op, args, rets, rets, rets, false, depth, sink⟩])

/-- The inner loop of the search, graph.rs:98-104: state (queue, reached). -/
def visit (args : List (Nat × Nat)) (st : List Nat × List Nat) : List Nat × List Nat :=
  args.foldl (fun st a => if a.1 ∈ st.2 then st else (st.1 ++ [a.1], st.2 ++ [a.1])) st

/-- The breadth-first search of `forward` and `backward`, graph.rs:93-106, 132-153: the operators pushed on the heap.  `none`: the
bound on the number of iterations was too small (`bfs_some` shows that this does not happen). -/
def bfs (g : Graph T) : Nat → List Nat → List Nat → List Nat → Option (List Nat)
  | _, [], _, pushed => some pushed
  | 0, _ :: _, _, _ => none
  | n + 1, i :: q, reached, pushed =>
    let st := visit (g.argsOf i) (q, reached)
    bfs g n st.1 st.2 (pushed ++ [i])

/-- The operators pushed on the heap, in this order. -/
def collect (g : Graph T) (root : Nat) : Option (List Nat) := bfs g (g.length + 1) [root] [] []

/-- Popping everything from `BinaryHeap<Reverse<OperatorInfoCmp>>`, graph.rs:31-50, 108: least depth first, operators of equal depth
in any order. -/
def PopsMin (g : Graph T) (pushed popped : List Nat) : Prop :=
  popped.Perm pushed ∧ popped.Pairwise (fun i j => g.depthOf i ≤ g.depthOf j)

/-- Popping everything from `BinaryHeap<OperatorInfoCmp>`, graph.rs:155: greatest depth first. -/
def PopsMax (g : Graph T) (pushed popped : List Nat) : Prop :=
  popped.Perm pushed ∧ popped.Pairwise (fun i j => g.depthOf j ≤ g.depthOf i)

/-- What is in the slots of an operator after its `forward` panicked. -/
def leftOf (g : Graph T) (o : OpInfo T) : List T :=
  match mapR g.val o.args with
  | .ok xs => o.oper.left xs o.vals
  | _ => o.vals

theorem leftOf_length (g : Graph T) (o : OpInfo T) : (g.leftOf o).length = o.vals.length := by
  unfold leftOf
  split
  · exact o.oper.left_len _ _
  · rfl

/-- One iteration of the loop graph.rs:108-128: new graph, whether the operator was run, and how that ended.  When the operator
panics, the flag stays set and the results are what the operator left. -/
def fwOne (g : Graph T) (i : Nat) : Graph T × Bool × Res Unit :=
  match g[i]? with
  | none => (g, false, panic)
  | some o =>
    if o.forwarded then (g, false, ok ())
    else
      match (do let xs ← mapR g.val o.args; o.oper.fw xs o.vals) with
      | .ok ys => (g.set i { o with forwarded := true, vals := ys }, true, ok ())
      | .panic => (g.set i { o with forwarded := true, vals := g.leftOf o }, true, panic)
      | .ub => (g.set i { o with forwarded := true, vals := g.leftOf o }, true, ub)

/-- The loop graph.rs:108-128: new graph, the operators that were run (the last one maybe not to the end), in order, and how the loop
ended. -/
def fwRun : List Nat → Graph T → Graph T × List Nat × Res Unit
  | [], g => (g, [], ok ())
  | i :: l, g =>
    match fwOne g i with
    | (g, b, .ok ()) =>
      match fwRun l g with
      | (g, tr, r) => (g, if b then i :: tr else tr, r)
    | (g, b, r) => (g, if b then [i] else [], r)

/-- `Node::forward` on a node of operator `root`, graph.rs:92-129, 215-217: a possible execution, with the operators run and its
outcome. -/
def Forward (g : Graph T) (root : Nat) (g' : Graph T) (tr : List Nat) (r : Res Unit) : Prop :=
  ∃ pushed popped, g.collect root = some pushed ∧ g.PopsMin pushed popped ∧ fwRun popped g = (g', tr, r)

/-- Replaces the gradient of a node. -/
def setGrad (g : Graph T) (a : Nat × Nat) (t : T) : Graph T :=
  g.modify a.1 fun o => { o with grads := o.grads.set a.2 t }

/-- Replaces the gradient of the parameter of an operator. -/
def setSink (g : Graph T) (i : Nat) (t : T) : Graph T :=
  g.modify i fun o => { o with sink := some t }

/-- graph.rs:137-143: seeds the gradients of all results of the root. -/
def seed (C : TensorLike T) (g : Graph T) (root : Nat) : Res (Graph T) := do
  let o ← at' g root
  let gs ← mapR C.ones o.grads
  ok (g.set root { o with grads := gs })

/-- graph.rs:174-178: allocates the gradient of an argument when there is none. -/
def ensure (C : TensorLike T) (g : Graph T) (a : Nat × Nat) : Res (Graph T) := do
  let t ← g.grad a
  if C.valid t then ok g
  else do
    let t ← C.zeros t
    ok (g.setGrad a t)

/-- One update of a gradient made by an operator's `backward`. -/
def update (args : List (Nat × Nat)) (g : Graph T) (u : Nat × (T → Res T)) : Res (Graph T) := do
  let a ← at' args u.1
  let t ← g.grad a
  let t ← u.2 t
  ok (g.setGrad a t)

/-- Shape of the gradient of a node.  Simplification: `alloc`, `reset` and the updates of gradients do not change the shape that the
gradient was created with (graph.rs:77), so this one is used. -/
def shapeOf (C : TensorLike T) (g : Graph T) (a : Nat × Nat) : Res Shape := do
  let o ← at' g a.1
  let t ← at' o.init a.2
  ok (C.shape t)

/-- One iteration of the loop graph.rs:155-185. -/
def bwOne (C : TensorLike T) (g : Graph T) (i : Nat) : Res (Graph T) := do
  let o ← at' g i
  let xs ← mapR g.val o.args
  let ss ← mapR (shapeOf C g) o.args
  let g ← foldR (ensure C) o.args g
  let g ← foldR (update o.args) (o.oper.bw xs o.vals o.grads ss) g
  match o.sink with
  | none => ok g
  | some t => do
    let gy ← at' o.grads 0
    let t ← C.addTo t gy
    ok (g.setSink i t)

/-- `backward`, graph.rs:131-186: a possible execution (the operators of equal depth in any order).  `popped`: the operators taken from
the heap, in order (after a panic the rest of them is not run). -/
def BackwardOnly (C : TensorLike T) (g : Graph T) (root : Nat) (popped : List Nat) (r : Res (Graph T)) : Prop :=
  ∃ pushed, g.collect root = some pushed ∧ g.PopsMax pushed popped ∧ (do let g ← g.seed C root; foldR (bwOne C) popped g) = r

/-- `Node::backward`, graph.rs:219-222: forward first.  `tr`: the operators whose `forward` is run; `popped`: those whose `backward`
is run, in order. -/
def Backward (C : TensorLike T) (g : Graph T) (root : Nat) (tr popped : List Nat) (r : Res (Graph T)) : Prop :=
  ∃ g1 r1, Forward g root g1 tr r1 ∧
    ((r1 = ok () ∧ BackwardOnly C g1 root popped r) ∨ (r1 = panic ∧ r = panic ∧ popped = []) ∨ (r1 = ub ∧ r = ub ∧ popped = []))

end Graph
end Verif
