import Verif.GraphSpec

/-!
# Model of the `Rc`s of graph.rs: who keeps the operators of a graph alive

`Verif.Graph` keeps every operator for ever.  Here are the reference counts of `Rc<OperatorInfo>` (graph.rs:19, 24), and the recursive drops that they cause.
A box is named by its position in the order of creation, as in `Verif.Graph`; boxes whose contents were dropped stay in the list with the count 0 and any use of
them is `ub`.  Not modelled: weak counts (never used), overflow of the count, the depth of the stack that recursive drops need, and operators written by a
program that own nodes themselves (those of prima-undine do not).
-/

namespace Verif
open Res
namespace Graph

/-- The nodes that `Node::create` returns, graph.rs:194-202. -/
def nodesOf {T : Type} (i : Nat) (o : OpInfo T) : List (Nat × Nat) := (List.range o.vals.length).map fun k => (i, k)

end Graph

namespace Own

/-- `RcBox<OperatorInfo>`, graph.rs:23-29: the strong count, the operators its `args` refer to, and the number of `rets`. -/
structure RcBox where
  strong : Nat
  args : List Nat
  rets : Nat
deriving DecidableEq

/-- All boxes, and the operators whose `rets` (values and gradients) have been dropped, in this order. -/
structure Heap where
  boxes : List RcBox
  released : List Nat
deriving DecidableEq

/-- No graph. -/
def Heap.empty : Heap := ⟨[], []⟩

/-- Writes a box. -/
def Heap.set (h : Heap) (i : Nat) (b : RcBox) : Heap := { h with boxes := h.boxes.set i b }

/-- `Rc::clone`. -/
def clone (h : Heap) (i : Nat) : Res Heap :=
  match h.boxes[i]? with
  | none => ub
  | some b => if b.strong = 0 then ub else ok (h.set i { b with strong := b.strong + 1 })

/-- Drop of an `Rc<OperatorInfo>`: the count is decremented; when it is 0 the fields of `OperatorInfo` are dropped in the order of their declaration
(graph.rs:23-29): `operator`, then `args` (each of them an `Rc`), then `rets`.  The first argument bounds the depth of the recursion. -/
def dropRc : Nat → Heap → Nat → Res Heap
  | 0, _, _ => ub
  | n + 1, h, i =>
    match h.boxes[i]? with
    | none => ub
    | some b =>
      if b.strong = 0 then ub
      else if b.strong = 1 then do
        let h ← foldR (dropRc n) b.args (h.set i { b with strong := 0 })
        ok { h with released := h.released ++ [i] }
      else ok (h.set i { b with strong := b.strong - 1 })

/-- Drop of a `Node` (graph.rs:52-54), or of a clone of its `Rc`. -/
def drop (h : Heap) (i : Nat) : Res Heap := dropRc h.boxes.length h i

/-- `Node::create`, graph.rs:189-203, with `OperatorInfo::new`, graph.rs:57-89: the `Rc`s of the arguments are cloned (66-72), the box is made (193), its `Rc` is
cloned for every result (194-201), and the local `op_info` is dropped.  (`forward_shape` is called first: when it panics, nothing has been done.) -/
def create (h : Heap) (args : List Nat) (rets : Nat) : Res Heap := do
  let h ← foldR clone args h
  let i := h.boxes.length
  let h ← foldR clone (List.replicate rets i) { h with boxes := h.boxes ++ [⟨1, args, rets⟩] }
  drop h i

/-- What `forward` (graph.rs:92-129) and `backward` (131-186) do with `Rc`s: one clone of every operator `pushed` on the heap (216, 221, 101, 149), dropped when
the operator has been `popped` and run; when an operator panics, the remaining ones are dropped with the heap. -/
def walk (h : Heap) (pushed popped : List Nat) : Res Heap := do
  let h ← foldR clone pushed h
  foldR drop popped h

/-- Everything a program can do with a graph: the graph, its boxes, and the nodes that the program has.  (`Node` is not `Clone`.)  Panics may be caught. -/
inductive Hist {T : Type} (C : TensorLike T) : Graph T → Heap → List (Nat × Nat) → Prop
  | empty : Hist C [] Heap.empty []
  | create {g g' : Graph T} {h h' : Heap} {ns args : List (Nat × Nat)} {op : Oper T} {sink : Option T} {o : OpInfo T} :
      Hist C g h ns → (∀ a ∈ args, a ∈ ns) → g.create C op sink args = ok g' → g'[g.length]? = some o →
      create h (args.map (·.1)) o.vals.length = ok h' → Hist C g' h' (ns ++ Graph.nodesOf g.length o)
  | drop {g : Graph T} {h h' : Heap} {ns : List (Nat × Nat)} {a : Nat × Nat} :
      Hist C g h ns → a ∈ ns → drop h a.1 = ok h' → Hist C g h' (ns.erase a)
  | forward {g g' : Graph T} {h h' : Heap} {ns : List (Nat × Nat)} {a : Nat × Nat} {tr pushed popped : List Nat} {r : Res Unit} :
      Hist C g h ns → a ∈ ns → Graph.Forward g a.1 g' tr r → g.collect a.1 = some pushed → popped.Perm pushed → walk h pushed popped = ok h' →
      Hist C g' h' ns
  /-- the differentiating part of `backward`, after `forward` -/
  | backward {g g' : Graph T} {h h' : Heap} {ns : List (Nat × Nat)} {a : Nat × Nat} {pushed popped : List Nat} :
      Hist C g h ns → a ∈ ns → Graph.BackwardOnly C g a.1 popped (ok g') → g.collect a.1 = some pushed → walk h pushed popped = ok h' → Hist C g' h' ns
  | backwardPanic {g g' : Graph T} {h h' : Heap} {ns : List (Nat × Nat)} {a : Nat × Nat} {pushed popped order : List Nat} :
      Hist C g h ns → a ∈ ns → Graph.BackwardOnly C g a.1 popped panic → Graph.SameValues g g' → g.collect a.1 = some pushed → order.Perm pushed →
      walk h pushed order = ok h' → Hist C g' h' ns

end Own
end Verif
