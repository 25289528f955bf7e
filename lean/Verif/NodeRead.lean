import Verif.PropsSafety2

/-!
# Model of the functions that read nodes, `prima_undine/src/functions/basic/node.rs:7-40`

Each of them calls `forward` on the node and then the function of the same name of the value.  (`shape` is `NF.shape`: it does not call
`forward`.)
-/

namespace Verif
open Res
variable {α : Type} [Flt α]

namespace NF

/-- The functions that read a node or a tensor; `srt` is the sorting algorithm of std (see `Dev.argsort`). -/
inductive Read where
  | toVec
  | toFloat
  | argmax (dim : Nat)
  | argmin (dim : Nat)
  | argsort (srt : (Nat → Nat → Bool) → List Nat → List Nat) (dim : Nat)

/-- What they return. -/
inductive ReadVal (α : Type) where
  | vec (l : List α)
  | float (x : α)
  | ids (l : List Nat)
deriving DecidableEq

/-- The functions of tensors, basic/tensor.rs:13-19 (`to_vec`, `to_float`: they use the device of the tensor), and of device `d`,
basic/device.rs:112-131 (`argmax`, `argmin`, `argsort`). -/
def Read.tensor (d : Nat) (t : Tensor α) : Read → Res (ReadVal α)
  | toVec => do let _ ← t.dev; let l ← t.toVec .debug; ok (.vec l)
  | toFloat => do let _ ← t.dev; let x ← Dev.tensorToFloat .debug t; ok (.float x)
  | argmax dim => do let l ← Dev.argmax .debug d t dim; ok (.ids l)
  | argmin dim => do let l ← Dev.argmin .debug d t dim; ok (.ids l)
  | argsort srt dim => do let l ← Dev.argsort srt .debug d t dim; ok (.ids l)

/-- What the functions of nodes do with the value after `forward`, functions/basic/node.rs:13-40: `to_vec` and `to_float` call the functions of
the tensor, the others those of the node's device `d` (graph.rs:212-214). -/
def Read.node (d : Nat) (t : Tensor α) : Read → Res (ReadVal α)
  | toVec => do let _ ← t.dev; let l ← t.toVec .debug; ok (.vec l)
  | toFloat => do let _ ← t.dev; let x ← Dev.tensorToFloat .debug t; ok (.float x)
  | argmax dim => do let l ← Dev.argmax .debug d t dim; ok (.ids l)
  | argmin dim => do let l ← Dev.argmin .debug d t dim; ok (.ids l)
  | argsort srt dim => do let l ← Dev.argsort srt .debug d t dim; ok (.ids l)

/-- `Node::to_vec`, `to_float`, `argmax`, `argmin`, `argsort`, functions/basic/node.rs:13-40: a possible execution (`forward` may take
operators of equal depth in any order).  Build with overflow checks. -/
def Reads (rd : Read) (g : Graph (Tensor α)) (n : Node) (g' : Graph (Tensor α)) (r : Res (ReadVal α)) : Prop :=
  ∃ tr rf, Graph.Forward g n.op g' tr rf ∧ r = (do
    rf
    let t ← g'.val n.id
    rd.node n.dev t)

/-- The functions of nodes do the same with the value as those of tensors. -/
theorem Read.node_eq (d : Nat) (t : Tensor α) (rd : Read) : rd.node d t = rd.tensor d t := by cases rd <;> rfl

/-- std's sorting functions return the elements they are given. -/
def Read.Std : Read → Prop
  | argsort srt _ => ∀ le l, (srt le l).Perm l
  | _ => True

end NF

/-- What a program does with the graph after `g0`: the steps of `Prog`, each call of a function that makes nodes being one that `P` allows. -/
inductive Prog.Steps (P : NodeCall α → Prop) (g0 : Graph (Tensor α)) : Graph (Tensor α) → Prop
  | refl : Steps P g0 g0
  | call {g g' : Graph (Tensor α)} {c : NodeCall α} {m : Mem α} {ns : List NF.Node} : Steps P g0 g → c.Typed → P c → c.run m g = ok (g', ns) → Steps P g0 g'
  | forward {g g' : Graph (Tensor α)} {root : Nat} {tr : List Nat} {r : Res Unit} : Steps P g0 g → Graph.Forward g root g' tr r → Steps P g0 g'
  | backward {g g' : Graph (Tensor α)} {m0 : Nat → α} {root : Nat} {tr popped : List Nat} : Steps P g0 g →
      (∀ i ∈ popped, ∀ o ids d m, g[i]? = some o → o.oper = (NodeOp.batchPick ids).oper .debug d m → ids.length = 1) →
      Graph.Backward (tensorLike .debug m0) g root tr popped (ok g') → Steps P g0 g'
  | backwardPanic {g g1 g' : Graph (Tensor α)} {m0 : Nat → α} {root : Nat} {tr popped : List Nat} : Steps P g0 g →
      Graph.Forward g root g1 tr (ok ()) → Graph.BackwardOnly (tensorLike .debug m0) g1 root popped panic → g1.Disturbed g' → Steps P g0 g'

/-- The tensor that `Node::from(tensor)` takes, if this is the call, has values. -/
def NodeCall.OwnsValues (c : NodeCall α) : Prop := ∀ t, c = .ofOwned t → t.valid = true

end Verif
