import Verif.Graph

/-!
# Specification of the computation graph, independent of the algorithms of graph.rs
-/

namespace Verif
open Res
namespace Graph
variable {T : Type}

/-- `j` is `i` or one of its arguments, their arguments, and so on. -/
inductive Needs (g : Graph T) : Nat → Nat → Prop
  | refl (i : Nat) : Needs g i i
  | arg {i j : Nat} {a : Nat × Nat} : a ∈ g.argsOf i → Needs g a.1 j → Needs g i j

/-- Recursive evaluation of an expression: the values of the results of operator `i`.  (An argument is always an earlier operator.) -/
def den (g : Graph T) (i : Nat) : Res (List T) :=
  match g[i]? with
  | none => panic
  | some o => do
    let xs ← mapR (fun a => if _h : a.1 < i then (do let ys ← den g a.1; at' ys a.2) else panic) o.args
    o.oper.fw xs o.init
termination_by i
decreasing_by assumption

/-- All ancestors of `i` can be evaluated. -/
def Evaluable (g : Graph T) (i : Nat) : Prop := ∀ j, Needs g i j → ∃ ys, den g j = ok ys

/-- The graphs differ at most in gradients (and in the gradients of parameters). -/
def SameValues (g g' : Graph T) : Prop :=
  g.length = g'.length ∧ ∀ (i : Nat) (o : OpInfo T), g[i]? = some o →
    ∃ (gr : List T) (sk : Option T), gr.length = o.grads.length ∧ g'[i]? = some { o with grads := gr, sink := sk }

/-- Everything a program can do with a graph, with the list of all `forward`s of operators run so far.  Panics may be caught.  After a
panic in the differentiating part of `backward` any gradients may be there. -/
inductive Hist (C : TensorLike T) : Graph T → List Nat → Prop
  | empty : Hist C [] []
  | create {g g' : Graph T} {tr : List Nat} {op : Oper T} {sink : Option T} {args : List (Nat × Nat)} :
      Hist C g tr → create C g op sink args = ok g' → Hist C g' tr
  | forward {g g' : Graph T} {tr tr' : List Nat} {root : Nat} {r : Res Unit} :
      Hist C g tr → root < g.length → Forward g root g' tr' r → Hist C g' (tr ++ tr')
  | backward {g g1 g' : Graph T} {tr tr' popped : List Nat} {root : Nat} :
      Hist C g tr → root < g.length → Forward g root g1 tr' (ok ()) → BackwardOnly C g1 root popped (ok g') → Hist C g' (tr ++ tr')
  | backwardPanic {g g1 g' : Graph T} {tr tr' popped : List Nat} {root : Nat} :
      Hist C g tr → root < g.length → Forward g root g1 tr' (ok ()) → BackwardOnly C g1 root popped panic → SameValues g1 g' →
      Hist C g' (tr ++ tr')

/-- Contributions of operator `i` to the gradient of node `a`, given the gradients `gys` of its results: the updates which its `backward`
makes on the gradients of those arguments that are `a`, in order. -/
def contribs (C : TensorLike T) (g : Graph T) (gys : List T) (i : Nat) (a : Nat × Nat) : List (T → Res T) :=
  match g[i]? with
  | none => []
  | some o =>
    match mapR g.val o.args, mapR (shapeOf C g) o.args with
    | .ok xs, .ok ss => (o.oper.bw xs o.vals gys ss).filterMap fun u => if o.args[u.1]? = some a then some u.2 else none
    | _, _ => []

/-- The gradient `t`, allocated with zeros when it is not there yet. -/
def ens (C : TensorLike T) (t : T) : Res T := if C.valid t then ok t else C.zeros t

/-- What operator `i` does to the gradient `t` of node `a`: nothing when `a` is not an argument; otherwise it is allocated with zeros when
it is not there yet, and the contributions are applied. -/
def receive (C : TensorLike T) (g : Graph T) (gys : List T) (a : Nat × Nat) (t : T) (i : Nat) : Res T :=
  if a ∈ g.argsOf i then do
    let t ← ens C t
    foldR (fun t f => f t) (contribs C g gys i a) t
  else ok t

/-- The gradients of the results of an operator. -/
def gradsOf (g : Graph T) (i : Nat) : List T :=
  match g[i]? with
  | some o => o.grads
  | none => []

/-- The parameter gradient of an operator. -/
def sinkOf (g : Graph T) (i : Nat) : Option T :=
  match g[i]? with
  | some o => o.sink
  | none => none

/-- What `backward` from `root` must have done when it has run the operators `order`. -/
structure Accumulated (C : TensorLike T) (g : Graph T) (root : Nat) (order : List Nat) (g' : Graph T) : Prop where
  /-- only gradients change -/
  same : SameValues g g'
  /-- every result of the root got ones, every other node keeps its gradient; then each operator, in order, contributed, with its *final*
  gradients -/
  grads : ∀ a t, g.grad a = ok t → ∃ t0 t', (if a.1 = root then C.ones t else ok t) = ok t0 ∧ g'.grad a = ok t' ∧
    foldR (fun t i => receive C g (g'.gradsOf i) a t i) order t0 = ok t'
  /-- parameters -/
  sinks : ∀ i, g'.sinkOf i = g.sinkOf i ∨ i ∈ order
  sinks_add : ∀ i t, i ∈ order → g.sinkOf i = some t → ∃ gy t', (g'.gradsOf i)[0]? = some gy ∧ C.addTo t gy = ok t' ∧
    g'.sinkOf i = some t'

end Graph
end Verif
