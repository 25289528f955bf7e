import Verif.NodeLemmas6

/-!
# Specification for C38: a node function agrees with a tensor function
-/

set_option linter.unusedSectionVars false

namespace Verif
open Res
variable {α : Type} [Flt α]

namespace NF

/-- A graph that some program can have built, in which no `forward` of an operator has panicked so far. -/
structure Ready (p : Profile) (m0 : Nat → α) (g : Graph (Tensor α)) : Prop where
  hist : ∃ tr, Graph.Hist (tensorLike p m0) g tr
  healthy : ∀ (i : Nat) (o : OpInfo (Tensor α)), g[i]? = some o → o.forwarded = true → ∃ ys, Graph.den g i = ok ys

/-- `x` is a node of `g` which has `y`'s shape and for which every possible execution of `forward` succeeds and leaves the value `y`. -/
def Computes (g : Graph (Tensor α)) (x : Node) (y : Tensor α) : Prop :=
  x.op < g.length ∧ shape g x = ok y.shape ∧
    (∃ g' tr r, Graph.Forward g x.op g' tr r) ∧ ∀ g' tr r, Graph.Forward g x.op g' tr r → r = ok () ∧ g'.val x.id = ok y

/-- The node function `r` agrees with the tensor function `t`: when the tensor function succeeds, the node can be created and evaluates
to exactly its result; when the node can be created and evaluated, the tensor function gives exactly its value. -/
def Agrees (p : Profile) (m0 : Nat → α) (r : Res (Graph (Tensor α) × Node)) (t : Res (Tensor α)) : Prop :=
  (∀ y, t = ok y → ∃ g' n, r = ok (g', n) ∧ Ready p m0 g' ∧ IsNode p g' n ∧ Computes g' n y) ∧
  (∀ g' n, r = ok (g', n) → ∀ g'' tr y, Graph.Forward g' n.op g'' tr (ok ()) → g''.val n.id = ok y → t = ok y)

/-- The same for functions with several results. -/
def AgreesList (p : Profile) (m0 : Nat → α) (r : Res (Graph (Tensor α) × List Node)) (t : Res (List (Tensor α))) : Prop :=
  (∀ ys, t = ok ys → ∃ g' ns, r = ok (g', ns) ∧ Ready p m0 g' ∧ List.Forall₂ (fun n y => IsNode p g' n ∧ Computes g' n y) ns ys) ∧
  (∀ g' ns ys, r = ok (g', ns) → ns ≠ [] → List.Forall₂ (fun n y => ∃ g'' tr, Graph.Forward g' n.op g'' tr (ok ()) ∧ g''.val n.id = ok y) ns ys →
    t = ok ys)

end NF
end Verif
