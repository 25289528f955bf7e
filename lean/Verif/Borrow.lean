import Verif.GraphSpec

/-!
# Model of the `RefCell`s of graph.rs

Every value and every gradient of the graph is in a `RefCell` (graph.rs:10-13).  `Node::inner_value` and `Node::inner_gradient` (graph.rs:205-211) hand out
`Ref`s, which a program may keep while it calls `forward` and `backward`.  Here the loops of graph.rs are repeated with the borrow flags of the cells: a cell is
named by its node (operator, number of the result), `V` are the flags of the values and `G` those of the gradients.
-/

namespace Verif
open Res

/-- The flags of `std::cell::RefCell`: positive = number of live `Ref`s, -1 = a live `RefMut`, 0 = unused.  (The overflow of the counter is not modelled.) -/
abbrev Flags := Nat × Nat → Int

namespace Flags

/-- Changes one flag. -/
def add (c : Flags) (a : Nat × Nat) (k : Int) : Flags := fun b => if b = a then c b + k else c b

/-- `cell.borrow()`: panics when it is mutably borrowed. -/
def shared (c : Flags) (a : Nat × Nat) : Res Flags := if 0 ≤ c a then ok (c.add a 1) else panic

/-- `cell.borrow_mut()`: panics when it is borrowed. -/
def excl (c : Flags) (a : Nat × Nat) : Res Flags := if c a = 0 then ok (c.add a (-1)) else panic

/-- Drop of `Ref`s. -/
def dropRefs (c : Flags) (l : List (Nat × Nat)) : Flags := l.foldl (fun c a => c.add a (-1)) c

/-- Drop of `RefMut`s. -/
def dropMuts (c : Flags) (l : List (Nat × Nat)) : Flags := l.foldl (fun c a => c.add a 1) c

end Flags

namespace Graph
variable {T : Type}

/-- The cells of the results of an operator. -/
def cellsOf (i : Nat) (o : OpInfo T) : List (Nat × Nat) := (List.range o.vals.length).map fun k => (i, k)

/-- `OperatorInfo::new` with the borrows of the arguments' values (graph.rs:61-64: each `Ref` is dropped after its shape is read). -/
def createB (C : TensorLike T) (V : Flags) (g : Graph T) (op : Oper T) (sink : Option T) (args : List (Nat × Nat)) : Res (Graph T) := do
  let _ ← foldR (fun V a => do
    let V ← V.shared a
    ok (V.dropRefs [a])) args V
  create C g op sink args

/-- One iteration of graph.rs:108-128: the flag `forwarded` is set first; then the arguments' values are borrowed, then the results mutably.  When something
panics, unwinding drops the guards. -/
def fwOneB (V : Flags) (g : Graph T) (i : Nat) : Flags × Graph T × Bool × Res Unit :=
  match g[i]? with
  | none => (V, g, false, panic)
  | some o =>
    if o.forwarded then (V, g, false, ok ())
    else
      match (do
        let xs ← mapR g.val o.args
        let V ← foldR Flags.shared o.args V
        let V ← foldR Flags.excl (cellsOf i o) V
        ok (xs, V)) with
      | .ok (xs, V') =>
        match o.oper.fw xs o.vals with
        | .ok ys => ((V'.dropMuts (cellsOf i o)).dropRefs o.args, g.set i { o with forwarded := true, vals := ys }, true, ok ())
        | .panic => (V, g.set i { o with forwarded := true, vals := o.oper.left xs o.vals }, true, panic)
        | .ub => (V, g.set i { o with forwarded := true, vals := o.oper.left xs o.vals }, true, ub)
      | .panic => (V, g.set i { o with forwarded := true }, true, panic)
      | .ub => (V, g.set i { o with forwarded := true }, true, ub)

/-- The loop graph.rs:108-128. -/
def fwRunB : List Nat → Flags → Graph T → Flags × Graph T × List Nat × Res Unit
  | [], V, g => (V, g, [], ok ())
  | i :: l, V, g =>
    match fwOneB V g i with
    | (V, g, b, .ok ()) =>
      match fwRunB l V g with
      | (V, g, tr, r) => (V, g, if b then i :: tr else tr, r)
    | (V, g, b, r) => (V, g, if b then [i] else [], r)

/-- `Node::forward` with the flags of the values `V` before and `V'` after. -/
def ForwardB (V : Flags) (g : Graph T) (root : Nat) (V' : Flags) (g' : Graph T) (tr : List Nat) (r : Res Unit) : Prop :=
  ∃ pushed popped, g.collect root = some pushed ∧ g.PopsMin pushed popped ∧ fwRunB popped V g = (V', g', tr, r)

/-- graph.rs:136-143: each gradient of the root is mutably borrowed, allocated and filled. -/
def seedB (C : TensorLike T) (G : Flags) (g : Graph T) (root : Nat) : Res (Graph T) := do
  let o ← at' g root
  let gs ← mapR (fun k => do
    let _ ← G.excl (root, k)
    let t ← at' o.grads k
    C.ones t) (List.range o.vals.length)
  ok (g.set root { o with grads := gs })

/-- graph.rs:171-180: each gradient of an argument is mutably borrowed (also when it is there already), and the `RefMut` dropped. -/
def ensureB (C : TensorLike T) (s : Flags × Graph T) (a : Nat × Nat) : Res (Flags × Graph T) := do
  let G ← s.1.excl a
  let g ← ensure C s.2 a
  ok (G.dropMuts [a], g)

/-- One update of a gradient by an operator's `backward`: under its own `borrow_mut()`, which is dropped at the end of the statement (operators/*.rs). -/
def updateB (args : List (Nat × Nat)) (s : Flags × Graph T) (u : Nat × (T → Res T)) : Res (Flags × Graph T) := do
  let a ← at' args u.1
  let G ← s.1.excl a
  let g ← update args s.2 u
  ok (G.dropMuts [a], g)

/-- One iteration of graph.rs:155-185: the arguments' values, the results' values and the results' gradients are borrowed until its end. -/
def bwOneB (C : TensorLike T) (s : Flags × Flags × Graph T) (i : Nat) : Res (Flags × Flags × Graph T) := do
  let o ← at' s.2.2 i
  let xs ← mapR s.2.2.val o.args
  let ss ← mapR (shapeOf C s.2.2) o.args
  let V ← foldR Flags.shared o.args s.1
  let V ← foldR Flags.shared (cellsOf i o) V
  let G ← foldR Flags.shared (cellsOf i o) s.2.1
  let q ← foldR (ensureB C) o.args (G, s.2.2)
  let q ← foldR (updateB o.args) (o.oper.bw xs o.vals o.grads ss) q
  let g ← match o.sink with
    | none => ok q.2
    | some t => do
      let gy ← at' o.grads 0
      let t ← C.addTo t gy
      ok (q.2.setSink i t)
  ok ((V.dropRefs (cellsOf i o)).dropRefs o.args, q.1.dropRefs (cellsOf i o), g)

/-- `backward`, graph.rs:131-186, with the flags. -/
def BackwardOnlyB (C : TensorLike T) (V G : Flags) (g : Graph T) (root : Nat) (popped : List Nat) (r : Res (Flags × Flags × Graph T)) : Prop :=
  ∃ pushed, g.collect root = some pushed ∧ g.PopsMax pushed popped ∧ (do
    let g ← g.seedB C G root
    foldR (bwOneB C) popped (V, G, g)) = r

/-- Everything a program can do with a graph, keeping `Ref`s of values and gradients as it likes, from the state `V0`, `G0`, `g0` on: the state is the flags of the
values, of the gradients, and the graph.  `Node::backward` is a step `forward` and, if that returned, a step `backward`.  Panics may be caught; after a panic in
the differentiating part of `backward` any gradients may be there. -/
inductive StepsB (C : TensorLike T) (V0 G0 : Flags) (g0 : Graph T) : Flags → Flags → Graph T → Prop
  | refl : StepsB C V0 G0 g0 V0 G0 g0
  /-- `inner_value()`, graph.rs:205-207 -/
  | holdValue {V V' G : Flags} {g : Graph T} {a : Nat × Nat} : StepsB C V0 G0 g0 V G g → V.shared a = ok V' → StepsB C V0 G0 g0 V' G g
  | dropValue {V G : Flags} {g : Graph T} {a : Nat × Nat} : StepsB C V0 G0 g0 V G g → 0 < V a → StepsB C V0 G0 g0 (V.dropRefs [a]) G g
  /-- `inner_gradient()`, graph.rs:209-211 -/
  | holdGradient {V G G' : Flags} {g : Graph T} {a : Nat × Nat} : StepsB C V0 G0 g0 V G g → G.shared a = ok G' → StepsB C V0 G0 g0 V G' g
  | dropGradient {V G : Flags} {g : Graph T} {a : Nat × Nat} : StepsB C V0 G0 g0 V G g → 0 < G a → StepsB C V0 G0 g0 V (G.dropRefs [a]) g
  | create {V G : Flags} {g g' : Graph T} {op : Oper T} {sink : Option T} {args : List (Nat × Nat)} :
      StepsB C V0 G0 g0 V G g → createB C V g op sink args = ok g' → StepsB C V0 G0 g0 V G g'
  | forward {V V' G : Flags} {g g' : Graph T} {tr : List Nat} {root : Nat} {r : Res Unit} :
      StepsB C V0 G0 g0 V G g → root < g.length → ForwardB V g root V' g' tr r → StepsB C V0 G0 g0 V' G g'
  | backward {V V' G G' : Flags} {g g' : Graph T} {popped : List Nat} {root : Nat} :
      StepsB C V0 G0 g0 V G g → root < g.length → BackwardOnlyB C V G g root popped (ok (V', G', g')) → StepsB C V0 G0 g0 V' G' g'
  | backwardPanic {V G : Flags} {g g' : Graph T} {popped : List Nat} {root : Nat} :
      StepsB C V0 G0 g0 V G g → root < g.length → BackwardOnlyB C V G g root popped panic → SameValues g g' → StepsB C V0 G0 g0 V G g'

/-- The states a program can reach from an empty graph. -/
def HistB (C : TensorLike T) (V G : Flags) (g : Graph T) : Prop := StepsB C (fun _ => 0) (fun _ => 0) [] V G g

end Graph
end Verif
