import Verif.OwnerLemmas2
import Verif.PropsGraph2

/-!
# Property C62: the operators of a graph (with the tensors of their results) are dropped exactly when no node needs them any more
-/

set_option linter.unusedSectionVars false

namespace Verif
namespace Own
open Res Graph
variable {T : Type} {C : TensorLike T}

/-- C62: at any time, after any history of creating and dropping nodes, `forward` and `backward` (caught panics included), the tensors of the results of an
operator have been dropped if and only if no node of the program needs the operator; and nothing was dropped twice. -/
theorem C62_exact {g : Graph T} {h : Heap} {ns : List (Nat × Nat)} (H : Own.Hist C g h ns) :
    h.released.Nodup ∧ ∀ i, i ∈ h.released ↔ i < g.length ∧ ¬ ∃ a ∈ ns, Needs g a.1 i :=
  ⟨H.sound.nodup, fun i => by rw [H.sound.log, H.sound.live_iff]⟩

/-- C62: no call ever uses an operator that was dropped: creating nodes from nodes of the program, dropping a node, and `forward` or `backward` on a node never
run into a dangling reference.  `forward` and `backward` leave all counts as they were, whatever the order in which the operators are run. -/
theorem C62_no_dangling {g : Graph T} {h : Heap} {ns : List (Nat × Nat)} (H : Own.Hist C g h ns) :
    (∀ (args : List (Nat × Nat)) (n : Nat), (∀ a ∈ args, a ∈ ns) → ∃ h', create h (args.map (·.1)) n = ok h') ∧
    (∀ a ∈ ns, ∃ h', Own.drop h a.1 = ok h') ∧
    (∀ a ∈ ns, ∀ pushed, g.collect a.1 = some pushed → ∀ popped, popped.Perm pushed → walk h pushed popped = ok h) := by
  refine ⟨fun args n ha => ?_, fun a ha => ?_, fun a ha pushed hc popped pm => H.sound.walk ha hc pm⟩
  · obtain ⟨h', e, _⟩ := create_spec H.sound.inv (args := args.map (·.1)) (fun a p => by
      obtain ⟨b, hb, rfl⟩ := List.mem_map.mp p
      exact List.mem_map.mpr ⟨b, ha b hb, rfl⟩) n
    exact ⟨h', e⟩
  · obtain ⟨h', e, _⟩ := H.sound.drop ha
    exact ⟨h', e⟩

/-- C62: the operators that `forward` and `backward` on a node of the program go through have not been dropped. -/
theorem C62_traversal_alive {g : Graph T} {h : Heap} {ns : List (Nat × Nat)} (H : Own.Hist C g h ns) {a : Nat × Nat} (ha : a ∈ ns) {pushed : List Nat}
    (hc : g.collect a.1 = some pushed) : ∀ i ∈ pushed, i ∉ h.released := by
  intro i hi hr
  obtain ⟨pushed', e, _, hm⟩ := collect_spec H.sound.wf (H.sound.lt ha)
  rw [hc] at e; cases e
  exact ((C62_exact H).2 i |>.mp hr).2 ⟨a, ha, (hm i).mp hi⟩

/-- C62: dropping a node drops exactly the operators that it needs and that no other node of the program needs. -/
theorem C62_drop {g : Graph T} {h h' : Heap} {ns : List (Nat × Nat)} (H : Own.Hist C g h ns) {a : Nat × Nat} (ha : a ∈ ns) (e : Own.drop h a.1 = ok h') :
    ∃ l, h'.released = h.released ++ l ∧ l.Nodup ∧ ∀ i, i ∈ l ↔ Needs g a.1 i ∧ ¬ ∃ b ∈ ns.erase a, Needs g b.1 i := by
  obtain ⟨h2, e2, s2, r⟩ := H.sound.drop ha
  rw [e] at e2; cases e2
  obtain ⟨l, el, nd, hm⟩ := r.log
  refine ⟨l, el, nd, fun i => ?_⟩
  rw [hm, H.sound.live_iff, s2.live_iff]
  constructor
  · rintro ⟨⟨b, hb, hn⟩, hx⟩
    refine ⟨?_, hx⟩
    by_cases q : b = a
    · rw [← q]; exact hn
    · exact absurd ⟨b, (List.mem_erase_of_ne q).mpr hb, hn⟩ hx
  · rintro ⟨hn, hx⟩
    exact ⟨⟨a, ha, hn⟩, hx⟩

/-- C62: creating nodes drops nothing, unless the operator has no results at all: then it is dropped at once. -/
theorem C62_create {g g' : Graph T} {h h' : Heap} {ns args : List (Nat × Nat)} (H : Own.Hist C g h ns) {op : Oper T} {sink : Option T} {o : OpInfo T}
    (ha : ∀ a ∈ args, a ∈ ns) (hc : g.create C op sink args = ok g') (ho : g'[g.length]? = some o)
    (e : create h (args.map (·.1)) o.vals.length = ok h') :
    h'.released = h.released ++ (if o.vals.length = 0 then [g.length] else []) := by
  obtain ⟨h2, e2, _, r⟩ := H.sound.create ha hc ho
  rw [e] at e2; cases e2; exact r

/-- C62: when the program has dropped all its nodes, in any order, every operator it ever created has been dropped, once. -/
theorem C62_all_released {g : Graph T} {h : Heap} {ns : List (Nat × Nat)} (H : Own.Hist C g h ns) {order : List (Nat × Nat)} (ho : order.Perm ns) :
    ∃ h', foldR (fun h (a : Nat × Nat) => Own.drop h a.1) order h = ok h' ∧ Own.Hist C g h' [] ∧ h'.released.Perm (List.range g.length) := by
  induction order generalizing h ns with
  | nil =>
    have := List.nil_perm.mp ho
    subst this
    refine ⟨h, rfl, H, ?_⟩
    rw [List.perm_ext_iff_of_nodup (C62_exact H).1 List.nodup_range]
    intro i
    rw [(C62_exact H).2]
    simp
  | cons a l ih =>
    have ha : a ∈ ns := ho.mem_iff.mp (by simp)
    obtain ⟨h1, e1⟩ := (C62_no_dangling H).2.1 a ha
    have pm : l.Perm (ns.erase a) := by
      have := ho.erase a
      simpa using this
    obtain ⟨h2, e2, H2, p2⟩ := ih (H.drop ha e1) pm
    exact ⟨h2, by simp only [foldR, e1, Res.ok_bind, e2], H2, p2⟩

/-! ### An instance: `w` (0), `5 * w` (1), `w + 5 * w` (2), `7 * w` (3) -/

section
attribute [local instance] intFlt

/-- One call of `Node::create`. -/
def exC (g : Graph (Tensor ℤ)) (op : NodeOp ℤ) (sink : Option (Tensor ℤ)) (args : List (Nat × Nat)) : Res (Graph (Tensor ℤ)) :=
  g.create (tensorLike .debug fun _ => 0) (op.oper .debug 0 fun _ _ => 0) sink args

def exE1 : Graph (Tensor ℤ) := gOf (exC [] (.parameter (vec2 2 3)) (some (vec2 0 0)) [])
def exE2 : Graph (Tensor ℤ) := gOf (exC exE1 (.cn .mul 5) none [(0, 0)])
def exE3 : Graph (Tensor ℤ) := gOf (exC exE2 (.bi .add) none [(0, 0), (1, 0)])
def exE4 : Graph (Tensor ℤ) := gOf (exC exE3 (.cn .mul 7) none [(0, 0)])

/-- The number of results of an operator. -/
def exV (g : Graph (Tensor ℤ)) (n : Nat) : Option Nat := (g[n]?).map fun o => o.vals.length

theorem ex_step {n : Nat} {g g' : Graph (Tensor ℤ)} {h h' : Heap} {ns args : List (Nat × Nat)} {op : NodeOp ℤ} {sink : Option (Tensor ℤ)}
    (H : Own.Hist (tensorLike .debug fun _ => 0) g h ns) (ha : ∀ a ∈ args, a ∈ ns) (hc : exC g op sink args = ok g') (hl : g.length = n)
    (hv : exV g' n = some 1) (e : create h (args.map (·.1)) 1 = ok h') : Own.Hist (tensorLike .debug fun _ => 0) g' h' (ns ++ [(n, 0)]) := by
  subst hl
  obtain ⟨o, ho, hov⟩ := Option.map_eq_some_iff.mp hv
  have := H.create ha hc ho (by rw [hov]; exact e)
  unfold nodesOf at this
  rw [hov] at this
  exact this

theorem exE_hist : Own.Hist (tensorLike .debug fun _ => 0) exE4 ⟨[⟨4, [], 1⟩, ⟨2, [0], 1⟩, ⟨1, [0, 1], 1⟩, ⟨1, [0], 1⟩], []⟩ [(0, 0), (1, 0), (2, 0), (3, 0)] := by
  have h1 := ex_step (n := 0) (g' := exE1) (args := []) .empty (by simp) (gOf_eq (by decide +kernel)) (by decide +kernel) (by decide +kernel)
    (h' := ⟨[⟨1, [], 1⟩], []⟩) (by decide +kernel)
  have h2 := ex_step (n := 1) (g' := exE2) (args := [(0, 0)]) h1 (by simp) (gOf_eq (by decide +kernel)) (by decide +kernel) (by decide +kernel)
    (h' := ⟨[⟨2, [], 1⟩, ⟨1, [0], 1⟩], []⟩) (by decide +kernel)
  have h3 := ex_step (n := 2) (g' := exE3) (args := [(0, 0), (1, 0)]) h2 (by simp) (gOf_eq (by decide +kernel)) (by decide +kernel) (by decide +kernel)
    (h' := ⟨[⟨3, [], 1⟩, ⟨2, [0], 1⟩, ⟨1, [0, 1], 1⟩], []⟩) (by decide +kernel)
  exact ex_step (n := 3) (g' := exE4) (args := [(0, 0)]) h3 (by simp) (gOf_eq (by decide +kernel)) (by decide +kernel) (by decide +kernel) (by decide +kernel)

/-- C62 has instances: dropping `w` and `5 * w` first drops nothing; dropping `w + 5 * w` then drops the operators 1 and 2, for `w` is still needed by `7 * w`;
dropping that node drops the rest. -/
example : ∃ h1 h2, Own.Hist (tensorLike .debug fun _ => 0) exE4 h1 [(2, 0), (3, 0)] ∧ h1.released = [] ∧
    Own.drop h1 2 = ok h2 ∧ h2.released = [1, 2] ∧ Own.Hist (tensorLike .debug fun _ => 0) exE4 h2 [(3, 0)] ∧ (∀ h3, Own.drop h2 3 = ok h3 → h3.released = [1, 2, 0, 3]) := by
  have a1 := exE_hist.drop (a := (0, 0)) (by simp) (h' := ⟨[⟨3, [], 1⟩, ⟨2, [0], 1⟩, ⟨1, [0, 1], 1⟩, ⟨1, [0], 1⟩], []⟩) (by decide +kernel)
  have a2 := a1.drop (a := (1, 0)) (by decide) (h' := ⟨[⟨3, [], 1⟩, ⟨1, [0], 1⟩, ⟨1, [0, 1], 1⟩, ⟨1, [0], 1⟩], []⟩) (by decide +kernel)
  have a3 := a2.drop (a := (2, 0)) (by decide) (h' := ⟨[⟨1, [], 1⟩, ⟨0, [0], 1⟩, ⟨0, [0, 1], 1⟩, ⟨1, [0], 1⟩], [1, 2]⟩) (by decide +kernel)
  refine ⟨_, _, a2, rfl, by decide +kernel, rfl, a3, fun h3 e => ?_⟩
  have : Own.drop ⟨[⟨1, [], 1⟩, ⟨0, [0], 1⟩, ⟨0, [0, 1], 1⟩, ⟨1, [0], 1⟩], [1, 2]⟩ 3 = ok ⟨[⟨0, [], 1⟩, ⟨0, [0], 1⟩, ⟨0, [0, 1], 1⟩, ⟨0, [0], 1⟩], [1, 2, 0, 3]⟩ := by
    decide +kernel
  rw [this] at e; cases e; rfl

/-- ... and `forward` on `w + 5 * w` is one of the steps. -/
example : ∃ g' h', Own.Hist (tensorLike .debug fun _ => 0) g' h' [(0, 0), (1, 0), (2, 0), (3, 0)] ∧ Forward exE4 2 g' [0, 1, 2] (ok ()) := by
  have hf : Forward exE4 2 (fwd exE4 [0, 1, 2]) [0, 1, 2] (ok ()) :=
    Forward.mk' (pushed := [2, 0, 1]) (by decide +kernel) (by decide +kernel) (by decide +kernel)
  have hc : exE4.collect 2 = some [2, 0, 1] := by decide +kernel
  exact ⟨_, _, exE_hist.forward (a := (2, 0)) (by simp) hf hc (List.Perm.refl _) ((C62_no_dangling exE_hist).2.2 (2, 0) (by simp) _ hc _ (List.Perm.refl _)), hf⟩

end

end Own
end Verif
