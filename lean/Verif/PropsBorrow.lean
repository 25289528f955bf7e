import Verif.BorrowLemmas
import Verif.PropsGraph2

/-!
# Property C61: `Ref`s that a program keeps while a graph is evaluated or differentiated
-/

set_option linter.unusedSectionVars false

namespace Verif
namespace Graph
open Res
variable {T : Type} {C : TensorLike T}

/-- C61: creating a node is never disturbed by `Ref`s. -/
theorem C61_create {V G : Flags} {g : Graph T} (h : HistB C V G g) (op : Oper T) (sink : Option T) (args : List (Nat × Nat)) :
    createB C V g op sink args = create C g op sink args := createB_eq h.sound.values g op sink args

/-- C61: `forward` is not disturbed by `Ref`s of values of nodes that were evaluated before or that are not needed: its executions are exactly those without
the `Ref`s. -/
theorem C61_forward_undisturbed {V V' G : Flags} {g g' : Graph T} (h : HistB C V G g) {root : Nat} (hr : root < g.length)
    (hv : ∀ i o, Needs g root i → g[i]? = some o → o.forwarded = false → ∀ k < o.vals.length, V (i, k) = 0) {tr : List Nat} {r : Res Unit} :
    ForwardB V g root V' g' tr r ↔ V' = V ∧ Forward g root g' tr r := by
  have key : ∀ {pushed popped : List Nat}, g.collect root = some pushed → g.PopsMin pushed popped → fwRunB popped V g = (V, fwRun popped g) := by
    intro pushed popped hc hp
    refine fwRunB_free popped h.sound.values h.sound.wf fun i hi ⟨o, ho, hf, k, hk, hne⟩ => hne ?_
    exact hv i o (((popsMin_spec h.sound.wf hr hc hp).2.1 i).mp hi) ho hf k hk
  constructor
  · rintro ⟨pushed, popped, hc, hp, e⟩
    rw [key hc hp] at e
    injection e with e1 e2
    exact ⟨e1.symm, pushed, popped, hc, hp, e2⟩
  · rintro ⟨rfl, pushed, popped, hc, hp, e⟩
    exact ⟨pushed, popped, hc, hp, by rw [key hc hp, e]⟩

/-- C61: `forward` never completes while a `Ref` of the value of a needed node is kept that was not evaluated yet. -/
theorem C61_forward_disturbed {V V' G : Flags} {g g' : Graph T} (h : HistB C V G g) {root : Nat} (hr : root < g.length) {i k : Nat} {o : OpInfo T}
    (hn : Needs g root i) (ho : g[i]? = some o) (hf : o.forwarded = false) (hk : k < o.vals.length) (hv : V (i, k) ≠ 0) {tr : List Nat} {r : Res Unit}
    (hfw : ForwardB V g root V' g' tr r) : r ≠ ok () := by
  obtain ⟨pushed, popped, hc, hp, e⟩ := hfw
  obtain ⟨hnd, hmem, _⟩ := popsMin_spec h.sound.wf hr hc hp
  have := (fwRunB_blocked popped hnd h.sound.values h.sound.wf ((hmem i).mpr hn) ⟨o, ho, hf, k, hk, hv⟩).1
  rw [e] at this; exact this

/-- C61: if without the `Ref`s the call would have completed, it panics at a node whose value is kept, and that node is now marked as evaluated although its
value is as it was created. -/
theorem C61_disturbed_node_marked {V V' G : Flags} {g g' : Graph T} (h : HistB C V G g) {root : Nat} (hr : root < g.length) {i k : Nat} {o : OpInfo T}
    (hn : Needs g root i) (ho : g[i]? = some o) (hf : o.forwarded = false) (hk : k < o.vals.length) (hv : V (i, k) ≠ 0) {tr : List Nat} {r : Res Unit}
    (hfw : ForwardB V g root V' g' tr r) (hall : ∀ g1 tr1 r1, Forward g root g1 tr1 r1 → r1 = ok ()) :
    r = panic ∧ ∃ j o' tr0, tr = tr0 ++ [j] ∧ Needs g root j ∧ g[j]? = some o' ∧ o'.forwarded = false ∧ (∃ k', k' < o'.vals.length ∧ V (j, k') ≠ 0) ∧
      g'[j]? = some { o' with forwarded := true, vals := o'.init } := by
  obtain ⟨pushed, popped, hc, hp, e⟩ := hfw
  obtain ⟨hnd, hmem, _⟩ := popsMin_spec h.sound.wf hr hc hp
  have hrun : (fwRun popped g).2.2 = ok () := hall _ _ _ ⟨pushed, popped, hc, hp, rfl⟩
  obtain ⟨j, o', tr0, hj, ⟨o2, ho2, hf2, hx⟩, ho', _, e1, e2, e3⟩ :=
    (fwRunB_blocked popped hnd h.sound.values h.sound.wf ((hmem i).mpr hn) ⟨o, ho, hf, k, hk, hv⟩).2 hrun
  rw [e] at e1 e2 e3
  rw [ho'] at ho2
  obtain rfl := Option.some.inj ho2
  refine ⟨e3, j, o', tr0, e2, (hmem j).mp hj, ho', hf2, hx, ?_⟩
  rw [e1, h.sound.fresh j o' ho' hf2]

/-- C61: a node that is marked as evaluated keeps its value for ever, whatever the program does; so the node of `C61_disturbed_node_marked` never gets a value,
also after the `Ref` is dropped. -/
theorem C61_marked_for_ever {V0 G0 V G : Flags} {g0 g : Graph T} (h0 : HistB C V0 G0 g0) (h : StepsB C V0 G0 g0 V G g) {i : Nat} {o : OpInfo T}
    (ho : g0[i]? = some o) (hf : o.forwarded = true) : ∃ o', g[i]? = some o' ∧ o'.forwarded = true ∧ o'.vals = o.vals := by
  induction h with
  | refl => exact ⟨o, ho, hf, rfl⟩
  | holdValue _ _ ih => exact ih
  | dropValue _ _ ih => exact ih
  | holdGradient _ _ ih => exact ih
  | dropGradient _ _ ih => exact ih
  | create hs e ih =>
    obtain ⟨o', h1, h2⟩ := ih
    rw [createB_eq (hs.sound h0.sound).values] at e
    simp only [Graph.create, Res.bind_eq_ok, Res.ok.injEq] at e
    obtain ⟨_, _, ss, _, rfl⟩ := e
    exact ⟨o', by rw [List.getElem?_append_left (mem_lt h1)]; exact h1, h2⟩
  | forward _ _ hfw ih =>
    obtain ⟨o', h1, h2, h3⟩ := ih
    obtain ⟨b, ys, _, e, h4, _⟩ := hfw.step.same i o' h1
    exact ⟨_, e, (h4 h2).1, (h4 h2).2.trans h3⟩
  | backward hs _ hb ih =>
    obtain ⟨o', h1, h2, h3⟩ := ih
    have hso := hs.sound h0.sound
    obtain ⟨_, _, hsv, _⟩ := hb.same hso.values hso.gradients hso.wf
    obtain ⟨gr, sk, _, e⟩ := hsv.2 i o' h1
    exact ⟨_, e, h2, h3⟩
  | backwardPanic _ _ _ hsv ih =>
    obtain ⟨o', h1, h2, h3⟩ := ih
    obtain ⟨gr, sk, _, e⟩ := hsv.2 i o' h1
    exact ⟨_, e, h2, h3⟩

/-- C61: the differentiating part of `backward` is not disturbed by `Ref`s of values, nor by those of gradients that it does not touch: its executions are exactly
those without the `Ref`s, and all borrows are given back.  It touches the gradients of the root's results and of the arguments of all ancestors. -/
theorem C61_backward_undisturbed {V G : Flags} {g : Graph T} (h : HistB C V G g) {root : Nat} (hr : root < g.length)
    (h1 : ∀ o, g[root]? = some o → ∀ k < o.vals.length, G (root, k) = 0) (h2 : ∀ j a, Needs g root j → a ∈ g.argsOf j → G a = 0)
    {popped : List Nat} {r : Res (Flags × Flags × Graph T)} :
    BackwardOnlyB C V G g root popped r ↔ ∃ r0, BackwardOnly C g root popped r0 ∧ r = (r0 >>= fun g' => ok (V, G, g')) := by
  have key : ∀ {pushed : List Nat}, g.collect root = some pushed → g.PopsMax pushed popped →
      (do let g ← g.seedB C G root; foldR (bwOneB C) popped (V, G, g)) = ((do let g ← g.seed C root; foldR (bwOne C) popped g) >>= fun g' => ok (V, G, g')) := by
    intro pushed hc hp
    rw [seedB_free h.sound.wf h1, Res.bind_assoc]
    cases hs : g.seed C root with
    | panic => rfl
    | ub => rfl
    | ok g1 =>
      have hsv := (seed_spec hs).1.sameValues
      simp only [ok_bind]
      refine bwRunB_free popped h.sound.values h.sound.gradients (hsv.wf h.sound.wf) fun i hi a ha => h2 i a ?_ (by rw [hsv.argsOf] at ha; exact ha)
      exact ((popsMax_spec h.sound.wf hr hc hp).2.1 i).mp hi
  constructor
  · rintro ⟨pushed, hc, hp, e⟩
    rw [key hc hp] at e
    exact ⟨_, ⟨pushed, hc, hp, rfl⟩, e.symm⟩
  · rintro ⟨r0, ⟨pushed, hc, hp, rfl⟩, rfl⟩
    exact ⟨pushed, hc, hp, key hc hp⟩

/-- C61: and it never completes while a `Ref` of a gradient is kept that it touches. -/
theorem C61_backward_disturbed {V G V' G' : Flags} {g g' : Graph T} (h : HistB C V G g) {root : Nat} (hr : root < g.length) {popped : List Nat}
    (hb : BackwardOnlyB C V G g root popped (ok (V', G', g'))) :
    (∀ o, g[root]? = some o → ∀ k < o.vals.length, G (root, k) = 0) ∧ ∀ j a, Needs g root j → a ∈ g.argsOf j → G a = 0 := by
  obtain ⟨_, _, _, ⟨pushed, hc, hp, _⟩, h1, h2⟩ := hb.same h.sound.values h.sound.gradients h.sound.wf
  exact ⟨h1, fun j a hn ha => h2 j (((popsMax_spec h.sound.wf hr hc hp).2.1 j).mpr hn) a ha⟩

/-- C61: the histories of C30-C35 are those in which no `Ref` is kept: the graph's own borrows never collide. -/
theorem C61_no_refs {g : Graph T} {tr : List Nat} (h : Hist C g tr) : HistB C (fun _ => 0) (fun _ => 0) g := by
  have fwd : ∀ {g g' : Graph T} {tr : List Nat} {root : Nat} {r : Res Unit}, HistB C (fun _ => 0) (fun _ => 0) g → root < g.length → Forward g root g' tr r →
      HistB C (fun _ => 0) (fun _ => 0) g' := fun hh hr hf =>
    StepsB.forward hh hr ((C61_forward_undisturbed hh hr fun _ _ _ _ _ _ _ => rfl).mpr ⟨rfl, hf⟩)
  induction h with
  | empty => exact StepsB.refl
  | create _ hc ih => exact StepsB.create ih (by rw [C61_create ih]; exact hc)
  | forward _ hr hf ih => exact fwd ih hr hf
  | backward _ hr hf hb ih =>
    have h1 := fwd ih hr hf
    have hr1 := hf.step.len ▸ hr
    exact StepsB.backward h1 hr1 ((C61_backward_undisturbed h1 hr1 (fun _ _ _ _ => rfl) fun _ _ _ _ => rfl).mpr ⟨_, hb, rfl⟩)
  | backwardPanic _ hr hf hb hs ih =>
    have h1 := fwd ih hr hf
    have hr1 := hf.step.len ▸ hr
    exact StepsB.backwardPanic h1 hr1 ((C61_backward_undisturbed h1 hr1 (fun _ _ _ _ => rfl) fun _ _ _ _ => rfl).mpr ⟨_, hb, rfl⟩) hs

section
attribute [local instance] intFlt

/-- The program keeps a `Ref` of the value of operator 1. -/
def keep1 : Flags := fun a => if a = (1, 0) then 1 else 0

/-- The graph after the disturbed call. -/
def exG5b : Graph (Tensor ℤ) := (fwRunB [0, 1, 2] keep1 exG5).2.1

theorem keep1_hist : HistB (tensorLike .debug fun _ => 0) keep1 (fun _ => 0) exG5 := by
  refine StepsB.holdValue (a := (1, 0)) (C61_no_refs exG5_hist.1) ?_
  simp only [Flags.shared, Int.le_refl, if_true]
  congr 1

theorem exG5b_forward : ForwardB keep1 exG5 2 keep1 exG5b [0, 1] panic := by
  refine ⟨[2, 0, 1], [0, 1, 2], by decide +kernel, of_decide_eq_true (by decide +kernel), ?_⟩
  have h1 := fwRunB_calm [0, 1, 2] (V := keep1) keep1_hist.sound.values keep1_hist.sound.wf
  have h2 : (fwRunB [0, 1, 2] keep1 exG5).2.2 = ([0, 1], panic) := by decide +kernel
  exact Prod.ext h1 (Prod.ext rfl h2)

/-- C61, what a user would not expect: `v = y1.inner_value()` of a node `y1 = 5 * w` that was not evaluated; `y2.forward()` for `y2 = w + y1` panics; `v` is dropped;
then `y1.forward()` returns, but `y1` has no value, and `y2.forward()` panics. -/
theorem C61_kept_ref_ruins_node : ∃ (g g' : Graph (Tensor ℤ)), build .debug [] (exOps 5 7) = ok g ∧ HistB (tensorLike .debug fun _ => 0) keep1 (fun _ => 0) g ∧
    ForwardB keep1 g 2 keep1 g' [0, 1] panic ∧ HistB (tensorLike .debug fun _ => 0) (fun _ => 0) (fun _ => 0) g' ∧
    Forward g' 1 g' [] (ok ()) ∧ (g'.val (1, 0) >>= fun t => t.toVec .debug) = panic ∧ ∃ g'', Forward g' 2 g'' [2] panic := by
  refine ⟨exG5, exG5b, exG5_built, keep1_hist, exG5b_forward, ?_, ?_, by decide +kernel, _,
    Forward.mk' (pushed := [2, 0, 1]) (popped := [0, 1, 2]) (by decide +kernel) (by decide +kernel) (by decide +kernel)⟩
  · have h := StepsB.dropValue (a := (1, 0)) (StepsB.forward keep1_hist (by decide +kernel) exG5b_forward) (by decide)
    have e : keep1.dropRefs [(1, 0)] = fun _ => 0 := by
      funext b
      simp only [Flags.dropRefs, List.foldl_cons, List.foldl_nil, Flags.add, keep1]
      by_cases h : b = (1, 0) <;> simp [h]
    rw [e] at h
    exact h
  · have h : Forward exG5b 1 (fwd exG5b [0, 1]) [] (ok ()) := Forward.mk' (pushed := [1, 0]) (by decide +kernel) (by decide +kernel) (by decide +kernel)
    have e : fwd exG5b [0, 1] = exG5b := by
      have h0 : (exG5b[0]?.map fun o => o.forwarded) = some true := by decide +kernel
      have h1 : (exG5b[1]?.map fun o => o.forwarded) = some true := by decide +kernel
      have key : ∀ i, (exG5b[i]?.map fun o => o.forwarded) = some true → fwOne exG5b i = (exG5b, false, ok ()) := by
        intro i hi
        cases ho : exG5b[i]? with
        | none => rw [ho] at hi; cases hi
        | some o =>
          rw [ho] at hi
          have : o.forwarded = true := by simpa using hi
          simp [fwOne, ho, this]
      simp only [fwd, fwRun, key 0 h0, key 1 h1]
    rw [e] at h
    exact h

/-- The hypotheses of the theorems have instances: with the `Ref` of operator 1 kept, `forward` on operator 3 (`7 * w`) is undisturbed and on operator 2 disturbed. -/
example : (∀ V' g' tr r, ForwardB keep1 exG5 3 V' g' tr r ↔ V' = keep1 ∧ Forward exG5 3 g' tr r) ∧ (∀ V' g' tr r, ForwardB keep1 exG5 2 V' g' tr r → r = panic) := by
  have hl : exG5.length = 4 := by decide +kernel
  have hn : ∀ i, Needs exG5 3 i → i = 3 ∨ i = 0 := by
    intro i h
    rcases h with _ | ⟨ha, h⟩
    · exact .inl rfl
    · have e : exG5.argsOf 3 = [(0, 0)] := by decide +kernel
      rw [e] at ha
      obtain rfl := List.mem_singleton.mp ha
      have := h.le exG5_hist.1.inv.wf
      exact .inr (by simpa using this)
  refine ⟨fun V' g' tr r => C61_forward_undisturbed keep1_hist (by decide +kernel) fun i o hi ho _ k _ => ?_, fun V' g' tr r h => ?_⟩
  · rcases hn i hi with rfl | rfl <;> rfl
  · have ho : exG5[1]? = some (exG5[1]'(by decide +kernel)) := by simp
    refine (C61_disturbed_node_marked keep1_hist (root := 2) (i := 1) (k := 0) (by decide +kernel) (.arg (a := (1, 0)) (by decide +kernel) (.refl 1)) ho
      (by decide +kernel) (by decide +kernel) (by decide) h fun g1 tr1 r1 hf => ?_).1
    have hev : Evaluable exG5 2 := by
      by_contra hc
      exact C30_forward_fails exG5_hist.1 (root := 2) (by decide +kernel) exG5_forward hc (fun j _ h => by rw [exG5_fresh] at h; cases h) rfl
    exact (C30_forward_evaluates exG5_hist.1 (by decide +kernel) hev hf).1

/-- Likewise for `backward`: after `forward` on operator 2, with a `Ref` of the gradient of operator 3 (`7 * w`) kept, `backward` on operator 2 is undisturbed (and some
execution completes); with one of operator 1 it never completes. -/
example : ∃ (g : Graph (Tensor ℤ)) (G1 G3 : Flags), HistB (tensorLike .debug fun _ => 0) (fun _ => 0) G1 g ∧ HistB (tensorLike .debug fun _ => 0) (fun _ => 0) G3 g ∧
    (∃ popped g', BackwardOnlyB (tensorLike .debug fun _ => 0) (fun _ => 0) G3 g 2 popped (ok (fun _ => 0, G3, g')) ∧ sinkShows g' 0 = some (ok [6, 6])) ∧
    ∀ popped s, ¬ BackwardOnlyB (tensorLike .debug fun _ => 0) (fun _ => 0) G1 g 2 popped (ok s) := by
  have h0 : HistB (tensorLike .debug fun _ => 0) (fun _ => 0) (fun _ => 0) (fwd exG5 [0, 1, 2]) :=
    C61_no_refs (exG5_hist.1.forward (by decide +kernel) exG5_forward)
  have h1 := StepsB.holdGradient (a := (1, 0)) h0 rfl
  have h3 := StepsB.holdGradient (a := (3, 0)) h0 rfl
  have hn : ∀ j a, Needs (fwd exG5 [0, 1, 2]) 2 j → a ∈ (fwd exG5 [0, 1, 2]).argsOf j → a.1 < 2 := by
    intro j a hj ha
    have := hj.le h0.sound.wf
    have := h0.sound.wf.lt ha
    omega
  refine ⟨_, _, _, h1, h3, ⟨[2, 1, 0], gOf (bwd (fwd exG5 [0, 1, 2]) 2 [2, 1, 0]), ?_, by decide +kernel⟩, fun popped s hb => ?_⟩
  · refine (C61_backward_undisturbed h3 (by decide +kernel) (fun _ _ _ _ => rfl) fun j a hj ha => ?_).mpr
      ⟨_, ⟨[2, 0, 1], by decide +kernel, of_decide_eq_true (by decide +kernel), gOf_eq (r := bwd (fwd exG5 [0, 1, 2]) 2 [2, 1, 0]) (by decide +kernel)⟩, rfl⟩
    have := hn j a hj ha
    have hne : a ≠ (3, 0) := fun e => by rw [e] at this; omega
    simp only [Flags.add, hne, if_false]
  · obtain ⟨V', G', g'⟩ := s
    have := (C61_backward_disturbed h1 (by decide +kernel) hb).2 2 (1, 0) (.refl 2) (by decide +kernel)
    simp [Flags.add] at this

end

end Graph
end Verif
