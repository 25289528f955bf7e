import Verif.ReadLemmas
import Verif.NodeLemmas7
import Verif.GraphLater
import Verif.PropsGraph2

/-!
# Property C66: reading a node

`to_vec`, `to_float`, `argmax`, `argmin` and `argsort` of a node, in programs that make nodes with the functions of the library and call
`forward`, `backward` and these functions on them, in any order; panics may be caught.
-/

set_option linter.unusedSectionVars false
set_option linter.unusedSimpArgs false

namespace Verif
open Res
variable {α : Type} [Flt α]

/-- C35: what is in the results of an operator that was run is determined by the expression alone, for every operator (also those of a user's
own) and also when its `forward`, or that of an ancestor, panicked: two programs that start with the same graph and run the operator find the
same in its results, whatever else they did, in whatever order. -/
theorem Graph.C35_results_determined {T : Type} {C : TensorLike T} {g0 g g2 : Graph T} {tr : List Nat} (h0 : Graph.Hist C g0 tr)
    (h : Graph.Later C g0 g) (h2 : Graph.Later C g0 g2) {i : Nat} (hi : i < g0.length) {o o2 : OpInfo T} (ho : g[i]? = some o) (ho2 : g2[i]? = some o2)
    (hf : o.forwarded = true) (hf2 : o2.forwarded = true) : o.vals = o2.vals := by
  obtain ⟨_, ht⟩ := h.hist h0
  obtain ⟨_, ht2⟩ := h2.hist h0
  rw [ht.settled i o ho hf, ht2.settled i o2 ho2 hf2, ← (h.sameOps h0).2.fin hi, ← (h2.sameOps h0).2.fin hi]

section
attribute [local instance] intFlt
open Graph

/-- `C35_results_determined` has instances: one program runs `w + 5 * w` (operator 2), the other first runs operator 1, then 2. -/
example : ∃ (g g2 : Graph (Tensor ℤ)) (o o2 : OpInfo (Tensor ℤ)), Hist (tensorLike .debug fun _ => 0) exG5 [] ∧
    Later (tensorLike .debug fun _ => 0) exG5 g ∧ Later (tensorLike .debug fun _ => 0) exG5 g2 ∧ 2 < exG5.length ∧
    g[2]? = some o ∧ g2[2]? = some o2 ∧ o.forwarded = true ∧ o2.forwarded = true ∧ o.vals.map (Tensor.toVec .debug) = [ok [12, 18]] := by
  have h1 : Forward exG5 1 (fwd exG5 [0, 1]) [0, 1] (ok ()) :=
    Forward.mk' (pushed := [1, 0]) (by decide +kernel) (by decide +kernel) (by decide +kernel)
  have h2 : Forward (fwd exG5 [0, 1]) 2 (fwd (fwd exG5 [0, 1]) [0, 1, 2]) [2] (ok ()) :=
    Forward.mk' (pushed := [2, 0, 1]) (by decide +kernel) (by decide +kernel) (by decide +kernel)
  exact ⟨_, _, (fwd exG5 [0, 1, 2])[2]'(by decide +kernel), (fwd (fwd exG5 [0, 1]) [0, 1, 2])[2]'(by decide +kernel), exG5_hist.1,
    .forward .refl (by decide +kernel) exG5_forward, .forward (.forward .refl (by decide +kernel) h1) (by decide +kernel) h2, by decide +kernel,
    by simp, by simp, by decide +kernel, by decide +kernel, by decide +kernel⟩
end

namespace NF

theorem Read.safe {rd : Read} (hs : rd.Std) (d : Nat) {t : Tensor α} (ht : t.Fine) : (rd.tensor d t).Safe := by
  cases rd with
  | toVec => exact Res.Safe.bind t.dev_safe fun _ _ => Res.Safe.bind (Tensor.toVec_safe ht) fun _ _ => safe_ok _
  | toFloat => exact Res.Safe.bind t.dev_safe fun _ _ => Res.Safe.bind (Dev.tensorToFloat_safe ht) fun _ _ => safe_ok _
  | argmax dim => exact Res.Safe.bind (Dev.argmax_safe ht dim) fun _ _ => safe_ok _
  | argmin dim => exact Res.Safe.bind (Dev.argmin_safe ht dim) fun _ _ => safe_ok _
  | argsort srt dim => exact Res.Safe.bind (Dev.argsort_safe hs ht dim) fun _ _ => safe_ok _

/-- A tensor without memory cannot be read. -/
theorem Read.null {rd : Read} (hs : rd.Std) (d : Nat) {t : Tensor α} (ht : t.Fine) (hb : t.buf = none) : rd.tensor d t = panic := by
  have hsafe := Read.safe hs d ht
  refine ne_ok_of_safe hsafe fun v hv => ?_
  have hp : ∀ px, t.ptr ≠ ok px := by intro px h; rw [ptr_none hb] at h; cases h
  have hp' : ∀ {B : Type} {k : List α → Res B} {b : B}, (t.ptr >>= k) ≠ ok b := by
    intro B k b h
    rw [Res.bind_eq_ok] at h
    obtain ⟨px, h, _⟩ := h
    exact hp px h
  cases rd with
  | toVec =>
    simp only [Read.tensor, Tensor.toVec, Dev.tensorToVector, K.tensorToVector, ix_cons_zero, ok_bind, Res.bind_eq_ok] at hv
    obtain ⟨_, _, _, h, _⟩ := hv
    repeat (first | exact hp _ (by assumption) | obtain ⟨_, _, h⟩ := h)
  | toFloat =>
    simp only [Read.tensor, Dev.tensorToFloat, K.tensorToVector, ix_cons_zero, ok_bind, Res.bind_eq_ok] at hv
    obtain ⟨_, _, _, ⟨_, _, _, _, _, ⟨_, _, _, h, _⟩, _⟩, _⟩ := hv
    exact hp _ h
  | argmax dim | argmin dim =>
    simp only [Read.tensor, Dev.argmax, Dev.argmin, K.argext, ix_cons_zero, ok_bind, Res.bind_eq_ok] at hv
    obtain ⟨_, ⟨_, _, _, _, _, _, _, _, _, _, _, _, _, h, _⟩, _⟩ := hv
    exact hp _ h
  | argsort srt dim =>
    simp only [Read.tensor, Dev.argsort, K.argsort, ix_cons_zero, ok_bind, Res.bind_eq_ok] at hv
    obtain ⟨_, ⟨_, _, _, _, _, _, _, _, _, _, _, _, _, h, _⟩, _⟩ := hv
    exact hp _ h

/-- C66: a function that reads a node returns what it would return for the value of the node's expression, computed by itself: whatever
was evaluated before, in whatever order, and also when an evaluation has panicked and the panic was caught.  When the expression has no
value (its evaluation panics), or its value cannot be read, it panics, every time.  Condition: no tensor without values was moved into a node
(false without this condition: `C66_owned_node_shows_stale_memory`). -/
theorem C66_read_is_value {g g' : Graph (Tensor α)} (h : Prog.Steps NodeCall.OwnsValues [] g) {rd : Read} (hs : rd.Std) {n : Node} {r : Res (ReadVal α)}
    (hr : Reads rd g n g' r) : r = (do
      let t ← NF.value g n
      rd.tensor n.dev t) := by
  have hp : Prog g := h.prog .start
  obtain ⟨tr, rf, hf, rfl⟩ := hr
  simp only [Read.node_eq]
  by_cases hn : n.op < g.length
  · obtain ⟨tr0, hinv⟩ := hp.kept.inv
    obtain ⟨hinv', popped, _, hpop, _, hran, hev, _⟩ := Graph.forward_spec hinv hn hf
    obtain ⟨popped', _, hmem, hdone⟩ : ∃ l : List Nat, True ∧ n.op ∈ l ∧ (rf = ok () → ∀ j ∈ l, ∃ o : OpInfo (Tensor α), g'[j]? = some o ∧ o.forwarded = true) :=
      ⟨popped, trivial, (hpop n.op).mpr (.refl _), hran.done⟩
    have hset := (Prog.forward hp hf).settled
    have hfin : Graph.fin g' n.op = Graph.fin g n.op := ((hran.same g.length).fin hn).symm
    have hval : rf = ok () → g'.val n.id = Graph.at' (Graph.fin g n.op) n.vid := by
      intro e
      obtain ⟨o, ho, hfo⟩ := hdone e n.op hmem
      rw [← hfin]
      exact hset.val ho hfo n.vid
    rcases Graph.fin_or_init h n.op g[n.op] (List.getElem?_eq_getElem hn) with hd | ⟨hd, hi⟩
    · have hok := hev (Graph.den_evaluable hinv.wf hd)
      rw [hval hok, hok]
      simp only [NF.value, hd, ok_bind]
    · simp only [NF.value, hd]
      show _ = Res.panic
      cases hrf : rf with
      | panic => rfl
      | ub => exact absurd hrf (C54_forward_safe hp hf)
      | ok u =>
        cases u
        rw [hval hrf, hi, ok_bind]
        cases ha : Graph.at' g[n.op].init n.vid with
        | panic => rfl
        | ub => exact absurd ha (at_safe _ _)
        | ok t =>
          obtain ⟨ops, D, hg⟩ := hp.fine
          obtain ⟨op, outs, _, _, hof⟩ := hg.at' n.op g[n.op] (List.getElem?_eq_getElem hn)
          have hm := List.mem_of_getElem? (Graph.at'_eq_ok.mp ha)
          have hb : t.buf = none := by
            obtain ⟨ss, e⟩ := hp.kept.init n.op g[n.op] (List.getElem?_eq_getElem hn)
            obtain ⟨d, m, ho⟩ := hof.oper
            rw [ho] at e
            rw [e] at hm
            obtain ⟨s, _, rfl⟩ := List.mem_map.mp hm
            rfl
          exact Read.null hs n.dev (hof.init.2 t hm) hb
  · obtain ⟨_, _, rfl⟩ := Graph.forward_out (by omega) hf
    have : NF.value g n = Res.panic := by
      unfold NF.value
      rw [Graph.den, List.getElem?_eq_none (by omega)]
      rfl
    rw [this]
    rfl

/-- C66: reading a node of the graph comes to an end, with a result or a panic; no memory outside of the tensors is accessed; and the program
can go on. -/
theorem C66_read_returns {g : Graph (Tensor α)} (h : Prog.Steps NodeCall.OwnsValues [] g) {rd : Read} (hs : rd.Std) {n : Node} (hn : n.op < g.length) :
    (∃ g' r, Reads rd g n g' r) ∧ ∀ g' r, Reads rd g n g' r → r.Safe ∧ Prog.Steps NodeCall.OwnsValues [] g' := by
  have hp : Prog g := h.prog .start
  obtain ⟨tr0, hinv⟩ := hp.kept.inv
  obtain ⟨g', tr, rf, hf⟩ := Graph.forward_exists hinv.wf hn
  refine ⟨⟨g', _, tr, rf, hf, rfl⟩, fun g' r hr => ?_⟩
  obtain ⟨tr, rf, hf, rfl⟩ := hr
  refine ⟨?_, h.forward hf⟩
  refine Res.Safe.bind (C54_forward_safe hp hf) fun _ _ => Res.Safe.bind (Graph.val_safe _ _) fun t ht => ?_
  obtain ⟨ops, D, hg⟩ := (Prog.forward hp hf).fine
  exact Read.safe hs _ (hg.val ht).1

/-- C66: a node shows the same in every read: nothing that the program does between two reads changes what is read; neither the creation of
further nodes, nor `forward`, `backward` and reads on any nodes, with or without panics. -/
theorem C66_read_stable {g g2 g1' g2' : Graph (Tensor α)} (h : Prog.Steps NodeCall.OwnsValues [] g) {rd : Read} (hs : rd.Std) {n : Node}
    (hn : n.op < g.length) {r r2 : Res (ReadVal α)} (hr : Reads rd g n g1' r) (hl : Prog.Steps NodeCall.OwnsValues g g2) (hr2 : Reads rd g2 n g2' r2) :
    r2 = r := by
  have h2 : Prog.Steps NodeCall.OwnsValues [] g2 := by
    clear hr2
    induction hl with
    | refl => exact h
    | call _ hc hP e ih => exact .call ih hc hP e
    | forward _ hf ih => exact .forward ih hf
    | backward _ hone hb ih => exact .backward ih hone hb
    | backwardPanic _ hf hb hd ih => exact .backwardPanic ih hf hb hd
  rw [C66_read_is_value h hs hr, C66_read_is_value h2 hs hr2]
  have : NF.value g2 n = NF.value g n := by
    unfold NF.value
    rw [(hl.sameOps (h.prog .start)).2.den hn]
  rw [this]

/-- C66: `shape` of a node, which does not evaluate it, is the shape of the value that a read will find. -/
theorem C66_shape {g : Graph (Tensor α)} (h : Prog.Steps NodeCall.OwnsValues [] g) {n : Node} {t : Tensor α} (ht : NF.value g n = ok t) :
    NF.shape g n = ok t.shape := by
  have hp : Prog g := h.prog .start
  obtain ⟨tr0, hinv⟩ := hp.kept.inv
  obtain ⟨ops, D, hg⟩ := hp.fine
  simp only [NF.value, Res.bind_eq_ok] at ht
  obtain ⟨ys, hd, ht⟩ := ht
  cases ho : g[n.op]? with
  | none => rw [Graph.den, ho] at hd; cases hd
  | some o =>
    obtain ⟨op, outs, _, hD, hof⟩ := hg.at' n.op o ho
    have h1 := (Graph.fin_fits hg n.op outs hD).1
    rw [Graph.fin_of_den hinv.wf hd] at h1
    have h2 := hof.vals.1
    have : (o.vals.map Tensor.shape)[n.vid]? = some t.shape := by
      rw [h2, ← h1, List.getElem?_map, Graph.at'_eq_ok.mp ht]; rfl
    rw [List.getElem?_map] at this
    cases hv : o.vals[n.vid]? with
    | none => rw [hv] at this; cases this
    | some v =>
      rw [hv] at this
      have hv' : g.val n.id = ok v := Graph.val_eq_ok.mpr ⟨o, ho, hv⟩
      simp only [NF.shape, hv', ok_bind]
      simpa using this

/-- C66 is false without its condition: for every shape that fits into the memory, a node made of a tensor that was never allocated panics at
the first read; the second read returns what the memory of the pool contained before. -/
theorem C66_owned_node_shows_stale_memory (d : Nat) {s : Shape} (hs : s.Reachable) (hsz : s.size ≤ 2 ^ 31) (m : Mem α) :
    ∃ (g g' g'' : Graph (Tensor α)), (NodeCall.ofOwned (Tensor.new d s)).run m [] = ok (g, [⟨0, 0, d⟩]) ∧ Prog g ∧
      Reads .toVec g ⟨0, 0, d⟩ g' Res.panic ∧ Reads .toVec g' ⟨0, 0, d⟩ g'' (ok (.vec ((List.range s.size).map (m 0)))) := by
  obtain ⟨g, g', t, h1, h2, h3, ⟨g'', h4⟩, h5, h6, h8, h7⟩ := Graph.C35_owned_node_shows_stale_memory d hs hsz m
  obtain ⟨_, _, rfl⟩ := h5 _ _ _ h4
  refine ⟨g, g'', g'', h1, h2, ⟨_, _, h3, rfl⟩, ⟨_, _, h4, ?_⟩⟩
  have h6 : g''.val (NF.Node.id ⟨0, 0, d⟩) = ok t := h6
  simp only [h6, ok_bind, Read.node, Tensor.dev, unwrap, h8, h7]

attribute [local instance] intFlt

theorem Prog.Steps.runs : ∀ {l : List (NodeCall ℤ)} {g0 g : Graph (Tensor ℤ)}, Prog.Steps NodeCall.OwnsValues g0 g → (∀ c ∈ l, c.Typed ∧ c.OwnsValues) →
    runsOk g l = true → Prog.Steps NodeCall.OwnsValues g0 (Verif.runs g l) := by
  intro l
  induction l with
  | nil => intro g0 g h _ _; exact h
  | cons c l ih =>
    intro g0 g h ht hr
    simp only [runsOk, Bool.and_eq_true] at hr
    exact ih (.call h (ht c (by simp)).1 (ht c (by simp)).2 (gOf2_eq hr.1)) (fun c hc => ht c (by simp [hc])) hr.2

/-- The program of the example of C54, and a node made of an owned tensor with values. -/
def exG66 : Graph (Tensor ℤ) := runs [] (exCalls ++ [.ofOwned (Graph.vec2 8 9)])

theorem exG66_steps : Prog.Steps NodeCall.OwnsValues [] exG66 := by
  refine Prog.Steps.runs .refl (fun c hc => ?_) (by decide +kernel)
  simp only [exCalls, List.cons_append, List.nil_append, List.mem_cons, List.not_mem_nil, or_false] at hc
  rcases hc with rfl | rfl | rfl | rfl | rfl | rfl | rfl
  · exact ⟨⟨vec2_obtainable _ _, vec2_obtainable _ _, rfl⟩, fun t h => by cases h⟩
  · exact ⟨vec2_obtainable _ _, fun t h => by cases h⟩
  · exact ⟨trivial, fun t h => by cases h⟩
  · exact ⟨trivial, fun t h => by cases h⟩
  · exact ⟨trivial, fun t h => by cases h⟩
  · exact ⟨vecShape_reachable rfl, fun t h => by cases h⟩
  · exact ⟨vec2_obtainable _ _, fun t h => by cases h; rfl⟩

/-- C66 has instances: node 4, `(w * x)[0] + (w * x)[1]`, has the value 31; node 5, a `reshape` of `w * x` to a wrong size, panics at the first
and at the second read, after which `w * x` can be read, and its `argmax`. -/
example : ∃ g1 g2 g3 g4 g5 g6 : Graph (Tensor ℤ), Prog.Steps NodeCall.OwnsValues [] exG66 ∧ 5 < exG66.length ∧
    Reads .toFloat exG66 ⟨4, 0, 0⟩ g1 (ok (.float 31)) ∧ Reads .toVec exG66 ⟨5, 0, 0⟩ g2 Res.panic ∧ Reads .toVec g2 ⟨5, 0, 0⟩ g3 Res.panic ∧
    Reads .toVec g3 ⟨2, 0, 0⟩ g4 (ok (.vec [10, 21])) ∧ Reads (.argmax 0) g4 ⟨2, 0, 0⟩ g5 (ok (.ids [1])) ∧
    Reads .toVec g5 ⟨6, 0, 0⟩ g6 (ok (.vec [8, 9])) := by
  have h1 : Graph.Forward exG66 4 (Graph.fwd exG66 [0, 1, 2, 3, 4]) [0, 1, 2, 3, 4] (ok ()) :=
    Graph.Forward.mk' (pushed := [4, 3, 2, 0, 1]) (by decide +kernel) (by decide +kernel) (by decide +kernel)
  have h2 : Graph.Forward exG66 5 (Graph.fwd exG66 [0, 1, 2, 5]) [0, 1, 2, 5] Res.panic :=
    Graph.Forward.mk' (pushed := [5, 2, 0, 1]) (by decide +kernel) (by decide +kernel) (by decide +kernel)
  have h3 : Graph.Forward (Graph.fwd exG66 [0, 1, 2, 5]) 5 (Graph.fwd (Graph.fwd exG66 [0, 1, 2, 5]) [0, 1, 2, 5]) [] (ok ()) :=
    Graph.Forward.mk' (pushed := [5, 2, 0, 1]) (by decide +kernel) (by decide +kernel) (by decide +kernel)
  have h4 : Graph.Forward (Graph.fwd (Graph.fwd exG66 [0, 1, 2, 5]) [0, 1, 2, 5]) 2 (Graph.fwd (Graph.fwd (Graph.fwd exG66 [0, 1, 2, 5]) [0, 1, 2, 5]) [0, 1, 2]) [] (ok ()) :=
    Graph.Forward.mk' (pushed := [2, 0, 1]) (by decide +kernel) (by decide +kernel) (by decide +kernel)
  have h5 : Graph.Forward (Graph.fwd (Graph.fwd (Graph.fwd exG66 [0, 1, 2, 5]) [0, 1, 2, 5]) [0, 1, 2]) 2 (Graph.fwd (Graph.fwd (Graph.fwd (Graph.fwd exG66 [0, 1, 2, 5]) [0, 1, 2, 5]) [0, 1, 2]) [0, 1, 2]) [] (ok ()) :=
    Graph.Forward.mk' (pushed := [2, 0, 1]) (by decide +kernel) (by decide +kernel) (by decide +kernel)
  have h6 : Graph.Forward (Graph.fwd (Graph.fwd (Graph.fwd (Graph.fwd exG66 [0, 1, 2, 5]) [0, 1, 2, 5]) [0, 1, 2]) [0, 1, 2]) 6 (Graph.fwd (Graph.fwd (Graph.fwd (Graph.fwd (Graph.fwd exG66 [0, 1, 2, 5]) [0, 1, 2, 5]) [0, 1, 2]) [0, 1, 2]) [6]) [6] (ok ()) :=
    Graph.Forward.mk' (pushed := [6]) (by decide +kernel) (by decide +kernel) (by decide +kernel)
  exact ⟨_, _, _, _, _, _, exG66_steps, by decide +kernel, ⟨_, _, h1, by decide +kernel⟩, ⟨_, _, h2, by decide +kernel⟩, ⟨_, _, h3, by decide +kernel⟩,
    ⟨_, _, h4, by decide +kernel⟩, ⟨_, _, h5, by decide +kernel⟩, ⟨_, _, h6, by decide +kernel⟩⟩

end NF

end Verif
