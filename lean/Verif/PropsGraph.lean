import Verif.GraphBw

/-!
# Properties of the computation graph (C30-C35), for every tensor type and all operators

Specification: `Verif.GraphSpec` (`Needs`, `den`, `Evaluable`, `Hist`, `Accumulated`).
-/

namespace Verif
open Res
namespace Graph
variable {T : Type} {C : TensorLike T}

/-- Whether an operator has been run. -/
def isForwarded (g : Graph T) (i : Nat) : Bool :=
  match g[i]? with
  | some o => o.forwarded
  | none => false

/-! ## C30 -/

/-- C30: after any history (panics caught or not), `forward` on any node of the graph terminates, whatever the order in which
operators of equal depth leave the heap. -/
theorem C30_forward_total {g : Graph T} {tr : List Nat} (h : Hist C g tr) {root : Nat} (hr : root < g.length) :
    ∃ g' tr' r, Forward g root g' tr' r := forward_exists h.inv.wf hr

/-- C30: when every ancestor can be evaluated, every execution of `forward` succeeds; afterwards every ancestor's values are its
recursive evaluation, and nothing else in the graph has changed. -/
theorem C30_forward_evaluates {g : Graph T} {tr : List Nat} (h : Hist C g tr) {root : Nat} (hr : root < g.length)
    (hev : Evaluable g root) {g' : Graph T} {tr' : List Nat} {r : Res Unit} (hf : Forward g root g' tr' r) :
    r = ok () ∧ g'.length = g.length ∧
      (∀ (j : Nat) (o : OpInfo T), Needs g root j → g[j]? = some o →
        ∃ ys, den g j = ok ys ∧ g'[j]? = some { o with forwarded := true, vals := ys }) ∧
      (∀ j, ¬ Needs g root j → g'[j]? = g[j]?) := by
  obtain ⟨hinv, popped, hnd, hmem, hord, hran, hok, _⟩ := forward_spec h.inv hr hf
  have hr' := hok hev
  refine ⟨hr', hran.len, ?_, ?_⟩
  · intro j o hj ho
    obtain ⟨ys, hy⟩ := hev j hj
    refine ⟨ys, hy, ?_⟩
    obtain ⟨o', ho', hf'⟩ := hran.done hr' j ((hmem j).mpr hj)
    have hjl := mem_lt ho
    have hden : den g' j = ok o'.vals := by
      apply hinv.value j o' ho' hf'
      refine ((hran.same g.length).evaluable_iff h.inv.wf hinv.wf hjl).mp ?_
      intro k hk
      exact hev k (hj.trans hk)
    rw [← (hran.same g.length).den hjl, hy] at hden
    have hvals := Res.ok.inj hden
    by_cases hm : j ∈ tr'
    · obtain ⟨_, zs, _, e⟩ := hran.run j o hm ho
      rw [e] at ho'
      obtain rfl := Option.some.inj ho'
      simp only at hvals
      rw [e, hvals]
    · rw [hran.frame j hm, ho] at ho' ⊢
      obtain rfl := Option.some.inj ho'
      rw [hvals, ← hf']
  · intro j hj
    apply hran.frame
    intro hm
    exact hj ((hmem j).mp (hran.sub.subset hm))

/-- C30: the operators that a successful `forward` runs are exactly the ancestors that had not been run before, each once, and every
argument of an operator was run before it (in this call or earlier). -/
theorem C30_forward_runs {g : Graph T} {tr : List Nat} (h : Hist C g tr) {root : Nat} (hr : root < g.length) {g' : Graph T}
    {tr' : List Nat} (hf : Forward g root g' tr' (ok ())) :
    tr'.Nodup ∧ (∀ j, j ∈ tr' ↔ Needs g root j ∧ isForwarded g j = false) ∧
      ∀ l1 i l2, tr' = l1 ++ i :: l2 → ∀ a ∈ g.argsOf i, a.1 ∈ l1 ∨ isForwarded g a.1 = true := by
  obtain ⟨hinv, popped, hnd, hmem, hord, hran, hok, _⟩ := forward_spec h.inv hr hf
  have hiff : ∀ j, j ∈ tr' ↔ Needs g root j ∧ isForwarded g j = false := by
    intro j
    constructor
    · intro hj
      have hn := (hmem j).mp (hran.sub.subset hj)
      have hjl : j < g.length := by have := hn.le h.inv.wf; omega
      obtain ⟨o, ho⟩ : ∃ o, g[j]? = some o := ⟨g[j], by simp [hjl]⟩
      exact ⟨hn, by simp [isForwarded, ho, (hran.run j o hj ho).1]⟩
    · rintro ⟨hn, hf0⟩
      by_contra hj
      obtain ⟨o', ho', hf'⟩ := hran.done rfl j ((hmem j).mpr hn)
      rw [hran.frame j hj] at ho'
      simp [isForwarded, ho', hf'] at hf0
  refine ⟨hnd.sublist hran.sub, hiff, ?_⟩
  intro l1 i l2 e a ha
  by_cases hfa : isForwarded g a.1 = true
  · exact Or.inr hfa
  · left
    have hi : Needs g root i := ((hiff i).mp (by rw [e]; simp)).1
    have ha' : a.1 ∈ tr' := (hiff a.1).mpr ⟨hi.snoc ha, by simpa using hfa⟩
    have hpw := hord.sublist hran.sub
    have hd := h.inv.wf.depth ha
    rw [e] at ha' hpw
    rcases List.mem_append.mp ha' with h1 | h1
    · exact h1
    · exfalso
      rcases List.mem_cons.mp h1 with h1 | h1
      · have := h.inv.wf.lt ha; omega
      · have := (List.pairwise_cons.mp (List.pairwise_append.mp hpw).2.1).1 _ h1
        omega

/-- C30: over the whole life of a graph, whatever is created, evaluated and differentiated, and even when operators panic, no operator's
`forward` is run twice; those that have been run are exactly those marked. -/
theorem C30_at_most_once {g : Graph T} {tr : List Nat} (h : Hist C g tr) :
    tr.Nodup ∧ ∀ i, i ∈ tr ↔ isForwarded g i = true := by
  refine ⟨h.inv.trace.1, fun i => ?_⟩
  rw [h.inv.trace.2 i]
  constructor
  · rintro ⟨o, ho, hf⟩; simp [isForwarded, ho, hf]
  · intro hf
    cases ho : g[i]? with
    | none => simp [isForwarded, ho] at hf
    | some o => exact ⟨o, rfl, by simpa [isForwarded, ho] using hf⟩

/-- C30: `forward` succeeds only if every ancestor can be evaluated (unless an ancestor that cannot has been tried before, see C35). -/
theorem C30_forward_fails {g : Graph T} {tr : List Nat} (h : Hist C g tr) {root : Nat} (hr : root < g.length) {g' : Graph T}
    {tr' : List Nat} {r : Res Unit} (hf : Forward g root g' tr' r) (hn : ¬ Evaluable g root)
    (hold : ∀ j, Needs g root j → isForwarded g j = true → Evaluable g j) : r ≠ ok () := by
  obtain ⟨_, _, _, _, _, _, _, hfail⟩ := forward_spec h.inv hr hf
  intro hr'
  refine hn (hfail hr' ?_)
  intro j o hj ho hfo
  exact hold j hj (by simp [isForwarded, ho, hfo])

/-! ## C31 -/

/-- C31: creating a node runs no operator and changes nothing in the graph; the new operator has not been run and has fresh results. -/
theorem C31_create_runs_nothing {g g' : Graph T} {op : Oper T} {sink : Option T} {args : List (Nat × Nat)}
    (hc : create C g op sink args = ok g') :
    (∀ i, i < g.length → g'[i]? = g[i]?) ∧ g'.length = g.length + 1 ∧ isForwarded g' g.length = false ∧
      (∃ xs ss, mapR g.val args = ok xs ∧ op.shapes (xs.map C.shape) = ok ss ∧
        ∃ o, g'[g.length]? = some o ∧ o.args = args ∧ o.init = ss.map op.null ∧ o.vals = ss.map op.null ∧ o.grads = ss.map op.null) ∧
      (∀ tr, Hist C g tr → Hist C g' tr) := by
  have hc' := hc
  simp only [create, Res.bind_eq_ok, Res.ok.injEq] at hc
  obtain ⟨xs, hxs, ss, hss, rfl⟩ := hc
  refine ⟨fun i hi => List.getElem?_append_left hi, by simp, by simp [isForwarded], ?_, fun tr h => .create h hc'⟩
  exact ⟨xs, ss, hxs, hss, _, by simp; rfl, rfl, rfl, rfl, rfl⟩

/-- C31: after a successful `forward` on a node, `forward` on that node or on any of its ancestors runs nothing and changes nothing. -/
theorem C31_forward_idempotent {g : Graph T} {tr : List Nat} (h : Hist C g tr) {root : Nat} (hr : root < g.length) {g' : Graph T}
    {tr' : List Nat} (hf : Forward g root g' tr' (ok ())) {j : Nat} (hj : Needs g root j) {g'' : Graph T} {tr'' : List Nat}
    {r : Res Unit} (hf2 : Forward g' j g'' tr'' r) : r = ok () ∧ tr'' = [] ∧ g'' = g' := by
  have hran := forward_spec h.inv hr hf
  obtain ⟨hinv, popped, hnd, hmem, hord, hran, hok, _⟩ := hran
  have hjl : j < g'.length := by rw [hran.len]; have := hj.le h.inv.wf; omega
  have key : ∀ (l : List Nat) (g : Graph T), (∀ i ∈ l, isForwarded g i = true) → fwRun l g = (g, [], ok ()) := by
    intro l
    induction l with
    | nil => intro g _; rfl
    | cons i l ih =>
      intro g hl
      have hi := hl i (by simp)
      have e1 : fwOne g i = (g, false, ok ()) := by
        unfold fwOne
        cases ho : g[i]? with
        | none => simp [isForwarded, ho] at hi
        | some o => simp [isForwarded, ho] at hi; simp [hi]
      simp [fwRun, e1, ih g (fun k hk => hl k (by simp [hk]))]
  obtain ⟨pushed, popped2, hc, hp, hrun⟩ := hf2
  obtain ⟨_, hmem2, _⟩ := popsMin_spec hinv.wf hjl hc hp
  have hall : ∀ i ∈ popped2, isForwarded g' i = true := by
    intro i hi
    have hn := (hmem2 i).mp hi
    have hn' : Needs g j i := ((hran.same g.length).needs_iff h.inv.wf hinv.wf (by rw [← hran.len]; exact hjl)).mpr hn
    obtain ⟨o, ho, hfo⟩ := hran.done rfl i ((hmem i).mpr (hj.trans hn'))
    simp [isForwarded, ho, hfo]
  rw [key popped2 g' hall] at hrun
  simp only [Prod.mk.injEq] at hrun
  exact ⟨hrun.2.2.symm, hrun.2.1.symm, hrun.1.symm⟩

/-! ## C32 -/

/-- C32: a completed `backward` (after its `forward`) runs the `backward` of exactly the ancestors, each once, users before arguments, for
every order of operators of equal depth, and leaves in the graph what `Accumulated` says: the root's results seeded with ones, and
for every node the contributions of all its uses, computed from the users' final gradients, added one after the other to what was
there before (zeros when nothing was there). -/
theorem C32_backward_accumulates {g : Graph T} {tr : List Nat} (h : Hist C g tr) {root : Nat} (hr : root < g.length) {g' : Graph T}
    {tr' order : List Nat} (hb : Backward C g root tr' order (ok g')) :
    ∃ g1, Forward g root g1 tr' (ok ()) ∧ order.Nodup ∧ (∀ j, j ∈ order ↔ Needs g root j) ∧
      (∀ l1 i l2, order = l1 ++ i :: l2 → ∀ a ∈ g.argsOf i, a.1 ∈ l2) ∧ Accumulated C g1 root order g' := by
  obtain ⟨g1, r1, hf, hb⟩ := hb
  rcases hb with ⟨rfl, hb⟩ | ⟨rfl, hb, _⟩ | ⟨rfl, hb, _⟩
  · obtain ⟨hinv, popped, _, _, _, hran, _⟩ := forward_spec h.inv hr hf
    obtain ⟨h1, h2, h3, h4⟩ := backward_spec hinv.wf (by rw [hran.len]; exact hr) hb
    refine ⟨g1, hf, h1, ?_, ?_, h4⟩
    · intro j
      rw [h2 j]
      exact ((hran.same g.length).needs_iff h.inv.wf hinv.wf hr).symm
    · intro l1 i l2 e a ha
      have hi : Needs g root i := ((hran.same g.length).needs_iff h.inv.wf hinv.wf hr).mpr ((h2 i).mp (by rw [e]; simp))
      have hil : i < g.length := by have := hi.le h.inv.wf; omega
      exact h3 l1 i l2 e a (by rw [← (hran.same g.length).argsOf hil]; exact ha)
  · cases hb
  · cases hb

/-- C32: whether `backward` panics or not, its execution exists (the search terminates, an order exists). -/
theorem C32_backward_total {g : Graph T} {tr : List Nat} (h : Hist C g tr) {root : Nat} (hr : root < g.length) :
    ∃ tr' order r, Backward C g root tr' order r := by
  obtain ⟨g1, tr', r1, hf⟩ := forward_exists h.inv.wf hr
  obtain ⟨hinv, popped, _, _, _, hran, _⟩ := forward_spec h.inv hr hf
  cases r1 with
  | ok u =>
    obtain ⟨pushed, hc, _⟩ := collect_spec hinv.wf (root := root) (by rw [hran.len]; exact hr)
    obtain ⟨popped, hp⟩ := popsMax_exists g1 pushed
    exact ⟨tr', popped, _, g1, ok (), hf, Or.inl ⟨rfl, pushed, hc, hp, rfl⟩⟩
  | panic => exact ⟨tr', [], panic, g1, panic, hf, Or.inr (Or.inl ⟨rfl, rfl, rfl⟩)⟩
  | ub => exact ⟨tr', [], ub, g1, ub, hf, Or.inr (Or.inr ⟨rfl, rfl, rfl⟩)⟩

/-! ## C33 -/

/-- C33: `backward` on a node one of whose operator's results already has a gradient never completes, when seeding an allocated
gradient fails (`alloc` asserts that the tensor is not allocated; for the tensors of the library: `C33_seed_panics`). -/
theorem C33_seeded_root_never_completes {g : Graph T} {tr : List Nat} (h : Hist C g tr) {root : Nat} (hr : root < g.length)
    (hones : ∀ t, C.valid t = true → ∀ t', C.ones t ≠ ok t') {v : Nat} {t : T} (ht : g.grad (root, v) = ok t) (hv : C.valid t = true)
    {tr' order : List Nat} {g' : Graph T} : ¬ Backward C g root tr' order (ok g') := by
  intro hb
  obtain ⟨g1, hf, _, _, _, hacc⟩ := C32_backward_accumulates h hr hb
  obtain ⟨_, popped, _, _, _, hran, _⟩ := forward_spec h.inv hr hf
  have ht1 : g1.grad (root, v) = ok t := by
    obtain ⟨o, ho, hg⟩ := grad_eq_ok.mp ht
    by_cases hm : root ∈ tr'
    · obtain ⟨_, ys, _, e⟩ := hran.run root o hm ho
      exact grad_eq_ok.mpr ⟨_, e, hg⟩
    · exact grad_eq_ok.mpr ⟨o, by simp only; rw [hran.frame root hm]; exact ho, hg⟩
  obtain ⟨t0, _, e, _⟩ := hacc.grads (root, v) t ht1
  simp only [if_true] at e
  exact hones t hv t0 e

/-- C33: what a parameter receives from two calls of `backward` on different nodes that both need it: after the first call, the gradient
`g1` of its node is added; the second call starts from that gradient, so that `g2` includes `g1`, and adds `g2` as a whole. -/
theorem C33_second_root {g : Graph T} {tr : List Nat} (h : Hist C g tr) {r1 r2 : Nat} (hr1 : r1 < g.length) (hr2 : r2 < g.length)
    {ga gb : Graph T} {ta tb oa ob : List Nat} (h1 : Backward C g r1 ta oa (ok ga)) (h2 : Backward C ga r2 tb ob (ok gb))
    {i : Nat} (n1 : Needs g r1 i) (n2 : Needs g r2 i) (hi : i ≠ r2) {s : T} (hs : g.sinkOf i = some s) :
    ∃ g1 s1 g2 s2, ga.grad (i, 0) = ok g1 ∧ C.addTo s g1 = ok s1 ∧ gb.grad (i, 0) = ok g2 ∧ C.addTo s1 g2 = ok s2 ∧
      gb.sinkOf i = some s2 ∧
      ∃ gm, Forward ga r2 gm tb (ok ()) ∧ foldR (fun t j => receive C gm (gb.gradsOf j) (i, 0) t j) ob g1 = ok g2 := by
  obtain ⟨f1, hf1, _, m1, _, acc1⟩ := C32_backward_accumulates h hr1 h1
  obtain ⟨hinv1, _, _, _, _, hran1, _⟩ := forward_spec h.inv hr1 hf1
  have hinva : Inv ga (tr ++ ta) := acc1.same.inv hinv1
  have hlen : ga.length = g.length := by rw [← acc1.same.1, hran1.len]
  have hh : Hist C ga (tr ++ ta) := by
    obtain ⟨g1, r, hf, hb⟩ := h1
    rcases hb with ⟨rfl, hb⟩ | ⟨rfl, hb, _⟩ | ⟨rfl, hb, _⟩
    · exact .backward h hr1 hf hb
    · cases hb
    · cases hb
  obtain ⟨f2, hf2, _, m2, _, acc2⟩ := C32_backward_accumulates hh (by rw [hlen]; exact hr2) h2
  obtain ⟨hinv2, _, _, _, _, hran2, _⟩ := forward_spec hinva (by rw [hlen]; exact hr2) hf2
  have hfs : ∀ {g g' : Graph T} {l tr : List Nat} {r : Res Unit}, Ran g g' l tr r → ∀ i, g'.sinkOf i = g.sinkOf i := by
    intro g g' l tr r hr i
    by_cases hm : i ∈ tr
    · cases ho : g[i]? with
      | none =>
        have : g'[i]? = none := by rw [List.getElem?_eq_none_iff] at ho ⊢; rw [hr.len]; exact ho
        simp [sinkOf, ho, this]
      | some o =>
        obtain ⟨_, ys, _, e⟩ := hr.run i o hm ho
        simp [sinkOf, ho, e]
    · simp [sinkOf, hr.frame i hm]
  have hfg : ∀ {g g' : Graph T} {l tr : List Nat} {r : Res Unit}, Ran g g' l tr r → ∀ a t, g.grad a = ok t → g'.grad a = ok t := by
    intro g g' l tr r hr a t ht
    obtain ⟨o, ho, hg⟩ := grad_eq_ok.mp ht
    by_cases hm : a.1 ∈ tr
    · obtain ⟨_, ys, _, e⟩ := hr.run a.1 o hm ho
      exact grad_eq_ok.mpr ⟨_, e, hg⟩
    · exact grad_eq_ok.mpr ⟨o, by rw [hr.frame _ hm]; exact ho, hg⟩
  have hzero : ∀ {g : Graph T} {i : Nat} {t : T}, (g.gradsOf i)[0]? = some t → g.grad (i, 0) = ok t := by
    intro g i t ht
    cases ho : g[i]? with
    | none => simp [gradsOf, ho] at ht
    | some o => exact grad_eq_ok.mpr ⟨o, ho, by simpa [gradsOf, ho] using ht⟩
  obtain ⟨g1, s1, hg1, hs1, hsk1⟩ := acc1.sinks_add i s ((m1 i).mpr n1) (by rw [hfs hran1]; exact hs)
  have hsame : SameOps g.length g ga := (hran1.same _).trans (acc1.same.same _)
  have n2' : Needs ga r2 i := hsame.needs h.inv.wf hr2 n2
  obtain ⟨g2, s2, hg2, hs2, hsk2⟩ := acc2.sinks_add i s1 ((m2 i).mpr n2') (by rw [hfs hran2]; exact hsk1)
  have e1 := hzero hg1
  have e2 := hzero hg2
  refine ⟨g1, s1, g2, s2, e1, hs1, e2, hs2, hsk2, f2, hf2, ?_⟩
  obtain ⟨t0, t', ht0, ht', hfold⟩ := acc2.grads (i, 0) g1 (hfg hran2 _ _ e1)
  rw [if_neg hi] at ht0
  obtain rfl := Res.ok.inj ht0
  rw [e2] at ht'
  obtain rfl := Res.ok.inj ht'
  exact hfold

/-! ## C34 -/

/-- C34: `backward` from one result of an operator seeds *all* its results with ones: whatever result the node stands for, each gradient
of the operator ends as ones (followed by nothing, as an operator is never its own ancestor). -/
theorem C34_all_results_seeded {g : Graph T} {tr : List Nat} (h : Hist C g tr) {root : Nat} (hr : root < g.length) {g' : Graph T}
    {tr' order : List Nat} (hb : Backward C g root tr' order (ok g')) {v : Nat} {t : T} (ht : g.grad (root, v) = ok t) :
    ∃ t', g'.grad (root, v) = ok t' ∧ C.ones t = ok t' := by
  obtain ⟨g1, hf, hnd, hmem, hord, hacc⟩ := C32_backward_accumulates h hr hb
  obtain ⟨hinv, popped, _, _, _, hran, _⟩ := forward_spec h.inv hr hf
  have ht1 : g1.grad (root, v) = ok t := by
    obtain ⟨o, ho, hg⟩ := grad_eq_ok.mp ht
    by_cases hm : root ∈ tr'
    · obtain ⟨_, ys, _, e⟩ := hran.run root o hm ho
      exact grad_eq_ok.mpr ⟨_, e, hg⟩
    · exact grad_eq_ok.mpr ⟨o, by simp only; rw [hran.frame root hm]; exact ho, hg⟩
  obtain ⟨t0, t', e, ht', hfold⟩ := hacc.grads (root, v) t ht1
  simp only [if_true] at e
  refine ⟨t', ht', ?_⟩
  have hno : ∀ j ∈ order, (root, v) ∉ g1.argsOf j := by
    intro j hj hv
    have hn := (hmem j).mp hj
    have h1 := hn.le h.inv.wf
    have h2 := hinv.wf.lt hv
    simp at h2; omega
  have hf : ∀ (l : List Nat), (∀ j ∈ l, (root, v) ∉ g1.argsOf j) →
      foldR (fun t i => receive C g1 (g'.gradsOf i) (root, v) t i) l t0 = ok t0 := by
    intro l
    induction l with
    | nil => intro _; rfl
    | cons i l ih =>
      intro hl
      simp only [foldR]
      rw [receive_not_arg (hl i (by simp))]
      exact ih (fun k hk => hl k (by simp [hk]))
  rw [hf order hno] at hfold
  rw [e, Res.ok.inj hfold]

/-- C34: a result of an ancestor that is used by no ancestor of the root never gets a gradient: it still has the one it had before. -/
theorem C34_unused_result_untouched {g : Graph T} {tr : List Nat} (h : Hist C g tr) {root : Nat} (hr : root < g.length) {g' : Graph T}
    {tr' order : List Nat} (hb : Backward C g root tr' order (ok g')) {a : Nat × Nat} (ha : a.1 ≠ root)
    (hu : ∀ j, Needs g root j → a ∉ g.argsOf j) {t : T} (ht : g.grad a = ok t) : g'.grad a = ok t := by
  obtain ⟨g1, hf, hnd, hmem, hord, hacc⟩ := C32_backward_accumulates h hr hb
  obtain ⟨hinv, popped, _, _, _, hran, _⟩ := forward_spec h.inv hr hf
  have ht1 : g1.grad a = ok t := by
    obtain ⟨o, ho, hg⟩ := grad_eq_ok.mp ht
    by_cases hm : a.1 ∈ tr'
    · obtain ⟨_, ys, _, e⟩ := hran.run a.1 o hm ho
      exact grad_eq_ok.mpr ⟨_, e, hg⟩
    · exact grad_eq_ok.mpr ⟨o, by rw [hran.frame _ hm]; exact ho, hg⟩
  obtain ⟨t0, t', e, ht', hfold⟩ := hacc.grads a t ht1
  rw [if_neg ha] at e
  obtain rfl := Res.ok.inj e
  have hno : ∀ j ∈ order, a ∉ g1.argsOf j := by
    intro j hj hv
    have hn := (hmem j).mp hj
    have hjl : j < g.length := by have := hn.le h.inv.wf; omega
    rw [← (hran.same g.length).argsOf hjl] at hv
    exact hu j hn hv
  have hf : ∀ (l : List Nat), (∀ j ∈ l, a ∉ g1.argsOf j) →
      foldR (fun t i => receive C g1 (g'.gradsOf i) a t i) l t = ok t := by
    intro l
    induction l with
    | nil => intro _; rfl
    | cons i l ih =>
      intro hl
      simp only [foldR]
      rw [receive_not_arg (hl i (by simp))]
      exact ih (fun k hk => hl k (by simp [hk]))
  rw [hf order hno] at hfold
  rw [ht', Res.ok.inj hfold]

/-! ## C35 -/

theorem panicking_marked {g : Graph T} {tr : List Nat} (h : Inv g tr) {root : Nat} (hr : root < g.length) {g' : Graph T}
    {tr' : List Nat} {r : Res Unit} (hf : Forward g root g' tr' r) {l : List Nat} {i : Nat} (hl : tr' = l ++ [i]) (hp : r ≠ ok ()) :
    ∃ o xs, g'[i]? = some o ∧ o.forwarded = true ∧ mapR g'.val o.args = ok xs ∧ (∀ ys, o.oper.fw xs o.init ≠ ok ys) ∧
        o.vals = o.oper.left xs o.init := by
  obtain ⟨pushed, popped, hc, hpp, hrun⟩ := hf
  obtain ⟨hnd, hmem, hord⟩ := popsMin_spec h.wf hr hc hpp
  have key : ∀ (q : List Nat) (g : Graph T) (tr : List Nat), Inv g tr → q.Nodup →
      (∀ i ∈ q, i < g.length) → (∀ l1 i l2, q = l1 ++ i :: l2 → ∀ a ∈ g.argsOf i, a.1 ∈ l1 ∨
        ∃ o' : OpInfo T, g[a.1]? = some o' ∧ o'.forwarded = true) →
      ∀ l i, fwRun q g = (g', l ++ [i], r) → ∃ o xs, g'[i]? = some o ∧ o.forwarded = true ∧ mapR g'.val o.args = ok xs ∧ (∀ ys, o.oper.fw xs o.init ≠ ok ys) ∧
        o.vals = o.oper.left xs o.init := by
    intro q
    induction q with
    | nil => intro g tr _ _ _ _ l i hrun; simp [fwRun] at hrun
    | cons k q ih =>
      intro g tr hinv hq hql hqo l i hrun
      have hargs : ∀ a ∈ g.argsOf k, ∃ o' : OpInfo T, g[a.1]? = some o' ∧ o'.forwarded = true := by
        intro a ha
        rcases hqo [] k q rfl a ha with h' | h'
        · simp at h'
        · exact h'
      obtain ⟨g1, b, r1, e1, hinv1, hran1, hself1, hden1, hold1⟩ := fwOne_spec hinv (hql k (by simp)) hargs
      by_cases hr1 : r1 = ok ()
      · subst hr1
        have hcont : ∀ l', fwRun q g1 = (g', l', r) → ∀ l i, l' = l ++ [i] → ∃ o xs, g'[i]? = some o ∧ o.forwarded = true ∧ mapR g'.val o.args = ok xs ∧ (∀ ys, o.oper.fw xs o.init ≠ ok ys) ∧
        o.vals = o.oper.left xs o.init := by
          intro l' hl' l i e
          subst e
          refine ih g1 _ hinv1 (List.nodup_cons.mp hq).2 (fun i hi => by rw [hran1.len]; exact hql i (by simp [hi])) ?_ l i hl'
          intro l1 j l2 e a ha
          have hjl := hql j (by rw [e]; simp)
          rw [← (hran1.same g.length).argsOf hjl] at ha
          rcases hqo (k :: l1) j l2 (by rw [e]; rfl) a ha with h' | h'
          · rcases List.mem_cons.mp h' with h' | h'
            · right; rw [h']; exact hself1
            · exact Or.inl h'
          · right
            obtain ⟨o2, h2, hf2⟩ := h'
            by_cases hk : a.1 ∈ (if b then [k] else [])
            · have := (hran1.run a.1 o2 hk h2).1
              rw [hf2] at this; cases this
            · exact ⟨o2, by rw [hran1.frame _ hk]; exact h2, hf2⟩
        cases h2 : fwRun q g1 with
        | mk g2 rest =>
          obtain ⟨tr2, r2⟩ := rest
          simp only [fwRun, e1, h2, Prod.mk.injEq] at hrun
          obtain ⟨rfl, htr, rfl⟩ := hrun
          cases b with
          | false => simp at htr; exact hcont tr2 h2 l i htr
          | true =>
            simp at htr
            cases l with
            | nil =>
              simp at htr
              obtain ⟨rfl, rfl⟩ := htr
              exfalso
              -- nothing was run after `k`, so nothing panicked
              have : r2 = ok () := by
                have hne : ∀ (q : List Nat) (g g2 : Graph T) (r2 : Res Unit), (∀ i ∈ q, i < g.length) → fwRun q g = (g2, [], r2) → r2 = ok () := by
                  intro q
                  induction q with
                  | nil => intro g g2 r2 _ hh; simp [fwRun] at hh; exact hh.2.symm
                  | cons c q ihq =>
                    intro g g2 r2 hlq hh
                    obtain ⟨o, ho⟩ : ∃ o, g[c]? = some o := ⟨g[c]'(hlq c (by simp)), by simp [hlq c (by simp)]⟩
                    by_cases hfo : o.forwarded = true
                    · have e : fwOne g c = (g, false, ok ()) := by simp [fwOne, ho, hfo]
                      cases h3 : fwRun q g with
                      | mk g3 rest =>
                        obtain ⟨tr3, r3⟩ := rest
                        simp [fwRun, e, h3] at hh
                        obtain ⟨rfl, rfl, rfl⟩ := hh
                        exact ihq g g3 r3 (fun i hi => hlq i (by simp [hi])) h3
                    · exfalso
                      cases hx : (do let xs ← mapR g.val o.args; o.oper.fw xs o.vals) with
                      | ok ys =>
                        have e : fwOne g c = (g.set c { o with forwarded := true, vals := ys }, true, ok ()) := by simp [fwOne, ho, hfo, hx]
                        cases h3 : fwRun q (g.set c { o with forwarded := true, vals := ys }) with
                        | mk g3 rest =>
                          obtain ⟨tr3, r3⟩ := rest
                          simp [fwRun, e, h3] at hh
                      | panic =>
                        have e : fwOne g c = (g.set c { o with forwarded := true, vals := g.leftOf o }, true, panic) := by simp [fwOne, ho, hfo, hx]
                        simp [fwRun, e] at hh
                      | ub =>
                        have e : fwOne g c = (g.set c { o with forwarded := true, vals := g.leftOf o }, true, ub) := by simp [fwOne, ho, hfo, hx]
                        simp [fwRun, e] at hh
                exact hne q g1 g2 r2 (fun i hi => by rw [hran1.len]; exact hql i (by simp [hi])) h2
              exact hp this
            | cons c l =>
              simp at htr
              exact hcont tr2 h2 l i htr.2
      · have hfr : fwRun (k :: q) g = (g1, if b then [k] else [], r1) := by
          cases r1 with
          | ok u => exact absurd rfl hr1
          | panic => simp [fwRun, e1]
          | ub => simp [fwRun, e1]
        rw [hfr] at hrun
        simp only [Prod.mk.injEq] at hrun
        obtain ⟨rfl, htr, rfl⟩ := hrun
        cases b with
        | false => simp at htr
        | true =>
          have hki : l = [] ∧ k = i := by
            cases l with
            | nil => simpa using htr
            | cons c l => simp at htr
          obtain ⟨rfl, rfl⟩ := hki
          obtain ⟨o, ho⟩ : ∃ o, g[k]? = some o := ⟨g[k]'(hql k (by simp)), by simp [hql k (by simp)]⟩
          have hfo := (hran1.run k o (by simp) ho).1
          have hlt := hql k (by simp)
          obtain ⟨xs, hxs⟩ := hinv.wf.vals_ok ho
          have hfail : (∀ ys, (do let xs ← mapR g.val o.args; o.oper.fw xs o.vals) ≠ ok ys) := by
            intro ys hx
            have e : fwOne g k = (g.set k { o with forwarded := true, vals := ys }, true, ok ()) := by simp [fwOne, ho, hfo, hx]
            rw [e1] at e; simp at e; exact absurd e.2 hr1
          have hleft : ∃ o' xs, (g.set k { o with forwarded := true, vals := g.leftOf o })[k]? = some o' ∧ o'.forwarded = true ∧
              mapR (Graph.val (g.set k { o with forwarded := true, vals := g.leftOf o })) o'.args = ok xs ∧
              (∀ ys, o'.oper.fw xs o'.init ≠ ok ys) ∧ o'.vals = o'.oper.left xs o'.init := by
            refine ⟨{ o with forwarded := true, vals := g.leftOf o }, xs, by simp [hlt], rfl, ?_, ?_, ?_⟩
            · rw [← hxs]
              refine mapR_congr fun a ha => ?_
              have hak := (hinv.wf.args k o ho a ha).1
              simp only [Graph.val, at']
              rw [List.getElem?_set_ne (by omega)]
            · intro ys hy
              refine hfail ys ?_
              rw [hxs]
              show o.oper.fw xs o.vals = _
              rw [hinv.fresh k o ho hfo]
              exact hy
            · show g.leftOf o = _
              rw [leftOf, hxs]
              show o.oper.left xs o.vals = _
              rw [hinv.fresh k o ho hfo]
          cases hx : (do let xs ← mapR g.val o.args; o.oper.fw xs o.vals) with
          | ok ys =>
            have e : fwOne g k = (g.set k { o with forwarded := true, vals := ys }, true, ok ()) := by simp [fwOne, ho, hfo, hx]
            rw [e1] at e; simp at e; exact absurd e.2 hr1
          | panic =>
            have e : fwOne g k = (g.set k { o with forwarded := true, vals := g.leftOf o }, true, panic) := by simp [fwOne, ho, hfo, hx]
            rw [e1] at e; simp at e
            rw [e.1]
            exact hleft
          | ub =>
            have e : fwOne g k = (g.set k { o with forwarded := true, vals := g.leftOf o }, true, ub) := by simp [fwOne, ho, hfo, hx]
            rw [e1] at e; simp at e
            rw [e.1]
            exact hleft
  rw [hl] at hrun
  refine key popped g tr h hnd ?_ (fun l1 i l2 e a ha => Or.inl (hord l1 i l2 e a ha)) l i hrun
  intro i hi
  have := ((hmem i).mp hi).le h.wf; omega

/-- C35: when an operator panics in `forward`, it stays marked as run and its results are what its `forward` left in them (as created, unless the
operator writes before it panics). -/
theorem C35_panicking_operator_marked {g : Graph T} {tr : List Nat} (h : Hist C g tr) {root : Nat} (hr : root < g.length) {g' : Graph T}
    {tr' : List Nat} {r : Res Unit} (hf : Forward g root g' tr' r) {l : List Nat} {i : Nat} (hl : tr' = l ++ [i]) (hp : r ≠ ok ()) :
    ∃ o xs, g'[i]? = some o ∧ o.forwarded = true ∧ mapR g'.val o.args = ok xs ∧ (∀ ys, o.oper.fw xs o.init ≠ ok ys) ∧
        o.vals = o.oper.left xs o.init :=
  panicking_marked h.inv hr hf hl hp

/-- C35: and nothing ever changes its results again: `forward` on any node leaves an operator that is marked as run as it is. -/
theorem C35_marked_operator_frozen {g : Graph T} {tr : List Nat} (h : Hist C g tr) {root : Nat} (hr : root < g.length) {g' : Graph T}
    {tr' : List Nat} {r : Res Unit} (hf : Forward g root g' tr' r) {i : Nat} {o : OpInfo T} (ho : g[i]? = some o)
    (hfo : o.forwarded = true) : i ∉ tr' ∧ g'[i]? = some o := by
  obtain ⟨_, _, _, _, _, hran, _⟩ := forward_spec h.inv hr hf
  have : i ∉ tr' := by
    intro hm
    have := (hran.run i o hm ho).1
    rw [hfo] at this; cases this
  exact ⟨this, by rw [hran.frame i this]; exact ho⟩

end Graph
end Verif
