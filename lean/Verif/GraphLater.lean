import Verif.PropsGraph

/-!
# Later states of a graph, and what a completed `backward` implies about every operator it ran
-/

namespace Verif
open Res

namespace Graph
variable {T : Type} {C : TensorLike T}

/-- `g` is the graph after some further calls, starting from `g0` (the same calls as in `Hist`). -/
inductive Later (C : TensorLike T) (g0 : Graph T) : Graph T → Prop
  | refl : Later C g0 g0
  | create {g g' : Graph T} {op : Oper T} {sink : Option T} {args : List (Nat × Nat)} :
      Later C g0 g → create C g op sink args = ok g' → Later C g0 g'
  | forward {g g' : Graph T} {tr' : List Nat} {root : Nat} {r : Res Unit} :
      Later C g0 g → root < g.length → Forward g root g' tr' r → Later C g0 g'
  | backward {g g1 g' : Graph T} {tr' popped : List Nat} {root : Nat} :
      Later C g0 g → root < g.length → Forward g root g1 tr' (ok ()) → BackwardOnly C g1 root popped (ok g') → Later C g0 g'
  | backwardPanic {g g1 g' : Graph T} {tr' popped : List Nat} {root : Nat} :
      Later C g0 g → root < g.length → Forward g root g1 tr' (ok ()) → BackwardOnly C g1 root popped panic → SameValues g1 g' →
      Later C g0 g'

theorem Later.hist {g0 g : Graph T} (h : Later C g0 g) {tr : List Nat} (h0 : Hist C g0 tr) : ∃ tr', Hist C g tr' := by
  induction h with
  | refl => exact ⟨tr, h0⟩
  | create _ hc ih => obtain ⟨t, ht⟩ := ih; exact ⟨_, ht.create hc⟩
  | forward _ hr hf ih => obtain ⟨t, ht⟩ := ih; exact ⟨_, ht.forward hr hf⟩
  | backward _ hr hf hb ih => obtain ⟨t, ht⟩ := ih; exact ⟨_, ht.backward hr hf hb⟩
  | backwardPanic _ hr hf hb hs ih => obtain ⟨t, ht⟩ := ih; exact ⟨_, ht.backwardPanic hr hf hb hs⟩

theorem SameOps.mono {n m : Nat} {g g' : Graph T} (h : SameOps n g g') (hm : m ≤ n) : SameOps m g g' := fun i hi => h i (by omega)

/-- Operators are never removed or changed. -/
theorem Later.sameOps {g0 g : Graph T} (h : Later C g0 g) {tr : List Nat} (h0 : Hist C g0 tr) :
    g0.length ≤ g.length ∧ SameOps g0.length g0 g := by
  induction h with
  | refl => exact ⟨Nat.le_refl _, SameOps.refl _ _⟩
  | create _ hc ih =>
    simp only [Graph.create, Res.bind_eq_ok, Res.ok.injEq] at hc
    obtain ⟨_, _, _, _, rfl⟩ := hc
    refine ⟨by simp; omega, ih.2.trans fun i hi => ?_⟩
    rw [List.getElem?_append_left (by omega)]
  | forward hl hr hf ih =>
    obtain ⟨_, ht⟩ := hl.hist h0
    obtain ⟨_, _, _, _, _, hran, _⟩ := forward_spec ht.inv hr hf
    exact ⟨by rw [hran.len]; exact ih.1, ih.2.trans (hran.same _)⟩
  | backward hl hr hf hb ih =>
    obtain ⟨_, ht⟩ := hl.hist h0
    obtain ⟨hinv, _, _, _, _, hran, _⟩ := forward_spec ht.inv hr hf
    obtain ⟨_, _, _, h4⟩ := backward_spec hinv.wf (by rw [hran.len]; exact hr) hb
    exact ⟨by rw [← h4.same.1, hran.len]; exact ih.1, (ih.2.trans (hran.same _)).trans (h4.same.same _)⟩
  | backwardPanic hl hr hf hb hs ih =>
    obtain ⟨_, ht⟩ := hl.hist h0
    obtain ⟨_, _, _, _, _, hran, _⟩ := forward_spec ht.inv hr hf
    exact ⟨by rw [← hs.1, hran.len]; exact ih.1, (ih.2.trans (hran.same _)).trans (hs.same _)⟩

theorem foldR_member {A S : Type} {f : S → A → Res S} (P : S → Prop) (hP : ∀ s a s', P s → f s a = ok s' → P s') {l : List A} {s s' : S}
    (hs : P s) (h : foldR f l s = ok s') {a : A} (ha : a ∈ l) : ∃ s1 s2, P s1 ∧ f s1 a = ok s2 := by
  induction l generalizing s with
  | nil => simp at ha
  | cons b l ih =>
    simp only [foldR, Res.bind_eq_ok] at h
    obtain ⟨s1, h1, h2⟩ := h
    rcases List.mem_cons.mp ha with rfl | hm
    · exact ⟨s, s1, hs, h1⟩
    · exact ih (hP _ _ _ hs h1) h2 hm

/-- When `backward` completes, every update that the `backward` of an ancestor of the root makes has succeeded on some gradient; `gm` is
the graph after `forward`. -/
theorem backward_update_ok {g : Graph T} {tr : List Nat} (h : Hist C g tr) {root : Nat} (hr : root < g.length) {g' : Graph T}
    {tr' order : List Nat} (hb : Backward C g root tr' order (ok g')) {i : Nat} (hn : Needs g root i) {o : OpInfo T} (ho : g[i]? = some o) :
    ∃ (gm : Graph T) (om : OpInfo T) (xs gys : List T) (ss : List Shape), Forward g root gm tr' (ok ()) ∧ gm[i]? = some om ∧
      om.oper = o.oper ∧ om.args = o.args ∧ mapR gm.val o.args = ok xs ∧ mapR (shapeOf C gm) o.args = ok ss ∧
      ∀ u ∈ o.oper.bw xs om.vals gys ss, ∃ t t', u.2 t = ok t' := by
  obtain ⟨_, _, _, hmem, _⟩ := C32_backward_accumulates h hr hb
  have hi : i ∈ order := (hmem i).mpr hn
  obtain ⟨gm, r, hf, hb⟩ := hb
  rcases hb with ⟨rfl, pushed, _, _, hb⟩ | ⟨_, hb, _⟩ | ⟨_, hb, _⟩
  · obtain ⟨hinv, popped, _, _, _, hran, _⟩ := forward_spec h.inv hr hf
    obtain ⟨om, hom, hst⟩ := (hran.same g.length).some (mem_lt ho) ho
    simp only [Res.bind_eq_ok] at hb
    obtain ⟨gs, hs, hfold⟩ := hb
    obtain ⟨g1, g2, hP, hbw⟩ := foldR_member (SameValues gm) (fun s a s' hs' hst => hs'.trans (bwOne_spec hst).1)
      (seed_spec hs).1.sameValues hfold hi
    simp only [bwOne, Res.bind_eq_ok, at'_eq_ok] at hbw
    obtain ⟨o1, ho1, xs, hxs, ss, hss, g3, _, g4, h4, _⟩ := hbw
    obtain ⟨gr, sk, _, e1⟩ := hP.2 i om hom
    rw [ho1] at e1
    obtain rfl := Option.some.inj e1
    simp only at hxs hss h4
    have hargs : om.args = o.args := by simp_all [stat]
    have hoper : om.oper = o.oper := by simp_all [stat]
    refine ⟨gm, om, xs, gr, ss, hf, hom, hoper, hargs, ?_, ?_, ?_⟩
    · rw [← hargs, ← hxs]; exact mapR_congr fun a _ => (hP.val a).symm
    · rw [← hargs, ← hss]; exact mapR_congr fun a _ => (hP.shapeOf C a).symm
    · intro u hu
      rw [← hoper] at hu
      obtain ⟨s1, s2, _, hu⟩ := foldR_member (fun _ => True) (fun _ _ _ _ _ => trivial) trivial h4 hu
      simp only [update, Res.bind_eq_ok] at hu
      obtain ⟨a, _, t, _, t', ht', _⟩ := hu
      exact ⟨t, t', ht'⟩
  · cases hb
  · cases hb

end Graph
end Verif
