import Verif.NodeSpec

/-! # Lemmas for C38: from evaluation to `forward` -/

set_option linter.unusedSectionVars false

namespace Verif
open Res
variable {α : Type} [Flt α]

namespace NF
variable {p : Profile} {m0 : Nat → α} {g : Graph (Tensor α)}

theorem Ready.nodeVal (h : Ready p m0 g) {x : Node} (hx : IsNode p g x) {t : Tensor α} (hc : Computes g x t) : NodeVal g x t := by
  obtain ⟨tr, hh⟩ := h.hist
  obtain ⟨hl, _, ⟨g', tr', r, hf⟩, hall⟩ := hc
  obtain ⟨rfl, hv⟩ := hall g' tr' r hf
  refine nodeVal_of hh hx ?_
  obtain ⟨_, _, _, _, _, _, _, hfail⟩ := Graph.forward_spec hh.inv hl hf
  have hev : Graph.Evaluable g x.op := hfail rfl (fun j o _ ho hfo => by
    obtain ⟨ys, hy⟩ := h.healthy j o ho hfo
    exact Graph.den_evaluable hh.inv.wf hy)
  obtain ⟨o, ho⟩ : ∃ o, g[x.op]? = some o := ⟨g[x.op], by simp [hl]⟩
  obtain ⟨_, _, h2, _⟩ := Graph.C30_forward_evaluates hh hl hev hf
  obtain ⟨zs, hz, e⟩ := h2 x.op o (.refl _) ho
  obtain ⟨o2, ho2, hv2⟩ := Graph.val_eq_ok.mp hv
  have : o2 = { o with forwarded := true, vals := zs } := Option.some.inj (ho2.symm.trans e)
  subst this
  simp only [value, hz, Res.ok_bind]
  exact Graph.at'_eq_ok.mpr hv2

/-- Without a panic before, a successful `forward` gives the evaluation of the expression. -/
theorem Ready.value (h : Ready p m0 g) {x : Node} (hl : x.op < g.length) {g' : Graph (Tensor α)} {tr : List Nat} {y : Tensor α}
    (hf : Graph.Forward g x.op g' tr (ok ())) (hv : g'.val x.id = ok y) : value g x = ok y := by
  obtain ⟨tr0, hh⟩ := h.hist
  obtain ⟨_, _, _, _, _, _, _, hfail⟩ := Graph.forward_spec hh.inv hl hf
  have hev : Graph.Evaluable g x.op := hfail rfl (fun j o _ ho hfo => by
    obtain ⟨ys, hy⟩ := h.healthy j o ho hfo
    exact Graph.den_evaluable hh.inv.wf hy)
  obtain ⟨o, ho⟩ : ∃ o, g[x.op]? = some o := ⟨g[x.op], by simp [hl]⟩
  obtain ⟨_, _, h2, _⟩ := Graph.C30_forward_evaluates hh hl hev hf
  obtain ⟨zs, hz, e⟩ := h2 x.op o (.refl _) ho
  obtain ⟨o2, ho2, hv2⟩ := Graph.val_eq_ok.mp hv
  have : o2 = { o with forwarded := true, vals := zs } := Option.some.inj (ho2.symm.trans e)
  subst this
  simp only [NF.value, hz, Res.ok_bind]
  exact Graph.at'_eq_ok.mpr hv2

theorem Ready.computes (h : Ready p m0 g) {x : Node} {t : Tensor α} (hv : NodeVal g x t) : Computes g x t := by
  obtain ⟨tr, hh⟩ := h.hist
  exact ⟨hv.lt, hv.shape, Graph.C30_forward_total hh hv.lt, fun g' tr' r hf => value_forward hh hv.lt hv.val hf⟩

/-- A new operator does not change the old ones. -/
theorem Ready.grow (h : Ready p m0 g) {o : OpInfo (Tensor α)} (hf : o.forwarded = false) (hh : ∃ tr, Graph.Hist (tensorLike p m0) (g ++ [o]) tr) :
    Ready p m0 (g ++ [o]) := by
  refine ⟨hh, fun i o' ho hfo => ?_⟩
  by_cases hi : i < g.length
  · have hs : Graph.SameOps g.length g (g ++ [o]) := fun i hi => by rw [List.getElem?_append_left hi]
    rw [List.getElem?_append_left hi] at ho
    obtain ⟨ys, hy⟩ := h.healthy i o' ho hfo
    exact ⟨ys, by rw [← hs.den hi]; exact hy⟩
  · have hlt := Graph.mem_lt ho
    have : i = g.length := by simp at hlt; omega
    subst this
    simp at ho
    subst ho
    rw [hf] at hfo; cases hfo

theorem create_spec {m : Mem α} {g' : Graph (Tensor α)} {d : Nat} {op : NodeOp α} {sink : Option (Tensor α)} {xs ns : List Node}
    (h : create p m g d op sink xs = ok (g', ns)) : ∃ (o : OpInfo (Tensor α)) (ss : List Shape), g' = g ++ [o] ∧
      ns = (List.range ss.length).map (fun i => ⟨g.length, i, d⟩) ∧
      o.oper = op.oper p d m ∧ o.args = xs.map Node.id ∧ o.init = ss.map (Tensor.new d) ∧ o.vals = o.init ∧ o.grads = o.init ∧ o.sink = sink ∧ o.forwarded = false := by
  simp only [create, Graph.create, Res.bind_eq_ok, Res.ok.injEq] at h
  obtain ⟨_, ⟨t0s, _, ss, hss, rfl⟩, o, ho, h⟩ := h
  simp [Graph.at'] at ho
  subst ho
  simp only [Prod.mk.injEq] at h
  obtain ⟨rfl, rfl⟩ := h
  exact ⟨_, ss, rfl, by simp, rfl, rfl, rfl, rfl, rfl, rfl, rfl⟩

theorem create_ready {m : Mem α} {g' : Graph (Tensor α)} {d : Nat} {op : NodeOp α} {sink : Option (Tensor α)} {xs ns : List Node}
    (h : create p m g d op sink xs = ok (g', ns)) (hr : Ready p m0 g) : Ready p m0 g' := by
  obtain ⟨o, ss, rfl, _, _, _, _, _, _, _, hf⟩ := create_spec h
  refine hr.grow hf ?_
  obtain ⟨tr, hh⟩ := hr.hist
  simp only [create, Res.bind_eq_ok, Res.ok.injEq] at h
  obtain ⟨g1, hc, _, _, h⟩ := h
  simp only [Prod.mk.injEq] at h
  obtain ⟨rfl, _⟩ := h
  exact ⟨tr, .create hh hc⟩

theorem create_isNode {m : Mem α} {g' : Graph (Tensor α)} {d : Nat} {op : NodeOp α} {sink : Option (Tensor α)} {xs ns : List Node}
    (h : create p m g d op sink xs = ok (g', ns)) {n : Node} (hn : n ∈ ns) : IsNode p g' n ∧ n.op < g'.length ∧ n.dev = d ∧ n.op = g.length := by
  obtain ⟨o, ss, rfl, rfl, h1, h2, h3, h4, _⟩ := create_spec h
  simp only [List.mem_map, List.mem_range] at hn
  obtain ⟨i, hi, rfl⟩ := hn
  exact ⟨⟨o, m, op, by simp, h1, by simp [h4, h3, hi]⟩, by simp, rfl, rfl⟩

theorem create1_create {m : Mem α} {g' : Graph (Tensor α)} {d : Nat} {op : NodeOp α} {xs : List Node} {n : Node}
    (h : create1 p m g d op xs = ok (g', n)) : ∃ ns, create p m g d op none xs = ok (g', ns) ∧ n ∈ ns := by
  simp only [create1, Res.bind_eq_ok, Res.ok.injEq] at h
  obtain ⟨⟨g1, ns⟩, hc, n', hn, h⟩ := h
  simp only [Prod.mk.injEq] at h
  obtain ⟨rfl, rfl⟩ := h
  refine ⟨ns, hc, ?_⟩
  simp only at hn
  cases hl : ns.getLast? with
  | none => rw [hl] at hn; cases hn
  | some a =>
    rw [hl] at hn
    simp only [unwrap, Res.ok.injEq] at hn
    subst hn
    exact List.mem_of_getLast? hl

/-- The result of one or several creations. -/
def Made (p : Profile) (m0 : Nat → α) (g g' : Graph (Tensor α)) (n : Node) : Prop :=
  (Ready p m0 g → Ready p m0 g') ∧ IsNode p g' n ∧ n.op < g'.length

theorem create1_made {m : Mem α} {g' : Graph (Tensor α)} {d : Nat} {op : NodeOp α} {xs : List Node} {n : Node}
    (h : create1 p m g d op xs = ok (g', n)) : Made p m0 g g' n := by
  obtain ⟨ns, hc, hn⟩ := create1_create h
  obtain ⟨h1, h2, _⟩ := create_isNode hc hn
  exact ⟨create_ready hc, h1, h2⟩

theorem Agrees.of (hr : Ready p m0 g) {r : Res (Graph (Tensor α) × Node)} {t : Res (Tensor α)}
    (hm : ∀ g' n, r = ok (g', n) → Made p m0 g g' n)
    (h : ∀ y, (∃ g' n, r = ok (g', n) ∧ NF.value g' n = ok y) ↔ t = ok y) : Agrees p m0 r t := by
  constructor
  · intro y hy
    obtain ⟨g', n, e, hv⟩ := (h y).mpr hy
    obtain ⟨h1, h2, h3⟩ := hm g' n e
    obtain ⟨tr, hh⟩ := (h1 hr).hist
    exact ⟨g', n, e, h1 hr, h2, (h1 hr).computes (nodeVal_of hh h2 hv)⟩
  · intro g' n e g'' tr y hf hv
    obtain ⟨h1, h2, h3⟩ := hm g' n e
    exact (h y).mp ⟨g', n, e, (h1 hr).value h3 hf hv⟩

theorem ab_made {fw : Bi} {l r : Sc} {m : Mem α} {x y : Node} {g' : Graph (Tensor α)} {n : Node} (h : ab fw l r p m g x y = ok (g', n)) :
    Made p m0 g g' n := by
  simp only [ab, Res.bind_eq_ok] at h
  obtain ⟨_, _, h⟩ := h
  split at h
  · exact create1_made h
  · simp only [Res.bind_eq_ok] at h
    obtain ⟨_, _, h⟩ := h
    split at h <;> exact create1_made h

theorem lnSoftmax_made {m : Nat → Mem α} {x : Node} {dim : Nat} {g' : Graph (Tensor α)} {n : Node} (h : lnSoftmax p m g x dim = ok (g', n)) :
    Made p m0 g g' n := by
  simp only [lnSoftmax, Res.bind_eq_ok] at h
  obtain ⟨⟨g1, n1⟩, h1, _, _, ⟨g2, n2⟩, h2, h3⟩ := h
  have a1 : Made p m0 g g1 n1 := create1_made (op := .logsumexp dim) h1
  have a2 : Made p m0 g1 g2 n2 := create1_made h2
  have a3 : Made p m0 g2 g' n := ab_made h3
  exact ⟨fun h => a3.1 (a2.1 (a1.1 h)), a3.2⟩

theorem softmax_made {m : Nat → Mem α} {x : Node} {dim : Nat} {g' : Graph (Tensor α)} {n : Node} (h : softmax p m g x dim = ok (g', n)) :
    Made p m0 g g' n := by
  simp only [softmax, Res.bind_eq_ok] at h
  obtain ⟨⟨g1, n1⟩, h1, h2⟩ := h
  have a1 : Made p m0 g g1 n1 := lnSoftmax_made h1
  have a2 : Made p m0 g1 g' n := create1_made (op := .un .exp) h2
  exact ⟨fun h => a2.1 (a1.1 h), a2.2⟩

theorem AgreesList.of (hr : Ready p m0 g) {m : Mem α} {d : Nat} {op : NodeOp α} {xs : List Node} {t : Res (List (Tensor α))}
    (h : ∀ ys, (∃ g' ns, create p m g d op none xs = ok (g', ns) ∧ values g' ns = ok ys) ↔ t = ok ys) :
    AgreesList p m0 (create p m g d op none xs) t := by
  constructor
  · intro ys hy
    obtain ⟨g', ns, e, hv⟩ := (h ys).mpr hy
    have hr' := create_ready e hr
    obtain ⟨tr, hh⟩ := hr'.hist
    refine ⟨g', ns, e, hr', ?_⟩
    have key : ∀ (ns' : List Node) (ys : List (Tensor α)), (∀ n ∈ ns', n ∈ ns) → values g' ns' = ok ys →
        List.Forall₂ (fun n y => IsNode p g' n ∧ Computes g' n y) ns' ys := by
      intro ns'
      induction ns' with
      | nil => intro ys _ h; simp only [values, mapR, Res.ok.injEq] at h; subst h; exact .nil
      | cons a l ih =>
        intro ys hsub h
        simp only [values, mapR, Res.bind_eq_ok, Res.ok.injEq] at h
        obtain ⟨b, hb, bs, hbs, rfl⟩ := h
        have ha := (create_isNode e (hsub a (by simp))).1
        exact .cons ⟨ha, hr'.computes (nodeVal_of hh ha hb)⟩ (ih bs (fun n hn => hsub n (by simp [hn])) hbs)
    exact key ns ys (fun n h => h) hv
  · intro g' ns ys e _ hall
    have hr' := create_ready e hr
    refine (h ys).mp ⟨g', ns, e, ?_⟩
    have key : ∀ (ns' : List Node) (ys : List (Tensor α)), (∀ n ∈ ns', n ∈ ns) →
        List.Forall₂ (fun n y => ∃ g'' tr, Graph.Forward g' n.op g'' tr (ok ()) ∧ g''.val n.id = ok y) ns' ys → values g' ns' = ok ys := by
      intro ns' ys hsub hall
      induction hall with
      | nil => rfl
      | @cons a b l bs hb _ ih =>
        obtain ⟨g'', tr, hf, hv⟩ := hb
        have := hr'.value (create_isNode e (hsub a (by simp))).2.1 hf hv
        have ih' := ih (fun n hn => hsub n (by simp [hn]))
        simp only [values] at ih' ⊢
        simp [mapR, this, ih']
    exact key ns ys (fun n h => h) hall

end NF
end Verif
