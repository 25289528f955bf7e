import Verif.PropsNode2
import Verif.PropsBw
import Verif.GraphLater

/-!
# C39: node functions through which `backward` never completes

`Blocks p m0 g y`: whatever is done with the graph afterwards (more nodes, more `forward`s and `backward`s), `backward` from any node that
depends on `y` (or from `y` itself) does not complete, in no order of execution.
-/

set_option linter.unusedSectionVars false

namespace Verif
open Res
variable {α : Type} [Flt α]

namespace NF

/-- No `backward` from a node that depends on `y` ever completes. -/
def Blocks (p : Profile) (m0 : Nat → α) (g : Graph (Tensor α)) (y : Node) : Prop :=
  y.op < g.length ∧ ∀ g2, Graph.Later (tensorLike p m0) g g2 → ∀ root, root < g2.length → Graph.Needs g2 root y.op →
    (∃ tr order r, Graph.Backward (tensorLike p m0) g2 root tr order r) ∧
    ∀ tr order g', ¬ Graph.Backward (tensorLike p m0) g2 root tr order (ok g')

variable {p : Profile} {m0 : Nat → α} {g g1 : Graph (Tensor α)}

theorem blocks_of {m : Mem α} {d : Nat} {op : NodeOp α} {sink : Option (Tensor α)} {xs ns : List Node} (hh : ∃ tr, Graph.Hist (tensorLike p m0) g tr)
    (hc : create p m g d op sink xs = ok (g1, ns)) {y : Node} (hy : y ∈ ns)
    (hbad : ∀ ts ys gys ss, (∀ gm g2 : Graph (Tensor α), Graph.Later (tensorLike p m0) g1 g2 → (∃ root tr, root < g2.length ∧ Graph.Needs g2 root y.op ∧ Graph.Forward g2 root gm tr (ok ())) →
        mapR gm.val (xs.map Node.id) = ok ts → ∃ u ∈ op.bw p d m ts ys gys ss, ∀ t t', u.2 t ≠ ok t')) :
    Blocks p m0 g1 y := by
  obtain ⟨_, hlt, _, hop⟩ := create_isNode hc hy
  obtain ⟨o, ss, rfl, _, h1, h2, _⟩ := create_spec hc
  have hh1 : ∃ tr, Graph.Hist (tensorLike p m0) (g ++ [o]) tr := by
    obtain ⟨tr, hh⟩ := hh
    simp only [create, Res.bind_eq_ok, Res.ok.injEq] at hc
    obtain ⟨g', hcr, _, _, e⟩ := hc
    simp only [Prod.mk.injEq] at e
    exact ⟨tr, hh.create (by rw [← e.1]; exact hcr)⟩
  obtain ⟨tr, hh1⟩ := hh1
  refine ⟨hlt, fun g2 hl root hr hn => ?_⟩
  obtain ⟨tr2, hh2⟩ := hl.hist hh1
  refine ⟨Graph.C32_backward_total hh2 hr, fun tr' order g' hb => ?_⟩
  obtain ⟨hlen, hso⟩ := hl.sameOps hh1
  have ho : (g ++ [o])[y.op]? = some o := by rw [hop]; simp
  obtain ⟨o2, ho2, hst⟩ := hso.some hlt ho
  obtain ⟨gm, om, ts, gys, ss, hf, _, _, _, hxs, _, hu⟩ := Graph.backward_update_ok hh2 hr hb hn ho2
  have hoper : o2.oper = op.oper p d m := by rw [← h1]; simp_all
  have hargs : o2.args = xs.map Node.id := by rw [← h2]; simp_all
  rw [hargs] at hxs
  obtain ⟨u, hu1, hu2⟩ := hbad ts om.vals gys ss gm g2 hl ⟨root, tr', hr, hn, hf⟩ hxs
  rw [hoper] at hu
  obtain ⟨t, t', e⟩ := hu u hu1
  exact hu2 t t' e

/-! ### Backward device functions that never return -/

theorem neg_bw_ne_ok (d : Nat) (m : Mem α) (xs ys : List (Tensor α)) (gy gx t : Tensor α) : Dev.bw (.un .neg) p d m xs ys gy gx ≠ ok t := by
  intro h
  simp only [Dev.bw, Res.bind_eq_ok] at h
  obtain ⟨_, _, _, _, _, _, _, _, _, _, h⟩ := h
  simp only [Dev.callBw, Res.bind_eq_ok] at h
  obtain ⟨k, hk, _⟩ := h
  cases hk

theorem batchSlice_bw_ne_ok (lower d : Nat) (m : Mem α) (xs ys : List (Tensor α)) (gy gx t : Tensor α) :
    Dev.bw (.batchSlice lower) p d m xs ys gy gx ≠ ok t := by
  intro h
  simp only [Dev.bw, Res.bind_eq_ok] at h
  obtain ⟨_, _, _, _, _, _, _, _, _, _, h⟩ := h
  simp only [Dev.callBw, Res.bind_eq_ok] at h
  obtain ⟨k, hk, h⟩ := h
  obtain rfl := Res.ok.inj hk
  have h' : K.sliceBw p m xs ys [gy] [lower] [] gx = ok t := h
  simp only [K.sliceBw, Res.bind_eq_ok] at h'
  obtain ⟨_, _, _, _, _, e, _⟩ := h'
  cases e

/-! ### C39 is false of these node functions -/

/-- C39 is false of unary minus: `backward` through `-x` never completes. -/
theorem C39_neg_blocks {m : Mem α} {x y : Node} (hh : ∃ tr, Graph.Hist (tensorLike p m0) g tr) (h : NF.neg p m g x = ok (g1, y)) :
    Blocks p m0 g1 y := by
  obtain ⟨ns, hc, hn⟩ := create1_create h
  refine blocks_of hh hc hn fun ts ys gys ss gm g2 _ _ _ => ⟨_, List.mem_singleton.mpr rfl, fun t t' e => ?_⟩
  simp only [Res.bind_eq_ok] at e
  obtain ⟨_, _, _, _, _, _, e⟩ := e
  exact neg_bw_ne_ok _ _ _ _ _ _ _ e

/-- C39 is false of `batch_slice`: `backward` through it never completes. -/
theorem C39_batch_slice_blocks {m : Mem α} {x y : Node} {lower upper : Nat} (hh : ∃ tr, Graph.Hist (tensorLike p m0) g tr)
    (h : NF.batchSlice p m g x lower upper = ok (g1, y)) : Blocks p m0 g1 y := by
  obtain ⟨ns, hc, hn⟩ := create1_create h
  refine blocks_of hh hc hn fun ts ys gys ss gm g2 _ _ _ => ⟨_, List.mem_singleton.mpr rfl, fun t t' e => ?_⟩
  simp only [Res.bind_eq_ok] at e
  obtain ⟨_, _, e⟩ := e
  exact batchSlice_bw_ne_ok _ _ _ _ _ _ _ _ e

/-- C39 is false of `batch_split`: `backward` through any of its results never completes. -/
theorem C39_batch_split_blocks {m : Mem α} {x : Node} {n : Nat} {ys : List Node} (hh : ∃ tr, Graph.Hist (tensorLike p m0) g tr)
    (h : NF.batchSplit p m g x n = ok (g1, ys)) {y : Node} (hy : y ∈ ys) : Blocks p m0 g1 y := by
  refine blocks_of hh h hy fun ts ys gys ss gm g2 _ _ _ => ?_
  by_cases hn : n = 0
  · subst hn
    exact ⟨_, List.mem_singleton.mpr rfl, fun t t' e => by cases e⟩
  · simp only [NodeOp.bw, hn, if_false]
    refine ⟨_, List.mem_map.mpr ⟨0, List.mem_range.mpr (by omega), rfl⟩, fun t t' e => ?_⟩
    simp only [Res.bind_eq_ok] at e
    obtain ⟨_, _, _, _, e⟩ := e
    exact batchSlice_bw_ne_ok _ _ _ _ _ _ _ _ e

/-- C39 is false of `batch_pick` with any number of ids other than two: `backward` through it never completes. -/
theorem C39_batch_pick_blocks {m : Mem α} {x y : Node} {ids : List Nat} (h2 : ids.length ≠ 2) (hh : ∃ tr, Graph.Hist (tensorLike p m0) g tr)
    (h : NF.batchPick p m g x ids = ok (g1, y)) : Blocks p m0 g1 y := by
  obtain ⟨ns, hc, hn⟩ := create1_create h
  refine blocks_of hh hc hn fun ts ys gys ss gm g2 _ _ _ => ⟨_, List.mem_singleton.mpr rfl, fun t t' e => ?_⟩
  simp only [Res.bind_eq_ok] at e
  obtain ⟨_, _, _, _, e⟩ := e
  exact C29_batch_pick_bw_never_returns h2 _ _ _ e

/-- The value of a node in a later graph after a successful `forward` of something that depends on it. -/
theorem later_value {x : Node} {t : Tensor α} (hv : NodeVal g x t) {g2 gm : Graph (Tensor α)} {tr tr2 : List Nat}
    (hh : Graph.Hist (tensorLike p m0) g2 tr2) (hso : Graph.SameOps g.length g g2) {root : Nat} (hroot : root < g2.length)
    (hn : Graph.Needs g2 root x.op) (hf : Graph.Forward g2 root gm tr (ok ())) {y : Tensor α} (hy : gm.val x.id = ok y) : y = t := by
  have hval := hv.val
  simp only [value, Res.bind_eq_ok] at hval
  obtain ⟨ys, hden, hat⟩ := hval
  rw [hso.den hv.lt] at hden
  obtain ⟨hinv, popped, _, hmem, _, hran, _⟩ := Graph.forward_spec hh.inv hroot hf
  obtain ⟨o', ho', hf'⟩ := hran.done rfl x.op ((hmem x.op).mpr hn)
  have hxl : x.op < g2.length := by have := hn.le hh.inv.wf; omega
  rw [(hran.same g2.length).den hxl] at hden
  have := hinv.value x.op o' ho' hf' (Graph.den_evaluable hinv.wf hden)
  rw [hden] at this
  obtain rfl := Res.ok.inj this
  obtain ⟨o2, h2, h3⟩ := Graph.val_eq_ok.mp hy
  have e : o2 = o' := by
    have h2' : gm[x.op]? = some o2 := h2
    rw [h2'] at ho'; exact Option.some.inj ho'
  subst e
  rw [Graph.at'_eq_ok] at hat
  rw [show x.id.2 = x.vid from rfl, hat] at h3
  exact (Option.some.inj h3).symm

theorem dimOf_ne_ok {x : Tensor α} {dim : Nat} (h : x.shape.depth ≤ dim) (n : Nat) : NodeOp.dimOf x dim ≠ ok n := by
  intro e
  unfold NodeOp.dimOf ix Shape.dimsSlice at e
  rw [List.getElem?_eq_none (by rw [List.length_take]; omega)] at e
  cases e

theorem blocks_dim {m : Mem α} {op : NodeOp α} {x y : Node} {t : Tensor α} {dim : Nat} (hr : Ready p m0 g) (hx : IsNode p g x) (hc : Computes g x t)
    (hd : t.shape.depth ≤ dim) (h : un1 op p m g x = ok (g1, y))
    (hop : ∀ (d : Nat) (ts ys gys : List (Tensor α)) (ss : List Shape), ∃ u ∈ op.bw p d m ts ys gys ss, ∀ t t', u.2 t = ok t' →
      ∃ x n, Graph.at' ts 0 = ok x ∧ NodeOp.dimOf x dim = ok n) : Blocks p m0 g1 y := by
  obtain ⟨ns, hcr, hn⟩ := create1_create h
  obtain ⟨tr0, hh0⟩ := hr.hist
  refine blocks_of ⟨tr0, hh0⟩ hcr hn fun ts ys gys ss gm g2 hl hroot hm => ?_
  obtain ⟨root, tr, hroot, hnd, hf⟩ := hroot
  obtain ⟨u, hu, hb⟩ := hop x.dev ts ys gys ss
  refine ⟨u, hu, fun t1 t2 e => ?_⟩
  obtain ⟨x', n, hx', hn'⟩ := hb t1 t2 e
  have hv := hr.nodeVal hx hc
  obtain ⟨_, hlt, _, hop⟩ := create_isNode hcr hn
  obtain ⟨o, ss', e1, _, h1, h2, _⟩ := create_spec hcr
  have hh1 : Graph.Hist (tensorLike p m0) g1 tr0 := create1_hist h hh0
  obtain ⟨tr2, hh2⟩ := hl.hist hh1
  obtain ⟨hlen, hso⟩ := hl.sameOps hh1
  have hl1 : g.length ≤ g1.length := by rw [e1]; simp
  have hso' : Graph.SameOps g.length g g2 := by
    intro i hi
    have : (g[i]?).map Graph.stat = (g1[i]?).map Graph.stat := by rw [e1, List.getElem?_append_left hi]
    rw [this]; exact hso i (by omega)
  have ho : g1[y.op]? = some o := by rw [hop, e1]; simp
  obtain ⟨o2, ho2, hst⟩ := hso.some hlt ho
  have hargs : x.id ∈ g2.argsOf y.op := by
    rw [Graph.argsOf_some ho2]
    have : o2.args = o.args := by simp_all
    rw [this, h2]; simp
  have hv1 : gm.val x.id = ok x' := by
    have : mapR gm.val [x.id] = ok ts := hm
    simp only [mapR, Res.bind_eq_ok, Res.ok.injEq] at this
    obtain ⟨b, hb1, _, _, rfl⟩ := this
    simp only [Graph.at', List.getElem?_cons_zero, Res.ok.injEq] at hx'
    rw [← hx']; exact hb1
  have hxt : x' = t := later_value hv hh2 hso' hroot (hnd.snoc hargs) hf hv1
  subst hxt
  exact dimOf_ne_ok hd n hn'

/-- C39 is false of `sum` along an axis beyond the depth of the argument (an axis of size 1, which `sum` on tensors and creating the node
accept): `backward` through it never completes. -/
theorem C39_sum_blocks {m : Mem α} {x y : Node} {t : Tensor α} {dim : Nat} (hr : Ready p m0 g) (hx : IsNode p g x) (hc : Computes g x t)
    (hd : t.shape.depth ≤ dim) (h : NF.sum p m g x dim = ok (g1, y)) : Blocks p m0 g1 y := by
  refine blocks_dim (op := .sum dim) hr hx hc hd h fun d ts ys gys ss => ⟨_, List.mem_singleton.mpr rfl, fun t t' e => ?_⟩
  simp only [Res.bind_eq_ok] at e
  obtain ⟨x, h1, _, _, n, h2, _⟩ := e
  exact ⟨x, n, h1, h2⟩

/-- C39 is false of `logsumexp` along an axis beyond the depth of the argument. -/
theorem C39_logsumexp_blocks {m : Mem α} {x y : Node} {t : Tensor α} {dim : Nat} (hr : Ready p m0 g) (hx : IsNode p g x) (hc : Computes g x t)
    (hd : t.shape.depth ≤ dim) (h : NF.logsumexp p m g x dim = ok (g1, y)) : Blocks p m0 g1 y := by
  refine blocks_dim (op := .logsumexp dim) hr hx hc hd h fun d ts ys gys ss => ⟨_, List.mem_singleton.mpr rfl, fun t t' e => ?_⟩
  simp only [Res.bind_eq_ok] at e
  obtain ⟨x, h1, _, _, _, _, n, h2, _⟩ := e
  exact ⟨x, n, h1, h2⟩

/-- The hypotheses are met: on a 2×3 matrix node, `-x`, `sum` along axis 2 and `batch_slice` can be created and evaluated, and then block
`backward`. -/
example (f : Nat → α) (m : Mem α) (m0 : Nat → α) : ∃ (t : Tensor α) (g : Graph (Tensor α)) (x : Node), Ready .debug m0 g ∧ IsNode .debug g x ∧
    Computes g x t ∧ t.Holds 0 (matShape 2 3 1) (fun c b => f ((matShape 2 3 1).offset c b)) ∧
    (∃ g' n z, NF.neg .debug m g x = ok (g', n) ∧ Computes g' n z ∧ Blocks .debug m0 g' n) ∧
    (∃ g' n z, NF.sum .debug m g x 2 = ok (g', n) ∧ Computes g' n z ∧ Blocks .debug m0 g' n) ∧
    (∃ g' n z, NF.batchSlice .debug m g x 0 1 = ok (g', n) ∧ Computes g' n z ∧ Blocks .debug m0 g' n) := by
  have w : (matShape 2 3 1).WF := matShape_wf (n := 2) (m := 3) (b := 1) rfl
  obtain ⟨t, ht⟩ := exists_holds w (by decide) 0 f
  obtain ⟨g, x, _, hr, ix, _, cx, _⟩ := exists_two .debug m0 m ht.device ht.host ht.device ht.host
  refine ⟨t, g, x, hr, ix, cx, ht, ?_, ?_, ?_⟩
  · obtain ⟨z, hz, _⟩ := TF.call1 (op := .un .neg) ht rfl ht.small trivial .debug (m 0)
    obtain ⟨g', n, e, _, _, c⟩ := (C38_unary hr ix cx .neg m).1 z hz
    exact ⟨g', n, z, e, c, C39_neg_blocks hr.hist e⟩
  · obtain ⟨z, hz, _⟩ := TF.call1 (op := .sum 2) ht (s := matShape 2 3 1) rfl ht.small (by trivial) .debug (m 0)
    obtain ⟨g', n, e, _, _, c⟩ := (C38_unary hr ix cx (.sum 2) m).1 z hz
    exact ⟨g', n, z, e, c, C39_sum_blocks hr ix cx (by rw [ht.shape]; decide) e⟩
  · obtain ⟨z, hz, _⟩ := TF.call1 (op := .batchSlice 0 1) ht (s := matShape 2 3 1) rfl ht.small (by trivial) .debug (m 0)
    obtain ⟨g', n, e, _, _, c⟩ := (C38_unary hr ix cx (.batchSlice 0 1) m).1 z hz
    exact ⟨g', n, z, e, c, C39_batch_slice_blocks hr.hist e⟩

end NF
end Verif
