import Verif.PropsGraph2
import Verif.PropsSafety2
import Verif.NodeLemmas6

/-!
# C35 for the library: what is in the results of an operator whose `forward` panicked

A program (`Prog`, C54) makes nodes with the functions of the library and calls `forward` and `backward` on them.
-/

set_option linter.unusedSectionVars false
set_option linter.unusedSimpArgs false

namespace Verif
open Res
variable {α : Type} [Flt α]

namespace Graph

theorem collect_out {T : Type} {g : Graph T} {root : Nat} (h : g.length ≤ root) : g.collect root = some [root] := by
  have : g.argsOf root = [] := by simp [argsOf, List.getElem?_eq_none h]
  cases hl : g.length with
  | zero => simp [collect, hl, bfs, this, visit]
  | succ n => simp [collect, hl, bfs, this, visit]

theorem forward_out {T : Type} {g g' : Graph T} {root : Nat} (h : g.length ≤ root) {tr : List Nat} {r : Res Unit} (hf : Forward g root g' tr r) :
    g' = g ∧ tr = [] ∧ r = panic := by
  obtain ⟨pushed, popped, hc, hp, hr⟩ := hf
  rw [collect_out h] at hc
  obtain rfl := Option.some.inj hc
  obtain rfl := List.perm_singleton.mp hp.1
  have : fwOne g root = (g, false, panic) := by simp [fwOne, List.getElem?_eq_none h]
  simp [fwRun, this] at hr
  obtain ⟨rfl, rfl, rfl⟩ := hr
  exact ⟨rfl, rfl, rfl⟩

end Graph

namespace NodeOp

theorem loopLeft_first {S : Type} {f : Nat → S → Res S} {s : S} (h : ∀ s', f 0 s ≠ ok s') (n : Nat) : loopLeft n f s = s := by
  have hl : ∀ n s', loop (n + 1) f s ≠ ok s' := by
    intro n
    induction n with
    | zero => intro s' e; exact h s' (by simpa [loop] using e)
    | succ n ih =>
      intro s' e
      rw [loop_succ, Res.bind_eq_ok] at e
      obtain ⟨s1, e, _⟩ := e
      exact ih s1 e
  induction n with
  | zero => rfl
  | succ n ih =>
    unfold loopLeft
    cases n with
    | zero =>
      simp only [loop_zero]
    | succ n =>
      cases e : loop (n + 1) f s with
      | ok s' => exact absurd e (hl n s')
      | panic => exact ih
      | ub => exact ih

theorem parts_left {d : Nat} {s : Shape} {f : Nat → Res (Tensor α)} (hf : ∀ i t, f i = ok t → t.device = some d ∧ t.host = none ∧ t.shape = s) {n : Nat}
    (hall : (∃ t, f 0 = ok t) → ∀ i, i < n → ∃ t, f i = ok t)
    (hno : ∀ ys, loop n (fun i ys => do let t ← f i; NodeOp.put ys i t) (List.replicate n (Tensor.new d s)) ≠ ok ys) :
    loopLeft n (fun i ys => do let t ← f i; NodeOp.put ys i t) (List.replicate n (Tensor.new d s)) = List.replicate n (Tensor.new d s) := by
  by_cases h0 : ∃ t, f 0 = ok t
  · exfalso
    have hl : ∀ k, k ≤ n → ∃ ret, loop k (fun i (ret : List (Tensor α)) => do let t ← f i; ok (ret ++ [t])) [] = ok ret := by
      intro k
      induction k with
      | zero => intro _; exact ⟨[], rfl⟩
      | succ k ih =>
        intro hk
        obtain ⟨ret, e⟩ := ih (by omega)
        obtain ⟨t, ht⟩ := hall h0 k (by omega)
        exact ⟨ret ++ [t], by rw [loop_succ, e, Res.ok_bind, ht, Res.ok_bind]⟩
    obtain ⟨ret, e⟩ := hl n (le_refl n)
    have := (NF.loop_parts hf n n (le_refl n)).1
    rw [e, Res.ok_bind] at this
    exact hno _ this
  · refine loopLeft_first (fun ys e => h0 ?_) n
    rw [Res.bind_eq_ok] at e
    obtain ⟨t, ht, _⟩ := e
    exact ⟨t, ht⟩

theorem slice_all {x : Tensor α} (hx : x.Fine) {d dim k n : Nat} {m : Mem α} (hk : k * n = x.shape.get dim)
    (h0 : ∃ t, Dev.fw (.slice dim (0 * k) ((0 + 1) * k)) .debug d (m 0) [x] = ok t) (i : Nat) (hi : i < n) :
    ∃ t, Dev.fw (.slice dim (i * k) ((i + 1) * k)) .debug d (m i) [x] = ok t := by
  obtain ⟨t, ht⟩ := h0
  have hx' : ∀ y, y ∈ [x] → y.Fine := by simpa using hx
  rcases Dev.fw_spec (d := d) (op := .slice dim (0 * k) ((0 + 1) * k)) hx' trivial with ⟨s, _, hp, _⟩ | ⟨_, h⟩
  · have hs : ShapeOps.slice .debug x.shape dim (0 * k) ((0 + 1) * k) = ok s := hp.shape
    have hr := NF.slice_shape_eq hs
    have hk0 : 0 < k := by
      have := (check_bind_ok.mp hs).1
      omega
    have hle : (i + 1) * k ≤ x.shape.get dim := by
      rw [← hk, Nat.mul_comm k n]; exact Nat.mul_le_mul_right k hi
    have hi' : ShapeOps.slice .debug x.shape dim (i * k) ((i + 1) * k) = ok s := by
      have e : (i + 1) * k - i * k = k := by rw [Nat.add_mul]; omega
      simp only [ShapeOps.slice, e]
      rw [check_true _ (by rw [Nat.add_mul]; omega), Res.ok_bind, check_true _ hle, Res.ok_bind, hr]
    rcases Dev.fw_spec (d := d) (op := .slice dim (i * k) ((i + 1) * k)) hx' trivial with ⟨_, _, _, _, _, h⟩ | ⟨h, _⟩
    · obtain ⟨y, e, _⟩ := h (m i)
      exact ⟨y, e⟩
    · exact absurd ⟨s, hp.dev, hp.buf, hi', hp.size, trivial⟩ h
  · rw [h] at ht; cases ht

theorem batchSlice_all {x : Tensor α} (hx : x.Fine) {d k n : Nat} {m : Mem α} (hk : k * n = x.shape.batch)
    (h0 : ∃ t, Dev.fw (.batchSlice (0 * k) ((0 + 1) * k)) .debug d (m 0) [x] = ok t) (i : Nat) (hi : i < n) :
    ∃ t, Dev.fw (.batchSlice (i * k) ((i + 1) * k)) .debug d (m i) [x] = ok t := by
  obtain ⟨t, ht⟩ := h0
  have hx' : ∀ y, y ∈ [x] → y.Fine := by simpa using hx
  rcases Dev.fw_spec (d := d) (op := .batchSlice (0 * k) ((0 + 1) * k)) hx' trivial with ⟨s, _, hp, _⟩ | ⟨_, h⟩
  · have hs : ShapeOps.batchSlice x.shape (0 * k) ((0 + 1) * k) = ok s := hp.shape
    have hr := NF.batchSlice_shape_eq hs
    have hk0 : 0 < k := by
      have := (check_bind_ok.mp hs).1
      omega
    have hle : (i + 1) * k ≤ x.shape.batch := by
      rw [← hk, Nat.mul_comm k n]; exact Nat.mul_le_mul_right k hi
    have hi' : ShapeOps.batchSlice x.shape (i * k) ((i + 1) * k) = ok s := by
      have e : (i + 1) * k - i * k = k := by rw [Nat.add_mul]; omega
      simp only [ShapeOps.batchSlice, e]
      rw [check_true _ ⟨by rw [Nat.add_mul]; omega, hle⟩, Res.ok_bind, hr]
    rcases Dev.fw_spec (d := d) (op := .batchSlice (i * k) ((i + 1) * k)) hx' trivial with ⟨_, _, _, _, _, h⟩ | ⟨h, _⟩
    · obtain ⟨y, e, _⟩ := h (m i)
      exact ⟨y, e⟩
    · exact absurd ⟨s, hp.dev, hp.buf, hi', hp.size, trivial⟩ h
  · rw [h] at ht; cases ht

/-- The results of an operator that is not `InputOwner` are as before when its `forward` fails. -/
theorem left_init {op : NodeOp α} (hop : ∀ v, op ≠ .inputOwner v) {d : Nat} {m : Mem α} {xs : List (Tensor α)} (hx : ∀ x ∈ xs, x.Fine) {outs : List Shape}
    (hs : op.shapes .debug (xs.map Tensor.shape) = ok outs) (hno : ∀ ys, op.fw .debug d m xs (outs.map (Tensor.new d)) ≠ ok ys) :
    op.left .debug d m xs (outs.map (Tensor.new d)) = outs.map (Tensor.new d) := by
  cases op with
  | inputOwner v => exact absurd rfl (hop v)
  | split dim n =>
    simp only [NodeOp.left]
    cases hxs : xs with
    | nil => simp [Graph.at']
    | cons x rest =>
      subst hxs
      simp only [NodeOp.shapes, Graph.at', List.map_cons, List.getElem?_cons_zero, Res.ok_bind] at hs ⊢
      simp only [NodeOp.fw, Graph.at', List.getElem?_cons_zero, Res.ok_bind] at hno
      obtain ⟨hn, hs⟩ := check_bind_ok.mp hs
      obtain ⟨hd, hs⟩ := check_bind_ok.mp hs
      rw [Res.bind_eq_ok] at hs
      obtain ⟨s, hr, hs⟩ := hs
      obtain rfl := Res.ok.inj hs
      rw [List.map_replicate] at *
      rw [check_true _ hn, Res.ok_bind] at hno
      refine parts_left (fun i t ht => ?_) (slice_all (hx x (by simp)) hd) hno
      obtain ⟨a, b, c, _⟩ := Dev.fw_frame ht
      have := NF.slice_shape_eq c
      exact ⟨a, b, (Res.ok.inj (hr.symm.trans this)).symm⟩
  | batchSplit n =>
    simp only [NodeOp.left]
    cases hxs : xs with
    | nil => simp [Graph.at']
    | cons x rest =>
      subst hxs
      simp only [NodeOp.shapes, Graph.at', List.map_cons, List.getElem?_cons_zero, Res.ok_bind] at hs ⊢
      simp only [NodeOp.fw, Graph.at', List.getElem?_cons_zero, Res.ok_bind] at hno
      obtain ⟨hn, hs⟩ := check_bind_ok.mp hs
      obtain ⟨hd, hs⟩ := check_bind_ok.mp hs
      rw [Res.bind_eq_ok] at hs
      obtain ⟨s, hr, hs⟩ := hs
      obtain rfl := Res.ok.inj hs
      rw [List.map_replicate] at *
      rw [check_true _ hn, Res.ok_bind] at hno
      refine parts_left (fun i t ht => ?_) (batchSlice_all (hx x (by simp)) hd) hno
      obtain ⟨a, b, c, _⟩ := Dev.fw_frame ht
      have := NF.batchSlice_shape_eq c
      exact ⟨a, b, (Res.ok.inj (hr.symm.trans this)).symm⟩
  | _ => rfl

end NodeOp

theorem Graph.Disturbed.sameValues {g g' : Graph (Tensor α)} (h : g.Disturbed g') : Graph.SameValues g g' := by
  refine ⟨h.1.symm, fun i o ho => ?_⟩
  obtain ⟨gr, sk, h1, _, h3⟩ := h.2 i o ho
  exact ⟨gr, sk, h1.length_eq.symm, h3⟩

/-- What is known of the graph of a program: C30's invariant, and the results were created without memory on the device of the operator. -/
structure Prog.Kept (g : Graph (Tensor α)) : Prop where
  inv : ∃ tr, Graph.Inv g tr
  init : ∀ (i : Nat) (o : OpInfo (Tensor α)), g[i]? = some o → ∃ ss : List Shape, o.init = ss.map o.oper.null

theorem Prog.Kept.forward {g g' : Graph (Tensor α)} (h : Prog.Kept g) {root : Nat} {tr : List Nat} {r : Res Unit} (hf : Graph.Forward g root g' tr r) :
    Prog.Kept g' := by
  by_cases hr : root < g.length
  · obtain ⟨tr0, hi⟩ := h.inv
    obtain ⟨h1, _, _, _, _, hran, _⟩ := Graph.forward_spec hi hr hf
    refine ⟨⟨_, h1⟩, fun i o ho => ?_⟩
    obtain ⟨o', ho', h1, _, h3, _⟩ := ((hran.same (i + 1)).symm).some (Nat.lt_succ_self i) ho
    obtain ⟨ss, e⟩ := h.init i o' ho'
    exact ⟨ss, by rw [← h3, ← h1]; exact e⟩
  · obtain ⟨rfl, _, _⟩ := Graph.forward_out (by omega) hf
    exact h

theorem Prog.Kept.same {g g' : Graph (Tensor α)} (h : Prog.Kept g) (hs : Graph.SameValues g g') : Prog.Kept g' := by
  obtain ⟨tr0, hi⟩ := h.inv
  refine ⟨⟨_, hs.inv hi⟩, fun i o ho => ?_⟩
  obtain ⟨o', ho', h1, _, h3, _⟩ := ((hs.same (i + 1)).symm).some (Nat.lt_succ_self i) ho
  obtain ⟨ss, e⟩ := h.init i o' ho'
  exact ⟨ss, by rw [← h3, ← h1]; exact e⟩

theorem Prog.kept {g : Graph (Tensor α)} (h : Prog g) : Prog.Kept g := by
  induction h with
  | start => exact ⟨⟨[], ⟨by simp, by simp⟩, by simp, by simp, by simp, by simp, by simp⟩, fun i o h => by simp at h⟩
  | @call g g' c m ns _ hc e ih =>
    have hm := NodeCall.makes hc.fineArgs m g
    rw [e] at hm
    cases hm with
    | fails _ h => exact absurd rfl (h _)
    | @create op d sink args g2 ns2 e2 h1 h2 h3 h4 =>
      cases e2
      obtain ⟨tr0, hi⟩ := ih.inv
      refine ⟨⟨_, Graph.create_inv hi h3⟩, fun i o ho => ?_⟩
      simp only [Graph.create, Res.bind_eq_ok, Res.ok.injEq] at h3
      obtain ⟨xs, _, ss, _, rfl⟩ := h3
      by_cases hi : i < g.length
      · rw [List.getElem?_append_left hi] at ho; exact ih.init i o ho
      · have hl := (List.getElem?_eq_some_iff.mp ho).1
        simp at hl
        have : i = g.length := by omega
        subst this
        simp at ho
        subst ho
        exact ⟨ss, rfl⟩
  | forward _ hf ih => exact ih.forward hf
  | @backward g g' m0 root tr popped _ _ hb ih =>
    obtain ⟨g1, r1, hf, hb | hb | hb⟩ := hb
    · obtain ⟨rfl, hb⟩ := hb
      by_cases hr : root < g.length
      · obtain ⟨tr0, hi⟩ := ih.inv
        obtain ⟨h1, _, _, _, _, hran, _⟩ := Graph.forward_spec hi hr hf
        exact (ih.forward hf).same (Graph.backward_spec h1.wf (by rw [hran.len]; exact hr) hb).2.2.2.same
      · have := (Graph.forward_out (by omega) hf).2.2
        cases this
    · cases hb.2.1
    · cases hb.2.1
  | backwardPanic _ hf _ hd ih => exact (ih.forward hf).same hd.sameValues

theorem toVec_null (d : Nat) (s : Shape) : (Tensor.new d s : Tensor α).toVec .debug = panic := by
  have h : (Tensor.new d s : Tensor α).toVec .debug = (do let size ← s.sizeU .debug; let _ ← s.sizeU .debug; panic) := rfl
  rw [h]
  cases e : s.sizeU .debug with
  | ok n => rfl
  | panic => rfl
  | ub => exact absurd e (Shape.sizeU_safe _ _)

namespace Graph

/-- C35, for the operators of the library: when `forward` panics in an operator other than the one of a node made of an owned tensor, the
results of the operator have no memory, so that reading them panics (see also `C35_marked_operator_frozen`); also for `split` and `batch_split`,
which write their results one after the other. -/
theorem C35_panicking_operator_has_no_value {g : Graph (Tensor α)} (h : Prog g) {root : Nat} (hr : root < g.length) {g' : Graph (Tensor α)}
    {tr : List Nat} {r : Res Unit} (hf : Forward g root g' tr r) {l : List Nat} {i : Nat} (hl : tr = l ++ [i]) (hp : r ≠ ok ()) :
    ∃ o, g'[i]? = some o ∧ o.forwarded = true ∧
      ((∃ v d m, o.oper = (NodeOp.inputOwner v).oper .debug d m) ∨ (∀ t ∈ o.vals, t.valid = false ∧ t.toVec .debug = panic)) := by
  obtain ⟨tr0, hi⟩ := h.kept.inv
  obtain ⟨o, xs, h1, h2, h3, h4, h5⟩ := panicking_marked hi hr hf hl hp
  refine ⟨o, h1, h2, ?_⟩
  obtain ⟨ops, D, hg⟩ := (Prog.forward h hf).fine
  obtain ⟨op, outs, _, _, hop⟩ := hg.at' i o h1
  obtain ⟨d, m, ho⟩ := hop.oper
  by_cases hio : ∃ v, op = .inputOwner v
  · obtain ⟨v, rfl⟩ := hio
    exact .inl ⟨v, d, m, ho⟩
  · refine .inr ?_
    have hx : ∀ x ∈ xs, x.Fine := mapR_all h3 fun a b hb => (hg.val hb).1
    obtain ⟨ss, e1, _, _, e2⟩ := hop.args
    have hss : ss = xs.map Tensor.shape := by
      have := mapR_map h3 (h := look D) (k := Tensor.shape) fun a _ b hb => (hg.val hb).2
      rw [e1] at this
      exact Res.ok.inj this
    subst hss
    obtain ⟨ss0, hinit⟩ := (Prog.forward h hf).kept.init i o h1
    rw [ho] at h4 h5 hinit
    have hinit : o.init = ss0.map (Tensor.new d) := hinit
    have : ss0 = outs := by
      have := hop.init.1
      rw [hinit, List.map_map] at this
      rw [← this]
      conv_lhs => rw [← List.map_id ss0]
      rfl
    subst this
    rw [hinit] at h4 h5
    have hleft := NodeOp.left_init (fun v e => hio ⟨v, e⟩) hx e2 h4
    have h5 : o.vals = op.left .debug d m xs (ss0.map (Tensor.new d)) := h5
    rw [hleft] at h5
    intro t ht
    rw [h5] at ht
    obtain ⟨s, _, rfl⟩ := List.mem_map.mp ht
    exact ⟨rfl, toVec_null _ _⟩

/-- The results of a node of an owned tensor that was never allocated. -/
def ownedNull (d : Nat) (s : Shape) (m : Mem α) (v : Tensor α) (f : Bool) : Graph (Tensor α) :=
  [⟨(NodeOp.inputOwner (Tensor.new d s)).oper .debug d m, [], [Tensor.new d s], [v], [Tensor.new d s], f, 1, none⟩]

/-- C35 is false of a node made of an owned tensor: for every shape that fits into the memory, a tensor that was not allocated is accepted
when the node is created; `forward` panics, but only after it has allocated the value of the node.  A second `forward` returns, and the value
is what the memory of the pool contained before. -/
theorem C35_owned_node_shows_stale_memory (d : Nat) {s : Shape} (hs : s.Reachable) (hsz : s.size ≤ 2 ^ 31) (m : Mem α) :
    ∃ (g g' : Graph (Tensor α)) (t : Tensor α), (NodeCall.ofOwned (Tensor.new d s)).run m [] = ok (g, [⟨0, 0, d⟩]) ∧ Prog g ∧
      Forward g 0 g' [0] panic ∧ (∃ g'', Forward g' 0 g'' [] (ok ())) ∧ (∀ g'' tr r, Forward g' 0 g'' tr r → r = ok () ∧ tr = [] ∧ g'' = g') ∧
      g'.val (0, 0) = ok t ∧ t.device = some d ∧ t.toVec .debug = ok ((List.range s.size).map (m 0)) := by
  obtain ⟨l, hl, hlen⟩ := newBuf_ok hs.wf.size_pos hsz (m 0)
  have hy : (Tensor.new d s : Tensor α).alloc .debug (m 0) = ok ⟨some d, s, some l, none⟩ := by
    rw [Tensor.alloc_new_eq, Shape.sizeU_eq hsz .debug, ok_bind, hl, ok_bind]
  have hrun : (NodeCall.ofOwned (Tensor.new d s)).run m [] = ok (ownedNull d s m (Tensor.new d s) false, [⟨0, 0, d⟩]) := rfl
  have hc : ∀ v f, (ownedNull d s m v f : Graph (Tensor α)).collect 0 = some [0] := fun _ _ => rfl
  have hpm : ∀ v f, (ownedNull d s m v f : Graph (Tensor α)).PopsMin [0] [0] := fun _ _ => ⟨List.Perm.refl _, by simp⟩
  have hleft : (NodeOp.inputOwner (Tensor.new d s)).left .debug d m [] [Tensor.new d s] = [(⟨some d, s, some l, none⟩ : Tensor α)] := by
    simp [NodeOp.left, at', hy]
  have hfw : (NodeOp.inputOwner (Tensor.new d s)).fw .debug d m [] [Tensor.new d s] = (Res.panic : Res (List (Tensor α))) := by
    simp only [NodeOp.fw, at', List.getElem?_cons_zero, ok_bind, hy]
    rfl
  have hf1 : Forward (ownedNull d s m (Tensor.new d s) false) 0 (ownedNull d s m ⟨some d, s, some l, none⟩ true) [0] Res.panic := by
    refine ⟨[0], [0], hc _ _, hpm _ _, ?_⟩
    have : fwOne (ownedNull d s m (Tensor.new d s) false) 0 = (ownedNull d s m ⟨some d, s, some l, none⟩ true, true, Res.panic) := by
      have e1 : (ownedNull d s m (Tensor.new d s) false : Graph (Tensor α))[0]? = some ⟨(NodeOp.inputOwner (Tensor.new d s)).oper .debug d m, [], [Tensor.new d s], [Tensor.new d s], [Tensor.new d s], false, 1, none⟩ := rfl
      unfold fwOne
      rw [e1]
      simp only [mapR, ok_bind, leftOf, NodeOp.oper, hfw, hleft]
      rfl
    simp only [fwRun, this]
    rfl
  have hone : fwOne (ownedNull d s m (⟨some d, s, some l, none⟩ : Tensor α) true) 0 = (ownedNull d s m ⟨some d, s, some l, none⟩ true, false, ok ()) := rfl
  refine ⟨_, _, ⟨some d, s, some l, none⟩, hrun, .call .start (c := .ofOwned (Tensor.new d s)) (Obtainable.new d hs) hrun, hf1, ⟨ownedNull d s m ⟨some d, s, some l, none⟩ true, [0], [0], hc _ _, hpm _ _, ?_⟩, ?_, rfl, rfl, ?_⟩
  · simp only [fwRun, hone]; rfl
  · rintro g'' tr r ⟨pushed, popped, h1, h2, h3⟩
    rw [hc] at h1
    obtain rfl := Option.some.inj h1
    obtain rfl := List.perm_singleton.mp h2.1
    simp only [fwRun, hone] at h3
    cases h3
    exact ⟨rfl, rfl, rfl⟩
  · have hb : l = (List.range l.length).map (m 0) := by
      unfold newBuf at hl
      split at hl
      · cases hl; simp
      · cases hl
    have hflat : Tensor.Flat (⟨some d, s, some l, none⟩ : Tensor α) d s (m 0) := by
      refine ⟨rfl, rfl, rfl, hs.wf, hsz, l, rfl, hlen, fun i hi => ?_⟩
      rw [hb, List.getElem?_map, List.getElem?_range (by omega)]; rfl
    exact hflat.toVec .debug

attribute [local instance] intFlt

/-- The hypotheses of `C35_panicking_operator_has_no_value` can be met: a `reshape` to a wrong size. -/
example : ∃ (g g' : Graph (Tensor ℤ)), Prog g ∧ 5 < g.length ∧ Forward g 5 g' ([0, 1, 2] ++ [5]) Res.panic :=
  ⟨exG54, fwd exG54 [0, 1, 2, 5], exG54_prog, by decide +kernel, Forward.mk' (pushed := [5, 2, 0, 1]) (by decide +kernel) (by decide +kernel) (by decide +kernel)⟩

/-- `x` never allocated, `x.split(0, 2)`. -/
def exG35 : Graph (Tensor ℤ) := runs [] [.ofTensor (Tensor.new 0 (vecShape 4 1)), .split ⟨0, 0, 0⟩ 0 2]

/-- And a `split` with two results. -/
example : ∃ (g' : Graph (Tensor ℤ)), Prog exG35 ∧ 1 < exG35.length ∧ Forward exG35 1 g' ([0] ++ [1]) Res.panic ∧ (g'.val (1, 1) >>= fun t => t.toVec .debug) = Res.panic := by
  refine ⟨fwd exG35 [0, 1], ?_, by decide +kernel, Forward.mk' (pushed := [1, 0]) (by decide +kernel) (by decide +kernel) (by decide +kernel), by decide +kernel⟩
  refine Prog.runs .start (fun c hc => ?_) (by decide +kernel)
  simp only [List.mem_cons, List.not_mem_nil, or_false] at hc
  rcases hc with rfl | rfl
  · exact Obtainable.new 0 (vecShape_reachable rfl)
  · trivial

/-- Instance of `C35_owned_node_shows_stale_memory`: two numbers of other computations. -/
example : ∃ (g g' : Graph (Tensor ℤ)) (t : Tensor ℤ), (NodeCall.ofOwned (Tensor.new 0 (vecShape 2 1))).run (fun _ i => (40 + i : ℤ)) [] = ok (g, [⟨0, 0, 0⟩]) ∧ Prog g ∧
    Forward g 0 g' [0] Res.panic ∧ (∃ g'', Forward g' 0 g'' [] (ok ())) ∧ g'.val (0, 0) = ok t ∧ t.toVec .debug = ok [40, 41] := by
  obtain ⟨g, g', t, h1, h2, h3, h4, _, h5, _, h6⟩ := C35_owned_node_shows_stale_memory 0 (vecShape_reachable (n := 2) (b := 1) rfl) (by decide) (fun _ i => (40 + i : ℤ))
  exact ⟨g, g', t, h1, h2, h3, h4, h5, by rw [h6]; rfl⟩

end Graph
end Verif
