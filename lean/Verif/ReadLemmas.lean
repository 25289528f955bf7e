import Verif.PropsGraph3
import Verif.GraphFin
import Verif.NodeRead

/-!
# Reading a node: operators with an argument that has no memory, and what the results of every operator of a program are
-/

set_option linter.unusedSectionVars false
set_option linter.unusedSimpArgs false

namespace Verif
open Res
variable {α : Type} [Flt α]

/-- A forward function that returns had only allocated operands. -/
theorem Dev.fw_buf {op : FwOp α} {d : Nat} {xs : List (Tensor α)} (hx : ∀ x, x ∈ xs → x.Fine) {m : Nat → α} {y : Tensor α}
    (hy : Dev.fw op .debug d m xs = ok y) : ∀ x, x ∈ xs → x.buf ≠ none := by
  have hg := Dev.fw_good (op := op) (p := .debug) hx (.inl rfl) d m
  obtain ⟨s, hs, _, _, _, _⟩ := hg.2 y hy
  have hwf : ∀ t, t ∈ xs.map Tensor.shape → t.WF := by
    intro t ht; obtain ⟨x, h1, rfl⟩ := List.mem_map.mp ht; exact (hx x h1).wf
  have hsw := FwOp.shape_wf hwf hs
  unfold Dev.fw at hy
  simp only [Res.bind_eq_ok] at hy
  obtain ⟨_, hd, s', hs', y0, ha, hk⟩ := hy
  rw [hs] at hs'; cases hs'
  obtain ⟨hsz, hroom⟩ := Tensor.alloc_new_imp hsw ha
  obtain ⟨ly, hly, _⟩ := hroom.buf
  intro x hxm hb
  by_cases har : op.arity = none
  · cases op
    case concat dim => exact K.concat_null (v := []) hxm hb y hk
    case batchConcat => exact K.batchConcat_null (u := []) (v := []) hxm hb y hk
    all_goals cases har
  · have := Good.eq_panic (d := d) (fun sh => FwOp.null_good (d := d) (sh := sh) (p := .debug) hs (y := y0) (by rw [hly]; simp) ⟨x, hxm, hb⟩ har)
    rw [this] at hk; cases hk

theorem TF.call_buf {op : FwOp α} {xs : List (Tensor α)} (hx : ∀ x, x ∈ xs → x.Fine) {m : Nat → α} {self y : Tensor α}
    (hy : TF.call op .debug m self xs = ok y) : ∀ x, x ∈ xs → x.buf ≠ none := by
  simp only [TF.call, Res.bind_eq_ok] at hy
  obtain ⟨d, _, hy⟩ := hy
  exact Dev.fw_buf hx hy

theorem TF.lnSoftmax_buf {x : Tensor α} (hx : x.Fine) {m : Mem α} {dim : Nat} {y : Tensor α} (hy : TF.lnSoftmax .debug m x dim = ok y) : x.buf ≠ none := by
  simp only [TF.lnSoftmax, Res.bind_eq_ok] at hy
  obtain ⟨a, ha, _⟩ := hy
  exact TF.call_buf (xs := [x]) (by simpa using hx) ha x (by simp)

theorem TF.mul_buf {x y z : Tensor α} (hx : x.Fine) (hy : y.Fine) {m : Nat → α} (h : TF.mul .debug m x y = ok z) : x.buf ≠ none ∧ y.buf ≠ none := by
  simp only [TF.mul, TF.abOp] at h
  split at h
  · have := TF.call_buf (by simpa using ⟨hy, hx⟩) h
    exact ⟨this x (by simp), this y (by simp)⟩
  · split at h
    · have := TF.call_buf (by simpa using ⟨hx, hy⟩) h
      exact ⟨this x (by simp), this y (by simp)⟩
    · have := TF.call_buf (by simpa using ⟨hx, hy⟩) h
      exact ⟨this x (by simp), this y (by simp)⟩

namespace NodeOp

theorem apply1_null {V : Tensor α → Prop} {op : NodeOp α} {d : Nat} {m : Mem α} {xs : List (Tensor α)} (hj : op.Joined V xs.length) (hx : ∀ x ∈ xs, x.Fine)
    {x : Tensor α} (hm : x ∈ xs) (hb : x.buf = none) : ∀ t, op.apply1 .debug d m xs ≠ ok t := by
  intro t ht
  have hxf := hx x hm
  have one : xs.length ≤ 1 → xs = [x] := by
    intro h
    match xs, hm, h with
    | [a], hm, _ => simp at hm; rw [hm]
  have fw1 : ∀ (f : FwOp α) (k : Nat) (z : Tensor α), Dev.fw f .debug d (m k) [x] ≠ ok z := fun f k z h => Dev.fw_buf (by simpa using hxf) h x (by simp) hb
  have call1 : ∀ (f : FwOp α) (k : Nat) (z : Tensor α), TF.call f .debug (m k) x [x] ≠ ok z := fun f k z h => TF.call_buf (by simpa using hxf) h x (by simp) hb
  have two : ∀ {B : Type} {f : Tensor α → Tensor α → Res B} {r : B}, xs.length ≤ 2 → (do let a ← Graph.at' xs 0; let b ← Graph.at' xs 1; f a b) = ok r →
      ∃ a b, a.Fine ∧ b.Fine ∧ (x = a ∨ x = b) ∧ f a b = ok r := by
    intro B f r hl h
    match xs, hm, hl, hx with
    | [a], _, _, _ => cases h
    | [a, b], hm, _, hx =>
      refine ⟨a, b, hx a (by simp), hx b (by simp), by simpa using hm, h⟩
  have fw2 : ∀ (f : FwOp α) (r : Tensor α), xs.length ≤ 2 → (do let a ← Graph.at' xs 0; let b ← Graph.at' xs 1; Dev.fw f .debug d (m 0) [a, b]) ≠ ok r := by
    intro f r hl h
    obtain ⟨a, b, ha, hb', hab, h⟩ := two hl h
    have := Dev.fw_buf (by simpa using ⟨ha, hb'⟩) h
    rcases hab with rfl | rfl
    · exact this _ (by simp) hb
    · exact this _ (by simp) hb
  cases op with
  | input v => cases ht
  | inputOwner v => cases ht
  | parameter v => cases ht
  | bi b => exact fw2 _ _ hj ht
  | sc b => exact fw2 _ _ hj ht
  | matmul => exact fw2 _ _ hj ht
  | concat dim => exact Dev.fw_buf hx ht x hm hb
  | batchConcat => exact Dev.fw_buf hx ht x hm hb
  | softmaxCrossEntropy dim =>
    obtain ⟨a, b, ha, hb', hab, h⟩ := two hj ht
    simp only [TF.softmaxCrossEntropy, Res.bind_eq_ok] at h
    obtain ⟨l, hl, c, hc, _⟩ := h
    rcases hab with rfl | rfl
    · exact TF.lnSoftmax_buf ha hl hb
    · exact (TF.mul_buf hb' ((TF.lnSoftmax_gives (Like.self ha)).fine.2 l hl) hc).1 hb
  | sparseSoftmaxCrossEntropy ids dim =>
    rw [one hj] at ht
    simp only [NodeOp.apply1, Graph.at', List.getElem?_cons_zero, ok_bind, TF.sparseSoftmaxCrossEntropy, Res.bind_eq_ok] at ht
    obtain ⟨l, hl, _⟩ := ht
    exact TF.lnSoftmax_buf hxf hl hb
  | reshape s =>
    rw [one hj] at ht
    simp only [NodeOp.apply1, Graph.at', List.getElem?_cons_zero, ok_bind, Dev.copyTensor, Dev.resetTensorByTensor, Res.bind_eq_ok, check_eq_ok] at ht
    obtain ⟨_, ⟨_, _, _, _, _, h, _⟩, _⟩ := ht
    simp [Tensor.valid, hb] at h
  | split dim n => cases ht
  | batchSplit n => cases ht
  | cn c k =>
    rw [one hj] at ht
    cases c <;> exact fw1 _ _ _ ht
  | pick ids dim => rw [one hj] at ht; exact call1 _ _ _ ht
  | batchPick ids => rw [one hj] at ht; exact call1 _ _ _ ht
  | _ => rw [one hj] at ht; exact fw1 _ _ _ ht

/-- An operator whose argument has no memory panics. -/
theorem null_fails {V : Tensor α → Prop} {op : NodeOp α} {d : Nat} {m : Mem α} {xs ys : List (Tensor α)} (hj : op.Joined V xs.length) (hx : ∀ x ∈ xs, x.Fine)
    {x : Tensor α} (hm : x ∈ xs) (hb : x.buf = none) : ∀ zs, op.fw .debug d m xs ys ≠ ok zs := by
  intro zs hz
  have hxf := hx x hm
  have nil : xs.length = 0 → False := fun h => by rw [List.length_eq_zero_iff.mp h] at hm; cases hm
  have one : xs.length ≤ 1 → xs = [x] := by
    intro h
    match xs, hm, h with
    | [a], hm, _ => simp at hm; rw [hm]
  have parts : ∀ {n : Nat} {f : Nat → FwOp α} {zs : List (Tensor α)}, n ≠ 0 →
      loop n (fun i ys => do let t ← Dev.fw (f i) .debug d (m i) [x]; put ys i t) ys ≠ ok zs := by
    intro n f zs hn h
    obtain ⟨a, b, h⟩ := loop_ok_body h 0 (by omega)
    rw [Res.bind_eq_ok] at h
    obtain ⟨t, ht, _⟩ := h
    exact Dev.fw_buf (by simpa using hxf) ht x (by simp) hb
  cases op with
  | input v => exact nil hj
  | inputOwner v => exact nil hj.1
  | parameter v => exact nil hj
  | split dim n =>
    rw [one hj] at hz
    simp only [NodeOp.fw, Graph.at', List.getElem?_cons_zero, ok_bind] at hz
    obtain ⟨hn, hz⟩ := check_bind_ok.mp hz
    exact parts hn hz
  | batchSplit n =>
    rw [one hj] at hz
    simp only [NodeOp.fw, Graph.at', List.getElem?_cons_zero, ok_bind] at hz
    obtain ⟨hn, hz⟩ := check_bind_ok.mp hz
    exact parts hn hz
  | _ =>
    simp only [NodeOp.fw, Res.bind_eq_ok] at hz
    obtain ⟨t, ht, _⟩ := hz
    exact apply1_null hj hx hm hb t ht

/-- The node of an owned tensor that has values: when `forward` fails there was no memory. -/
theorem owned_returns {v : Tensor α} (hv : v.Fine) (hd : v.device ≠ none) (hb : v.buf ≠ none) {d : Nat} {m : Mem α} {xs : List (Tensor α)} :
    ∃ ys, (NodeOp.inputOwner v).fw .debug d m xs [Tensor.new d v.shape] = ok ys := by
  obtain ⟨l, hl⟩ := Option.ne_none_iff_exists'.mp hb
  obtain ⟨e, he⟩ := Option.ne_none_iff_exists'.mp hd
  obtain ⟨h1, h2⟩ := hv.buf l hl
  obtain ⟨y, hy, hroom⟩ := Tensor.alloc_new hv.wf h1 .debug d (m 0)
  obtain ⟨f, hf⟩ := hv.holds he hl
  obtain ⟨ly, hly, _⟩ := hroom.buf
  obtain ⟨g, hg⟩ := hroom.fine.holds hroom.device hly
  rw [hroom.shape] at hg
  obtain ⟨z, hz, _⟩ := Dev.resetByTensor_ok hf hg rfl .debug
  refine ⟨[z], ?_⟩
  simp only [NodeOp.fw, Graph.at', List.getElem?_cons_zero, ok_bind, hy, Tensor.dev, unwrap, hroom.device, hz]
  rfl

end NodeOp

namespace Graph

theorem _root_.Verif.Prog.Steps.prog {P : NodeCall α → Prop} {g0 g : Graph (Tensor α)} (h : Prog.Steps P g0 g) (h0 : Prog g0) : Prog g := by
  induction h with
  | refl => exact h0
  | call _ hc _ e ih => exact .call ih hc e
  | forward _ hf ih => exact .forward ih hf
  | backward _ hone hb ih => exact .backward ih hone hb
  | backwardPanic _ hf hb hd ih => exact .backwardPanic ih hf hb hd

/-- Operators are never removed or changed. -/
theorem _root_.Verif.Prog.Steps.sameOps {P : NodeCall α → Prop} {g0 g : Graph (Tensor α)} (h : Prog.Steps P g0 g) (h0 : Prog g0) :
    g0.length ≤ g.length ∧ SameOps g0.length g0 g := by
  have hfw : ∀ {g g' : Graph (Tensor α)} {root : Nat} {tr : List Nat} {r : Res Unit}, Prog g → Forward g root g' tr r →
      g'.length = g.length ∧ ∀ n, SameOps n g g' := by
    intro g g' root tr r hp hf
    by_cases hr : root < g.length
    · obtain ⟨tr0, hinv⟩ := hp.kept.inv
      obtain ⟨_, _, _, _, _, hran, _⟩ := forward_spec hinv hr hf
      exact ⟨hran.len, hran.same⟩
    · obtain ⟨rfl, _, _⟩ := forward_out (by omega) hf
      exact ⟨rfl, fun n => SameOps.refl n _⟩
  induction h with
  | refl => exact ⟨Nat.le_refl _, SameOps.refl _ _⟩
  | @call g g' c m ns hs hc hp e ih =>
    have hm := NodeCall.makes hc.fineArgs m g
    rw [e] at hm
    cases hm with
    | fails _ h => exact absurd rfl (h _)
    | @create op d sink args g2 ns2 e2 h1 h2 h3 h4 =>
      cases e2
      simp only [Graph.create, Res.bind_eq_ok, Res.ok.injEq] at h3
      obtain ⟨_, _, _, _, rfl⟩ := h3
      refine ⟨by simp; omega, ih.2.trans fun i hi => ?_⟩
      rw [List.getElem?_append_left (by omega)]
  | forward hs hf ih =>
    obtain ⟨e1, e2⟩ := hfw (hs.prog h0) hf
    exact ⟨by omega, ih.2.trans (e2 _)⟩
  | @backward g g' m0 root tr popped hs hone hb ih =>
    obtain ⟨g1, r1, hf, hb | hb | hb⟩ := hb
    · obtain ⟨rfl, hb⟩ := hb
      obtain ⟨e1, e2⟩ := hfw (hs.prog h0) hf
      by_cases hr : root < g.length
      · obtain ⟨tr0, hinv⟩ := (hs.prog h0).kept.inv
        obtain ⟨h1, _⟩ := forward_spec hinv hr hf
        have hsv := (backward_spec h1.wf (by rw [e1]; exact hr) hb).2.2.2.same
        exact ⟨by rw [← hsv.1]; omega, (ih.2.trans (e2 _)).trans (hsv.same _)⟩
      · have := (forward_out (by omega) hf).2.2
        cases this
    · cases hb.2.1
    · cases hb.2.1
  | backwardPanic hs hf hb hd ih =>
    obtain ⟨e1, e2⟩ := hfw (hs.prog h0) hf
    exact ⟨by rw [hd.1]; omega, (ih.2.trans (e2 _)).trans (hd.sameValues.same _)⟩

/-- What is known of the graph of a program, with the number of arguments of every operator. -/
theorem _root_.Verif.Prog.Steps.joined {V : Tensor α → Prop} {P : NodeCall α → Prop} (hPV : ∀ t, P (.ofOwned t) → V t) {g0 g : Graph (Tensor α)}
    (h0 : Prog g0) (hj0 : ∃ ops D, GFine ops D g0 ∧
      ∀ (i : Nat) (o : OpInfo (Tensor α)) (op : NodeOp α), g0[i]? = some o → ops[i]? = some op → op.Joined V o.args.length)
    (h : Prog.Steps P g0 g) : ∃ ops D, GFine ops D g ∧
    ∀ (i : Nat) (o : OpInfo (Tensor α)) (op : NodeOp α), g[i]? = some o → ops[i]? = some op → op.Joined V o.args.length := by
  have hsame : ∀ {ops : List (NodeOp α)} {g g' : Graph (Tensor α)}, (∀ n, SameOps n g g') →
      (∀ (i : Nat) (o : OpInfo (Tensor α)) (op : NodeOp α), g[i]? = some o → ops[i]? = some op → op.Joined V o.args.length) →
      ∀ (i : Nat) (o : OpInfo (Tensor α)) (op : NodeOp α), g'[i]? = some o → ops[i]? = some op → op.Joined V o.args.length := by
    intro ops g g' hs hj i o op hi hop
    obtain ⟨o', ho', _, h2, _⟩ := (hs (i + 1)).symm.some (Nat.lt_succ_self i) hi
    rw [← h2]
    exact hj i o' op ho' hop
  have hfw : ∀ {g g' : Graph (Tensor α)} {root : Nat} {tr : List Nat} {r : Res Unit}, Prog g → Forward g root g' tr r →
      ∀ n, SameOps n g g' := by
    intro g g' root tr r hp hf
    by_cases hr : root < g.length
    · obtain ⟨tr0, hinv⟩ := hp.kept.inv
      obtain ⟨_, _, _, _, _, hran, _⟩ := forward_spec hinv hr hf
      exact hran.same
    · obtain ⟨rfl, _, _⟩ := forward_out (by omega) hf
      exact fun n => SameOps.refl n _
  induction h with
  | refl => exact hj0
  | @call g g' c m ns hs hc hP e ih =>
    obtain ⟨ops, D, hg, hj⟩ := ih
    have hm := NodeCall.makesV (V := V) hc.fineArgs (fun t e => hPV t (by rw [← e]; exact hP)) m g
    rw [e] at hm
    cases hm with
    | fails _ h => exact absurd rfl (h _)
    | @create op d sink args g2 ns2 e2 h1 h2 h3 h4 =>
      cases e2
      have hx : ∃ xs, mapR g.val args = ok xs := by
        simp only [Graph.create, Res.bind_eq_ok] at h3
        obtain ⟨xs, hxs, _⟩ := h3
        exact ⟨xs, hxs⟩
      obtain ⟨xs, hxs⟩ := hx
      obtain ⟨outs, ho⟩ := hg.create hxs h1 h2 h3
      refine ⟨_, _, ho, fun i o op' hi hop => ?_⟩
      simp only [Graph.create, Res.bind_eq_ok, Res.ok.injEq] at h3
      obtain ⟨_, _, ss, _, rfl⟩ := h3
      have hl := hg.len; have hl' := hg.len'
      by_cases hig : i < g.length
      · rw [List.getElem?_append_left hig] at hi
        rw [List.getElem?_append_left (by omega)] at hop
        exact hj i o op' hi hop
      · have hl : i = g.length := by have := mem_lt hi; simp at this; omega
        subst hl
        simp at hi
        subst hi
        rw [show g.length = ops.length by omega] at hop
        simp at hop
        subst hop
        exact h4
  | @forward g g' root tr r hs hf ih =>
    obtain ⟨ops, D, hg, hj⟩ := ih
    exact ⟨ops, D, (forward_fine hg hf).1, hsame (hfw (hs.prog h0) hf) hj⟩
  | @backward g g' m0 root tr popped hs hone hb ih =>
    obtain ⟨ops, D, hg, hj⟩ := ih
    obtain ⟨g1, r1, hf, hb | hb | hb⟩ := hb
    · obtain ⟨rfl, hb⟩ := hb
      refine ⟨ops, D, (backwardOnly_fine (forward_fine hg hf).1 (oneId_of hg hone) hb).2 g' rfl, hsame ?_ (hsame (hfw (hs.prog h0) hf) hj)⟩
      by_cases hr : root < g.length
      · obtain ⟨tr0, hinv⟩ := (hs.prog h0).kept.inv
        obtain ⟨h1, _, _, _, _, hran, _⟩ := forward_spec hinv hr hf
        exact (backward_spec h1.wf (by rw [hran.len]; exact hr) hb).2.2.2.same.same
      · have := (forward_out (by omega) hf).2.2
        cases this
    · cases hb.2.1
    · cases hb.2.1
  | @backwardPanic g g1 g' m0 root tr popped hs hf hb hd ih =>
    obtain ⟨ops, D, hg, hj⟩ := ih
    exact ⟨ops, D, hd.fine (forward_fine hg hf).1, hsame hd.sameValues.same (hsame (hfw (hs.prog h0) hf) hj)⟩

theorem _root_.Verif.Prog.settled {g : Graph (Tensor α)} (h : Prog g) : Settled g := by
  induction h with
  | start => intro i o h; simp at h
  | @call g g' c m ns _ hc e ih =>
    have hm := NodeCall.makes hc.fineArgs m g
    rw [e] at hm
    cases hm with
    | fails _ h => exact absurd rfl (h _)
    | @create op d sink args g2 ns2 e2 h1 h2 h3 h4 =>
      cases e2
      exact create_settled ih h3
  | @forward g g' root tr r hp hf ih =>
    by_cases hr : root < g.length
    · obtain ⟨tr0, hinv⟩ := hp.kept.inv
      exact forward_settled hinv ih hr hf
    · obtain ⟨rfl, _, _⟩ := forward_out (by omega) hf
      exact ih
  | @backward g g' m0 root tr popped hp hone hb ih =>
    obtain ⟨g1, r1, hf, hb | hb | hb⟩ := hb
    · obtain ⟨rfl, hb⟩ := hb
      by_cases hr : root < g.length
      · obtain ⟨tr0, hinv⟩ := hp.kept.inv
        obtain ⟨h1, _, _, _, _, hran, _⟩ := forward_spec hinv hr hf
        exact (backward_spec h1.wf (by rw [hran.len]; exact hr) hb).2.2.2.same.settled (forward_settled hinv ih hr hf)
      · have := (forward_out (by omega) hf).2.2
        cases this
    · cases hb.2.1
    · cases hb.2.1
  | @backwardPanic g g1 g' m0 root tr popped hp hf hb hd ih =>
    by_cases hr : root < g.length
    · obtain ⟨tr0, hinv⟩ := hp.kept.inv
      exact hd.sameValues.settled (forward_settled hinv ih hr hf)
    · have := (forward_out (by omega) hf).2.2
      cases this

/-- The results of an operator are fine tensors of the shapes it was created with. -/
theorem fin_fits {ops : List (NodeOp α)} {D : List (List Shape)} {g : Graph (Tensor α)} (h : GFine ops D g) (i : Nat) (outs : List Shape)
    (hD : D[i]? = some outs) : Fits outs (fin g i) := by
  induction i using Nat.strongRecOn generalizing outs with
  | _ i ih =>
    have hi : i < g.length := by rw [h.len]; exact (List.getElem?_eq_some_iff.mp hD).1
    obtain ⟨op, outs', _, hD', hof⟩ := h.at' i g[i] (List.getElem?_eq_getElem hi)
    rw [hD] at hD'
    obtain rfl := Option.some.inj hD'
    obtain ⟨d, m, ho⟩ := hof.oper
    obtain ⟨ss, e1, e2, e3, e4⟩ := hof.args
    rw [fin_some (List.getElem?_eq_getElem hi)]
    split
    · rename_i xs hxs
      have hx : ∀ x ∈ xs, x.Fine := by
        refine mapR_all hxs fun a b hb => ?_
        split at hb
        · rename_i hlt
          have hl : a.1 < D.length := by rw [← h.len]; omega
          exact (ih a.1 hlt _ (List.getElem?_eq_getElem hl)).2 b (List.mem_of_getElem? (at'_eq_ok.mp hb))
        · cases hb
      rw [ho]
      have hg := NodeOp.fw_good (d := d) e2 hx hof.init.2 m
      split
      · rename_i ys hys
        obtain ⟨f1, f2, -⟩ := hg.2 ys hys
        exact ⟨f2.trans hof.init.1, f1⟩
      · obtain ⟨f1, f2, -⟩ := (NodeOp.left_good (d := d) op hx hof.init.2 m).2 _ rfl
        exact ⟨f2.trans hof.init.1, f1⟩
    · exact hof.init

/-- In the graph of a program in which the owned tensors have values: an expression has a value, which its operator stores when it is run;
or it panics, and the operator leaves its results without memory. -/
theorem fin_or_init {g : Graph (Tensor α)} (hsteps : Prog.Steps NodeCall.OwnsValues [] g) (i : Nat) (o : OpInfo (Tensor α)) (hio : g[i]? = some o) : den g i = ok (fin g i) ∨ (den g i = panic ∧ fin g i = o.init) := by
  have h : Prog g := hsteps.prog .start
  obtain ⟨ops, D, hg, hj⟩ := Prog.Steps.joined (V := fun t => t.valid = true) (fun t (h : NodeCall.OwnsValues _) => h t rfl) .start
    ⟨[], [], ⟨rfl, rfl, fun i o h => by cases h⟩, fun i o op h => by cases h⟩ hsteps
  obtain ⟨tr, hinv⟩ := h.kept.inv
  induction i using Nat.strongRecOn generalizing o with
  | _ i ih =>
    obtain ⟨op, outs, hop, hD, hof⟩ := hg.at' i o hio
    obtain ⟨d, m, ho⟩ := hof.oper
    obtain ⟨ss, e1, e2, e3, e4⟩ := hof.args
    have hargs := hinv.wf.args i o hio
    -- the arguments
    have hlen : ∀ a ∈ o.args, ∃ t, (if _h : a.1 < i then at' (fin g a.1) a.2 else panic) = ok t := by
      intro a ha
      obtain ⟨hlt, o', ho', hv, _⟩ := hargs a ha
      rw [dif_pos hlt]
      rw [← fin_length ho'] at hv
      exact ⟨(fin g a.1)[a.2], at'_eq_ok.mpr (List.getElem?_eq_getElem hv)⟩
    obtain ⟨xs, hxs⟩ := mapR_ok hlen
    have hfits : ∀ a b, (if _h : a.1 < i then at' (fin g a.1) a.2 else panic) = ok b → b.Fine ∧ look D a = ok b.shape := by
      intro a b hb
      split at hb
      · rename_i hlt
        have hl : a.1 < D.length := by rw [← hg.len]; have := mem_lt hio; omega
        obtain ⟨f1, f2⟩ := (fin_fits hg a.1 _ (List.getElem?_eq_getElem hl)).get (at'_eq_ok.mp hb)
        exact ⟨f1, by simp only [look, at'_eq_ok.mpr (List.getElem?_eq_getElem hl), ok_bind]; exact at'_eq_ok.mpr f2⟩
      · cases hb
    have hx : ∀ x ∈ xs, x.Fine := mapR_all hxs fun a b hb => (hfits a b hb).1
    have hss : ss = xs.map Tensor.shape := by
      have := mapR_map hxs (h := look D) (k := Tensor.shape) fun a _ b hb => (hfits a b hb).2
      rw [e1] at this
      exact Res.ok.inj this
    subst hss
    have hjo := hj i o op hio hop
    rw [← mapR_length hxs] at hjo
    have hinit : o.init = outs.map (Tensor.new d) := by
      obtain ⟨ss0, hinit⟩ := h.kept.init i o hio
      rw [ho] at hinit
      have hinit : o.init = ss0.map (Tensor.new d) := hinit
      have : ss0 = outs := by
        have := hof.init.1
        rw [hinit, List.map_map] at this
        rw [← this]
        conv_lhs => rw [← List.map_id ss0]
        rfl
      rw [hinit, this]
    -- when `forward` fails it leaves the results as they were
    have hleft : (∀ ys, o.oper.fw xs o.init ≠ ok ys) → o.oper.left xs o.init = o.init := by
      intro hno
      rw [ho] at hno ⊢
      rw [hinit] at hno ⊢
      by_cases hio' : ∃ v, op = .inputOwner v
      · obtain ⟨v, rfl⟩ := hio'
        have hv := hjo.2.2
        exfalso
        cases e4
        obtain ⟨ys, hys⟩ := NodeOp.owned_returns (d := d) (m := m) (xs := xs) (show v.Fine from e2) hjo.2.1 (fun e => by simp [Tensor.valid, e] at hv)
        exact hno ys hys
      · exact NodeOp.left_init (fun v e => hio' ⟨v, e⟩) hx e4 hno
    have hfin : fin g i = match o.oper.fw xs o.init with
        | .ok ys => ys
        | _ => o.oper.left xs o.init := by
      rw [fin_some hio, hxs]
      cases hr : o.oper.fw xs o.init <;> simp only [hr]
    by_cases hall : ∀ a ∈ o.args, ∃ zs, den g a.1 = ok zs
    · have hden : den g i = o.oper.fw xs o.init := by
        have e : mapR (fun a => if _h : a.1 < i then (do let ys ← den g a.1; at' ys a.2) else panic) o.args = ok xs := by
          rw [← hxs]
          apply mapR_congr
          intro a ha
          have hlt := (hargs a ha).1
          obtain ⟨zs, hz⟩ := hall a ha
          rw [dif_pos hlt, dif_pos hlt, hz, ok_bind, fin_of_den hinv.wf hz]
        rw [den_some hio, e, ok_bind]

      rw [hden, hfin]
      cases hr : o.oper.fw xs o.init with
      | ok ys => exact .inl rfl
      | panic => exact .inr ⟨rfl, hleft fun ys e => by rw [hr] at e; cases e⟩
      | ub =>
        have := (NodeOp.fw_good (d := d) e2 hx hof.init.2 m).1
        rw [ho] at hr
        exact absurd hr this
    · push Not at hall
      obtain ⟨a, ha, hnot⟩ := hall
      obtain ⟨hlt, o', ho', hv, _⟩ := hargs a ha
      have hfa := (ih a.1 hlt o' ho').resolve_left (hnot _)
      -- this argument has no memory
      obtain ⟨k, hk⟩ := List.getElem?_of_mem ha
      obtain ⟨t, ht1, ht2⟩ := mapR_get hxs hk
      rw [dif_pos hlt, hfa.2] at ht2
      have hnull : t.buf = none := by
        obtain ⟨ss0, hi0⟩ := h.kept.init a.1 o' ho'
        obtain ⟨op', outs', _, _, hof'⟩ := hg.at' a.1 o' ho'
        obtain ⟨d', m', ho''⟩ := hof'.oper
        rw [ho''] at hi0
        rw [hi0] at ht2
        have := List.mem_of_getElem? (at'_eq_ok.mp ht2)
        obtain ⟨s, _, rfl⟩ := List.mem_map.mp this
        rfl
      have hno : ∀ ys, o.oper.fw xs o.init ≠ ok ys := by
        rw [ho]
        exact NodeOp.null_fails hjo hx (List.mem_of_getElem? ht1) hnull
      refine .inr ⟨?_, ?_⟩
      · have hsafe : (mapR (fun a => if _h : a.1 < i then (do let ys ← den g a.1; at' ys a.2) else panic) o.args).Safe := by
          refine mapR_safe fun b hb => ?_
          obtain ⟨hlt, o', ho', _⟩ := hargs b hb
          rw [dif_pos hlt]
          refine Res.Safe.bind ?_ fun _ _ => at_safe _ _
          rcases ih b.1 hlt o' ho' with e | e
          · rw [e]; exact safe_ok _
          · rw [e.1]; exact safe_panic
        rw [den_some hio]
        cases hm : mapR (fun a => if _h : a.1 < i then (do let ys ← den g a.1; at' ys a.2) else panic) o.args with
        | panic => rfl
        | ub => exact absurd hm hsafe
        | ok zs =>
          obtain ⟨b, hb⟩ := mapR_mem hm ha
          rw [dif_pos hlt, hfa.1] at hb
          cases hb
      · rw [hfin]
        cases hr : o.oper.fw xs o.init with
        | ok ys => exact absurd hr (hno ys)
        | panic => exact hleft hno
        | ub => exact hleft hno

end Graph
end Verif
