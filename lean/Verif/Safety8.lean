import Verif.Safety7
import Verif.DevFw3

/-!
# Memory safety of `backward` of the operators of the library
-/

set_option linter.unusedSectionVars false

namespace Verif
open Res
variable {α : Type} [Flt α] {d : Nat}

theorem Dev.un_gives {u : Un} {m : Nat → α} {x : Tensor α} {f : Nat → Nat} {B : Nat} (hx : Like f B x) :
    Gives f B (Dev.fw (.un u) .debug d m [x]) := by
  have h := Dev.fw_good (op := .un u) (p := .debug) (xs := [x]) (by simpa using hx.fine) (.inl rfl) d m
  refine ⟨h.1, fun y hy => ?_⟩
  obtain ⟨s, h1, h2, _, h4, _⟩ := h.2 y hy
  have h1 : ok x.shape = ok s := h1
  cases h1
  exact ⟨h2, fun i => by rw [h4, hx.dims], by rw [h4]; exact hx.batch⟩

theorem dimOf_safe (x : Tensor α) (dim : Nat) : (NodeOp.dimOf x dim).Safe := ix_safe _ _

theorem dimOf_get {x : Tensor α} {dim n : Nat} (h : NodeOp.dimOf x dim = ok n) : n = x.shape.get dim := by
  unfold NodeOp.dimOf ix Shape.dimsSlice at h
  by_cases hd : dim < x.shape.depth
  · unfold Shape.get
    rw [if_pos hd]
    cases hg : x.shape.dims[dim]? with
    | none => rw [List.getElem?_take_of_lt hd, hg] at h; cases h
    | some a =>
      rw [List.getElem?_take_of_lt hd, hg] at h
      cases h
      simp [Shape.raw, List.getD_eq_getElem?_getD, hg]
  · rw [List.getElem?_eq_none (by rw [List.length_take]; omega)] at h
    cases h

/-- The operators with a scalar: both arguments and the result have the same dimensions. -/
theorem NodeOp.sc_keeps {s : Sc} {m : Mem α} {xs ys gys : List (Tensor α)} {f : Nat → Nat} {B : Nat} {ss : List Shape}
    (hx : ∀ x ∈ xs.take 2, Like f B x) (hy : ∀ y ∈ ys.take 1, Like f B y) (hg : ∀ y ∈ gys.take 1, Like f B y)
    {u : Nat × (Tensor α → Res (Tensor α))} (hu : u ∈ (NodeOp.sc s : NodeOp α).bw .debug d m xs ys gys ss) {gx : Tensor α} (hgx : Like f B gx) :
    KeepsT gx (u.2 gx) := by
  have tk : ∀ {l : List (Tensor α)} {n i : Nat} {x : Tensor α}, i < n → Graph.at' l i = ok x → x ∈ l.take n := by
    intro l n i x hi h
    rw [Graph.at'_eq_ok] at h
    exact List.mem_of_getElem? (i := i) (by rw [List.getElem?_take_of_lt hi]; exact h)
  have hX : ∀ {k : Tensor α → Res (Tensor α)} (i : Nat), i < 2 → (∀ x, Like f B x → KeepsT gx (k x)) → KeepsT gx (Graph.at' xs i >>= k) :=
    fun i hi h => KeepsT.bind (at_safe _ _) fun x e => h x (hx x (tk hi e))
  have hY : ∀ {k : Tensor α → Res (Tensor α)}, (∀ x, Like f B x → KeepsT gx (k x)) → KeepsT gx (Graph.at' ys 0 >>= k) :=
    fun h => KeepsT.bind (at_safe _ _) fun x e => h x (hy x (tk (by omega) e))
  have hG : ∀ {k : Tensor α → Res (Tensor α)}, (∀ x, Like f B x → KeepsT gx (k x)) → KeepsT gx (Graph.at' gys 0 >>= k) :=
    fun h => KeepsT.bind (at_safe _ _) fun x e => h x (hg x (tk (by omega) e))
  have hadd : ∀ t, Like f B t → KeepsT gx (TF.addAssign .debug gx t) := fun t ht => TF.addAssign_keeps hgx ht
  have hsub : ∀ t, Like f B t → KeepsT gx (TF.subAssign .debug gx t) := fun t ht => TF.subAssign_keeps hgx ht
  have hadd1 : ∀ t, Like (fun _ => 1) B t → KeepsT gx (TF.addAssign .debug gx t) := fun t ht => TF.addAssign_keeps' hgx ht
  have hsub1 : ∀ t, Like (fun _ => 1) B t → KeepsT gx (TF.subAssign .debug gx t) := fun t ht => TF.subAssign_keeps' hgx ht
  cases s <;> simp only [NodeOp.bw, List.mem_cons, List.not_mem_nil, or_false] at hu <;> rcases hu with rfl | rfl
  · exact hG fun g h => hadd _ h
  · exact hG fun g h => (NodeOp.total_gives h).then hadd1
  · exact hG fun g h => hsub _ h
  · exact hG fun g h => (NodeOp.total_gives h).then hadd1
  · exact hG fun g h => hadd _ h
  · exact hG fun g h => (NodeOp.total_gives h).then hsub1
  · exact hX 1 (by omega) fun k hk => hG fun g h => (TF.abOp_gives hk h).then hadd
  · exact hX 0 (by omega) fun k hk => hG fun g h => (TF.abOp_gives hk h).then fun t ht => (NodeOp.total_gives ht).then hadd1
  · exact hX 0 (by omega) fun k hk => hY fun y hy => hG fun g h => (TF.abOp_gives h hk).then fun a ha => (TF.abOp_gives ha hy).then hsub
  · exact hX 0 (by omega) fun k hk => hG fun g h => (TF.abOp_gives h hk).then fun a ha => (NodeOp.total_gives ha).then hadd1
  · exact hX 1 (by omega) fun k hk => hG fun g h => (TF.abOp_gives h hk).then hadd
  · exact hX 1 (by omega) fun k hk => hY fun y hy => hG fun g h => (TF.abOp_gives h hk).then fun a ha => (TF.abOp_gives ha hy).then fun t ht =>
      (NodeOp.total_gives ht).then hsub1
  · exact hX 1 (by omega) fun k hk => hY fun y hy => hG fun g h => (TF.abOp_gives h hy).then fun a ha => (TF.un_gives hk).then fun l hl =>
      (TF.abOp_gives ha hl).then hadd
  · exact hX 0 (by omega) fun x hx => hX 1 (by omega) fun k hk => hY fun y hy => hG fun g h => (TF.abOp_gives h hy).then fun a ha =>
      (TF.abOp_gives ha hx).then fun t ht => (TF.abOp_gives ht hk).then fun t ht => (NodeOp.total_gives ht).then hadd1
  · exact hX 0 (by omega) fun x hx => hX 1 (by omega) fun k hk => hY fun y hy => hG fun g h => (TF.abOp_gives h hy).then fun a ha =>
      (TF.abOp_gives ha hk).then fun t ht => (TF.abOp_gives ht hx).then hadd
  · exact hX 0 (by omega) fun x hx => hY fun y hy => hG fun g h => (TF.abOp_gives h hy).then fun a ha => (TF.un_gives hx).then fun l hl =>
      (TF.abOp_gives ha hl).then fun t ht => (NodeOp.total_gives ht).then hadd1

theorem map_at {β γ : Type} {f : β → γ} {l : List β} {l' : List γ} (h : l.map f = l') {i : Nat} {a : β} (ha : Graph.at' l i = ok a) : l'[i]? = some (f a) := by
  rw [Graph.at'_eq_ok] at ha
  rw [← h, List.getElem?_map, ha]; rfl

theorem at_of {β : Type} {l : List β} {i : Nat} {a b : β} (h : Graph.at' l i = ok a) (h' : l[i]? = some b) : a = b := by
  rw [Graph.at'_eq_ok] at h
  rw [h] at h'; exact Option.some.inj h'

theorem nth_of {ss : List Shape} {i : Nat} {s : Shape} (h : ss[i]? = some s) : nth ss i = s := by
  unfold nth; rw [List.getD_eq_getElem?_getD, h]; rfl

theorem TF.slice_gives {m : Nat → α} {x : Tensor α} {dim lo hi : Nat} {f : Nat → Nat} {B : Nat} (hx : Like f B x) :
    Gives (setC f dim (hi - lo)) B (TF.slice .debug m x dim lo hi) := by
  refine TF.call_gives (by simpa using hx.fine) fun s hs => ?_
  obtain ⟨_, _, _, h⟩ := (Shape.slice_iff hx.fine.wf).mp (show ShapeOps.slice .debug x.shape dim lo hi = ok s from hs)
  exact ⟨_, ⟨h.1, fun i => by rw [h.2.1, funext hx.dims], h.2.2⟩, hx.batch⟩

theorem TF.batchSlice_gives {m : Nat → α} {x : Tensor α} {lo hi : Nat} {f : Nat → Nat} {B : Nat} (hx : Like f B x) :
    Gives f (hi - lo) (TF.batchSlice .debug m x lo hi) := by
  refine TF.call_gives (by simpa using hx.fine) fun s hs => ?_
  obtain ⟨_, _, h⟩ := (Shape.batchSlice_iff hx.fine.wf).mp (show ShapeOps.batchSlice x.shape lo hi = ok s from hs)
  exact ⟨_, ⟨h.1, fun i => by rw [h.2.1, hx.dims], h.2.2⟩, .inr rfl⟩

/-- `backward` of an operator with arguments of shapes `ss` and results of shapes `outs`, on a gradient of the shape of its argument. -/
theorem NodeOp.bw_keeps {op : NodeOp α} {ss outs : List Shape} (hp : op.Proper) (ho : op.OneId) (hw : ∀ s ∈ ss, s.WF)
    (hsh : op.shapes .debug ss = ok outs) {xs ys gys : List (Tensor α)} (hx : ∀ x ∈ xs, x.Fine) (hy : ∀ y ∈ ys, y.Fine) (hg : ∀ y ∈ gys, y.Fine)
    (hxs : xs.map Tensor.shape = ss) (hys : ys.map Tensor.shape = outs) (hgs : gys.map Tensor.shape = outs) (m : Mem α)
    {u : Nat × (Tensor α → Res (Tensor α))} (hu : u ∈ op.bw .debug d m xs ys gys ss) {gx : Tensor α} (hgx : gx.Fine)
    (hk : ss[u.1]? = some gx.shape) : KeepsT gx (u.2 gx) := by
  have hX : ∀ {k : Tensor α → Res (Tensor α)} (i : Nat), (∀ x, x.Fine → ss[i]? = some x.shape → KeepsT gx (k x)) → KeepsT gx (Graph.at' xs i >>= k) :=
    fun i h => KeepsT.bind (at_safe _ _) fun x e => h x (hx x (at_mem e)) (map_at hxs e)
  have hY : ∀ {k : Tensor α → Res (Tensor α)} (i : Nat), (∀ x, x.Fine → outs[i]? = some x.shape → KeepsT gx (k x)) → KeepsT gx (Graph.at' ys i >>= k) :=
    fun i h => KeepsT.bind (at_safe _ _) fun x e => h x (hy x (at_mem e)) (map_at hys e)
  have hG : ∀ {k : Tensor α → Res (Tensor α)} (i : Nat), (∀ x, x.Fine → outs[i]? = some x.shape → KeepsT gx (k x)) → KeepsT gx (Graph.at' gys i >>= k) :=
    fun i h => KeepsT.bind (at_safe _ _) fun x e => h x (hg x (at_mem e)) (map_at hgs e)
  have b0 : ∀ {bop : BwOp α} {e : Nat} {m' : Mem α} {gy : Tensor α}, bop.Checked → gy.Fine → KeepsT gx (Dev.bw bop .debug e m' [] [] gy gx) :=
    fun h1 h2 => Dev.bw_keeps (by simp) (by simp) h2 hgx h1 _ _
  have b1 : ∀ {bop : BwOp α}, bop.Checked → KeepsT gx (do
      let x ← Graph.at' xs 0; let y ← Graph.at' ys 0; let gy ← Graph.at' gys 0
      Dev.bw bop .debug d m [x] [y] gy gx) :=
    fun h => hX 0 fun x hx _ => hY 0 fun y hy _ => hG 0 fun gy hgy _ => Dev.bw_keeps (by simpa using hx) (by simpa using hy) hgy hgx h _ _
  have b2 : ∀ {bop : BwOp α}, bop.Checked → KeepsT gx (do
      let a ← Graph.at' xs 0; let b ← Graph.at' xs 1; let y ← Graph.at' ys 0; let gy ← Graph.at' gys 0
      Dev.bw bop .debug d m [a, b] [y] gy gx) :=
    fun h => hX 0 fun x hx _ => hX 1 fun z hz _ => hY 0 fun y hy _ => hG 0 fun gy hgy _ =>
      Dev.bw_keeps (by simpa using ⟨hx, hz⟩) (by simpa using hy) hgy hgx h _ _
  have hself := Like.self hgx
  have like : ∀ {t : Tensor α}, t.Fine → t.shape = gx.shape → Like gx.shape.get gx.shape.batch t :=
    fun h e => ⟨h, fun i => by rw [e], .inr (by rw [e])⟩
  have hadd : ∀ t, Like gx.shape.get gx.shape.batch t → KeepsT gx (TF.addAssign .debug gx t) := fun t ht => TF.addAssign_keeps hself ht
  cases op with
  | input | inputOwner | parameter => simp [NodeOp.bw] at hu
  | un f =>
    cases f with
    | softplus =>
      simp only [NodeOp.bw, List.mem_singleton] at hu
      subst hu
      simp only [NodeOp.shapes, Res.bind_eq_ok, Res.ok.injEq] at hsh
      obtain ⟨s, h0, rfl⟩ := hsh
      obtain rfl := at_of h0 hk
      refine hX 0 fun x hx ex => hG 0 fun gy hgy eg => ?_
      rw [hk] at ex
      obtain ex := Option.some.inj ex
      obtain eg := Option.some.inj eg
      exact (Dev.un_gives (like hx ex.symm)).then fun t ht => (TF.abOp_gives ht (like hgy eg.symm)).then hadd
    | _ => simp only [NodeOp.bw, List.mem_singleton] at hu; subst hu; exact b1 trivial
  | cn c k => cases c <;> simp only [NodeOp.bw, List.mem_singleton] at hu <;> subst hu <;> exact b1 trivial
  | bi b =>
    simp only [NodeOp.bw, List.mem_cons, List.not_mem_nil, or_false] at hu
    rcases hu with rfl | rfl
    · exact b2 trivial
    · exact b2 trivial
  | sc s =>
    simp only [NodeOp.shapes, Res.bind_eq_ok, Res.ok.injEq] at hsh
    obtain ⟨a, h0, b, h1, z, h2, rfl⟩ := hsh
    have wa := at_wf hw h0
    have wb := at_wf hw h1
    rw [Graph.at'_eq_ok] at h0 h1
    obtain ⟨e1, e2, e3⟩ := (Shape.elementwise_iff wa wb).mp h2
    have ba : a.batch = 1 ∨ a.batch = Max.max a.batch b.batch := by
      have := wa.batch_pos; have := wb.batch_pos; unfold BatchCompat at e2; omega
    have bb : b.batch = 1 ∨ b.batch = Max.max a.batch b.batch := by
      have := wa.batch_pos; have := wb.batch_pos; unfold BatchCompat at e2; omega
    have hsh : ∀ {t : Tensor α}, t.Fine → t.shape = a ∨ t.shape = b ∨ t.shape = z → Like a.get (Max.max a.batch b.batch) t := by
      intro t ht e
      rcases e with e | e | e
      · exact ⟨ht, fun i => by rw [e], by rw [e]; exact ba⟩
      · exact ⟨ht, fun i => by rw [e, e1], by rw [e]; exact bb⟩
      · exact ⟨ht, fun i => by rw [e, e3.2.1], .inr (by rw [e, e3.2.2])⟩
    have hout : ∀ (l : List (Tensor α)), (∀ y ∈ l, y.Fine) → l.map Tensor.shape = [z] → ∀ y ∈ l.take 1, Like a.get (Max.max a.batch b.batch) y := by
      intro l hl e y hy
      have hy := List.mem_of_mem_take hy
      have : y.shape ∈ [z] := e ▸ List.mem_map_of_mem hy
      exact hsh (hl y hy) (.inr (.inr (List.mem_singleton.mp this)))
    refine NodeOp.sc_keeps (B := Max.max a.batch b.batch) ?_ (hout ys hy hys) (hout gys hg hgs) hu ?_
    · intro x hxm
      obtain ⟨i, hi, e⟩ := List.mem_iff_getElem.mp hxm
      have hi2 : i < 2 := by rw [List.length_take] at hi; omega
      have e' : xs[i]? = some x := by
        rw [List.getElem_take] at e
        exact List.getElem?_eq_some_iff.mpr ⟨by rw [List.length_take] at hi; omega, e⟩
      have e'' := map_at hxs (Graph.at'_eq_ok.mpr e')
      refine hsh (hx x (List.mem_of_mem_take hxm)) ?_
      match i, hi2 with
      | 0, _ => rw [h0] at e''; exact .inl (Option.some.inj e'').symm
      | 1, _ => rw [h1] at e''; exact .inr (.inl (Option.some.inj e'').symm)
    · refine hsh hgx ?_
      have : u.1 = 0 ∨ u.1 = 1 := by
        cases s <;> simp only [NodeOp.bw, List.mem_cons, List.not_mem_nil, or_false] at hu <;> rcases hu with rfl | rfl <;> simp
      rcases this with e | e
      · rw [e, h0] at hk; exact .inl (Option.some.inj hk).symm
      · rw [e, h1] at hk; exact .inr (.inl (Option.some.inj hk).symm)
  | powi k => simp only [NodeOp.bw, List.mem_singleton] at hu; subst hu; exact b1 trivial
  | sum dim =>
    simp only [NodeOp.bw, List.mem_singleton] at hu
    subst hu
    simp only [NodeOp.shapes, Res.bind_eq_ok, Res.ok.injEq] at hsh
    obtain ⟨s, h0, z, h2, rfl⟩ := hsh
    obtain rfl := at_of h0 hk
    obtain ⟨_, _, _, hz⟩ := hgx.wf.resizeDim_iff.mp h2
    refine hX 0 fun x hx ex => hG 0 fun gy hgy eg => KeepsT.bind (dimOf_safe _ _) fun n hn => ?_
    rw [hk] at ex
    obtain ex := Option.some.inj ex
    obtain rfl := Option.some.inj eg
    rw [dimOf_get hn, ← ex]
    exact (TF.broadcast_gives' (f := gx.shape.get) (B := gx.shape.batch) (Is.like hz hgy rfl (.inr rfl))).then hadd
  | max dim => simp only [NodeOp.bw, List.mem_singleton] at hu; subst hu; exact b1 trivial
  | min dim => simp only [NodeOp.bw, List.mem_singleton] at hu; subst hu; exact b1 trivial
  | logsumexp dim =>
    simp only [NodeOp.bw, List.mem_singleton] at hu
    subst hu
    simp only [NodeOp.shapes, Res.bind_eq_ok, Res.ok.injEq] at hsh
    obtain ⟨s, h0, z, h2, rfl⟩ := hsh
    obtain rfl := at_of h0 hk
    obtain ⟨_, _, _, hz⟩ := hgx.wf.resizeDim_iff.mp h2
    refine hX 0 fun x hx ex => hY 0 fun y hy ey => hG 0 fun gy hgy eg => KeepsT.bind (dimOf_safe _ _) fun n hn => ?_
    rw [hk] at ex
    obtain ex := Option.some.inj ex
    obtain ey := Option.some.inj ey
    obtain eg := Option.some.inj eg
    rw [dimOf_get hn, ← ex]
    refine (TF.broadcast_gives' (f := gx.shape.get) (B := gx.shape.batch) (Is.like hz hy ey.symm (.inr rfl))).then fun b hb => ?_
    refine (TF.abOp_gives (like hx ex.symm) hb).then fun t ht => (TF.un_gives ht).then fun t ht => ?_
    refine (TF.broadcast_gives' (f := gx.shape.get) (B := gx.shape.batch) (Is.like hz hgy eg.symm (.inr rfl))).then fun b hb => ?_
    exact (TF.abOp_gives ht hb).then hadd
  | broadcast dim n =>
    simp only [NodeOp.bw, List.mem_singleton] at hu
    subst hu
    simp only [NodeOp.shapes, Res.bind_eq_ok, Res.ok.injEq] at hsh
    obtain ⟨s, h0, z, h2, rfl⟩ := hsh
    obtain rfl := at_of h0 hk
    obtain ⟨_, h1, _, _, hz⟩ := (Shape.broadcast_iff hgx.wf).mp h2
    refine hG 0 fun gy hgy eg => ?_
    obtain eg := Option.some.inj eg
    refine ((TF.sum_gives (Is.like hz hgy eg.symm (.inr rfl))).congr (fun i => ?_) (.inr rfl)).then hadd
    unfold setC; split <;> simp_all
  | softmaxCrossEntropy dim =>
    simp only [NodeOp.shapes, Res.bind_eq_ok, Res.ok.injEq] at hsh
    obtain ⟨a, h0, b, h1, z, h2, w, h3, rfl⟩ := hsh
    have wa := at_wf hw h0
    have wb := at_wf hw h1
    rw [Graph.at'_eq_ok] at h0 h1
    obtain ⟨e1, e2, e3⟩ := (Shape.elementwise_iff wa wb).mp h2
    obtain ⟨_, _, _, e4⟩ := e3.1.resizeDim_iff.mp h3
    have ba : a.batch = 1 ∨ a.batch = Max.max a.batch b.batch := by
      have := wa.batch_pos; have := wb.batch_pos; unfold BatchCompat at e2; omega
    have bb : b.batch = 1 ∨ b.batch = Max.max a.batch b.batch := by
      have := wa.batch_pos; have := wb.batch_pos; unfold BatchCompat at e2; omega
    have la : ∀ {t : Tensor α}, t.Fine → ss[0]? = some t.shape → Like a.get (Max.max a.batch b.batch) t := by
      intro t ht e
      rw [h0] at e
      have e := Option.some.inj e
      exact ⟨ht, fun i => by rw [← e], by rw [← e]; exact ba⟩
    have lb : ∀ {t : Tensor α}, t.Fine → ss[1]? = some t.shape → Like a.get (Max.max a.batch b.batch) t := by
      intro t ht e
      rw [h1] at e
      have e := Option.some.inj e
      exact ⟨ht, fun i => by rw [← e, e1], by rw [← e]; exact bb⟩
    have lg : ∀ {t : Tensor α}, t.Fine → [w][0]? = some t.shape → Like (setC a.get dim 1) (Max.max a.batch b.batch) t := by
      intro t ht e
      have e := Option.some.inj e
      exact ⟨ht, fun i => by rw [← e, e4.2.1, funext e3.2.1], .inr (by rw [← e, e4.2.2, e3.2.2])⟩
    simp only [NodeOp.bw, List.mem_cons, List.not_mem_nil, or_false] at hu
    rcases hu with rfl | rfl
    · refine hX 0 fun x hx ex => hX 1 fun t ht et => hG 0 fun gy hgy eg => ?_
      refine (TF.lnSoftmax_gives (la hx ex)).then fun l hl => ?_
      rw [show x.shape.get dim = a.get dim from (la hx ex).dims dim]
      refine (TF.broadcast_gives' (lg hgy eg)).then fun c hc => (TF.un_gives hl).then fun e he => (TF.abOp_gives he (lb ht et)).then fun e he =>
        (TF.abOp_gives he hc).then fun e he => TF.addAssign_keeps (la hgx hk) he
    · refine hX 0 fun x hx ex => hG 0 fun gy hgy eg => ?_
      refine (TF.lnSoftmax_gives (la hx ex)).then fun l hl => ?_
      rw [show x.shape.get dim = a.get dim from (la hx ex).dims dim]
      exact (TF.broadcast_gives' (lg hgy eg)).then fun c hc => (TF.abOp_gives hl hc).then fun e he => TF.subAssign_keeps (lb hgx hk) he
  | sparseSoftmaxCrossEntropy ids dim =>
    simp only [NodeOp.shapes, Res.bind_eq_ok, Res.ok.injEq] at hsh
    obtain ⟨a, h0, w, h3, rfl⟩ := hsh
    have wa := at_wf hw h0
    rw [Graph.at'_eq_ok] at h0
    obtain ⟨_, h4, h5, _, h6⟩ := (Shape.pick_iff wa).mp h3
    have hlen : 1 ≤ ids.length := by
      rcases Nat.eq_zero_or_pos ids.length with h | h
      · exact absurd (List.length_eq_zero_iff.mp h) h4
      · exact h
    have ba : a.batch = 1 ∨ a.batch = Max.max a.batch ids.length := by have := wa.batch_pos; omega
    have la : ∀ {t : Tensor α}, t.Fine → ss[0]? = some t.shape → Like a.get (Max.max a.batch ids.length) t := by
      intro t ht e
      rw [h0] at e
      have e := Option.some.inj e
      exact ⟨ht, fun i => by rw [← e], by rw [← e]; exact ba⟩
    simp only [NodeOp.bw, List.mem_cons, List.not_mem_nil, or_false] at hu
    rcases hu with rfl | rfl
    · refine hX 0 fun x hx ex => hG 0 fun gy hgy eg => ?_
      obtain eg := Option.some.inj eg
      refine (TF.softmax_gives (la hx ex)).then fun l hl => ?_
      rw [show x.shape.get dim = a.get dim from (la hx ex).dims dim]
      refine (TF.broadcast_gives' (Is.like h6 hgy eg.symm (.inr rfl))).then fun c hc => (TF.abOp_gives hl hc).then fun e he =>
        TF.addAssign_keeps (la hgx hk) he
    · refine hG 0 fun gy hgy eg => KeepsT.bind (Tensor.dev_safe _) fun e he => ?_
      exact (TF.un_gives (Like.self hgy)).then fun n hn => b0 trivial hn.fine
  | matmul =>
    simp only [NodeOp.bw, List.mem_cons, List.not_mem_nil, or_false] at hu
    rcases hu with rfl | rfl
    · exact b2 trivial
    · exact b2 trivial
  | transpose => simp only [NodeOp.bw, List.mem_singleton] at hu; subst hu; exact b1 trivial
  | triangularL k => simp only [NodeOp.bw, List.mem_singleton] at hu; subst hu; exact b1 trivial
  | triangularU k => simp only [NodeOp.bw, List.mem_singleton] at hu; subst hu; exact b1 trivial
  | slice dim lower upper => simp only [NodeOp.bw, List.mem_singleton] at hu; subst hu; exact hG 0 fun gy hgy _ => b0 trivial hgy
  | split dim n =>
    simp only [NodeOp.bw] at hu
    split at hu
    · rw [List.mem_singleton] at hu; subst hu; exact ⟨safe_panic, fun _ h => by cases h⟩
    · obtain ⟨i, _, rfl⟩ := List.mem_map.mp hu
      exact hG i fun gy hgy _ => KeepsT.bind (at_safe _ _) fun s _ => b0 trivial hgy
  | pick ids dim =>
    simp only [NodeOp.bw, List.mem_singleton] at hu; subst hu
    exact hG 0 fun gy hgy _ => KeepsT.bind (Tensor.dev_safe _) fun e _ => b0 trivial hgy
  | concat dim =>
    simp only [NodeOp.shapes, Res.bind_eq_ok, Res.ok.injEq] at hsh
    obtain ⟨z, h2, rfl⟩ := hsh
    obtain ⟨_, _, h3, h4, _, h5⟩ := (Shape.concat_iff hw).mp h2
    obtain ⟨i, hi, rfl⟩ := List.mem_map.mp hu
    have hi := List.mem_range.mp hi
    refine hG 0 fun gy hgy eg => KeepsT.bind (at_safe _ _) fun s hs => ?_
    obtain eg := Option.some.inj eg
    obtain rfl := at_of hs hk
    have hn : nth ss i = gx.shape := nth_of hk
    have hwi : ∀ n, n < ss.length → (nth ss n).WF := fun n hn => hw _ (nth_mem hn)
    refine ((TF.slice_gives (Like.self hgy)).congr (f' := gx.shape.get) (B' := gy.shape.batch) (fun k => ?_) (.inr rfl)).then fun t ht => ?_
    · by_cases hkd : k = dim
      · subst hkd; rw [setC_self]; omega
      · rw [setC_ne hkd, ← eg, h5.2.1, setC_ne hkd, ← hn, h3 i hi k hkd]
    · refine TF.addAssign_keeps ⟨hgx, fun _ => rfl, ?_⟩ ht
      rw [← eg, h5.2.2, ← hn]
      exact K.maxN_compat h4 (fun n hn => (hwi n hn).batch_pos) hi
  | reshape s =>
    simp only [NodeOp.bw, List.mem_singleton] at hu; subst hu
    refine hG 0 fun gy hgy _ => ?_
    rw [← Res.bind_assoc]
    exact (Tensor.reshape_gives hgy hgx.wf d).then hadd
  | batchSum =>
    simp only [NodeOp.bw, List.mem_singleton] at hu; subst hu
    simp only [NodeOp.shapes, Res.bind_eq_ok, Res.ok.injEq] at hsh
    obtain ⟨s, h0, z, h2, rfl⟩ := hsh
    obtain rfl := at_of h0 hk
    obtain ⟨_, h3, h4⟩ := resizeBatch_wf hgx.wf h2
    refine hG 0 fun gy hgy eg => ?_
    obtain eg := Option.some.inj eg
    exact hadd gy ⟨hgy, fun i => by rw [← eg, h3], .inl (by rw [← eg, h4])⟩
  | batchSlice lower upper => simp only [NodeOp.bw, List.mem_singleton] at hu; subst hu; exact hG 0 fun gy hgy _ => b0 trivial hgy
  | batchSplit n =>
    simp only [NodeOp.bw] at hu
    split at hu
    · rw [List.mem_singleton] at hu; subst hu; exact ⟨safe_panic, fun _ h => by cases h⟩
    · obtain ⟨i, _, rfl⟩ := List.mem_map.mp hu
      exact hG 0 fun gy hgy _ => KeepsT.bind (at_safe _ _) fun s _ => b0 trivial hgy
  | batchPick ids =>
    simp only [NodeOp.bw, List.mem_singleton] at hu; subst hu
    exact hG 0 fun gy hgy _ => KeepsT.bind (Tensor.dev_safe _) fun e _ => b0 (bop := .batchPick ids) ho hgy
  | batchConcat =>
    simp only [NodeOp.shapes, Res.bind_eq_ok, Res.ok.injEq] at hsh
    obtain ⟨z, h2, rfl⟩ := hsh
    obtain ⟨_, h3, _, h5⟩ := (Shape.batchConcat_iff hw).mp h2
    obtain ⟨i, hi, rfl⟩ := List.mem_map.mp hu
    have hi := List.mem_range.mp hi
    refine hG 0 fun gy hgy eg => KeepsT.bind (at_safe _ _) fun s hs => ?_
    obtain eg := Option.some.inj eg
    obtain rfl := at_of hs hk
    have hn : nth ss i = gx.shape := nth_of hk
    refine ((TF.batchSlice_gives (Like.self hgy)).congr (f' := gx.shape.get) (B' := gx.shape.batch) (fun k => ?_) (.inr (by omega))).then hadd
    rw [← eg, h5.2.1, ← hn, h3 i hi k]

end Verif
