import Verif.Safety6

/-!
# Memory safety of the operators of the library: `forward_shape`, `forward`, `backward`
-/

set_option linter.unusedSectionVars false

namespace Verif
open Res
variable {α : Type} [Flt α] {d : Nat}

/-- What the types guarantee about an operator: tensors put into the graph are proper tensors; `reshape` has a proper shape. -/
def NodeOp.Proper (op : NodeOp α) : Prop :=
  match op with
  | .input v => v.Fine
  | .inputOwner v => v.Fine
  | .parameter v => v.Fine
  | .reshape s => s.WF
  | _ => True

/-- Not a `batch_pick` of several (or no) ids, whose gradient accesses memory outside of its tensors (C18). -/
def NodeOp.OneId : NodeOp α → Prop
  | .batchPick ids => ids.length = 1
  | _ => True

theorem at_wf {ss : List Shape} (h : ∀ s ∈ ss, s.WF) {i : Nat} {s : Shape} (hs : Graph.at' ss i = ok s) : s.WF := h s (at_mem hs)

theorem NodeOp.shapes_safe (op : NodeOp α) (ss : List Shape) : (op.shapes .debug ss).Safe := by
  have h1 : ∀ {k : Shape → Res (List Shape)}, (∀ s, (k s).Safe) → ∀ i, (Graph.at' ss i >>= k).Safe :=
    fun h i => Res.Safe.bind (at_safe _ _) fun s _ => h s
  have h2 : ∀ {r : Res Shape}, r.Safe → (r >>= fun s => (ok [s] : Res (List Shape))).Safe := fun h => Res.Safe.bind h fun _ _ => safe_ok _
  cases op with
  | input => exact safe_ok _
  | inputOwner => exact safe_ok _
  | parameter => exact safe_ok _
  | un => exact h1 (fun _ => safe_ok _) _
  | cn => exact h1 (fun _ => safe_ok _) _
  | powi => exact h1 (fun _ => safe_ok _) _
  | triangularL => exact h1 (fun _ => safe_ok _) _
  | triangularU => exact h1 (fun _ => safe_ok _) _
  | reshape => exact safe_ok _
  | bi => exact h1 (fun _ => h1 (fun _ => h2 (Shape.elementwise_safe _ _)) _) _
  | sc => exact h1 (fun _ => h1 (fun _ => h2 (Shape.elementwise_safe _ _)) _) _
  | sum => exact h1 (fun _ => h2 (Shape.resizeDim_safe _ _ _ _)) _
  | max => exact h1 (fun _ => h2 (Shape.resizeDim_safe _ _ _ _)) _
  | min => exact h1 (fun _ => h2 (Shape.resizeDim_safe _ _ _ _)) _
  | logsumexp => exact h1 (fun _ => h2 (Shape.resizeDim_safe _ _ _ _)) _
  | broadcast => exact h1 (fun _ => h2 (Shape.broadcast_safe _ _ _ _)) _
  | softmaxCrossEntropy =>
    exact h1 (fun _ => h1 (fun _ => Res.Safe.bind (Shape.elementwise_safe _ _) fun _ _ => h2 (Shape.resizeDim_safe _ _ _ _)) _) _
  | sparseSoftmaxCrossEntropy => exact h1 (fun _ => h2 (Shape.pick_safe _ _ _ _)) _
  | matmul => exact h1 (fun _ => h1 (fun _ => h2 (Shape.matmul_safe _ _ _)) _) _
  | transpose => exact h1 (fun _ => h2 (Shape.transpose_safe _ _)) _
  | slice => exact h1 (fun _ => h2 (Shape.slice_safe _ _ _ _ _)) _
  | split => exact h1 (fun _ => Res.Safe.bind (check_safe _) fun _ _ => Res.Safe.bind (check_safe _) fun _ _ =>
      Res.Safe.bind (Shape.resizeDim_safe _ _ _ _) fun _ _ => safe_ok _) _
  | pick => exact h1 (fun _ => h2 (Shape.pick_safe _ _ _ _)) _
  | concat => exact h2 (Shape.concat_safe _ _ _)
  | batchSum => exact h1 (fun _ => h2 (Shape.resizeBatch_safe _ _)) _
  | batchSlice => exact h1 (fun _ => h2 (Shape.batchSlice_safe _ _ _)) _
  | batchSplit => exact h1 (fun _ => Res.Safe.bind (check_safe _) fun _ _ => Res.Safe.bind (check_safe _) fun _ _ =>
      Res.Safe.bind (Shape.resizeBatch_safe _ _) fun _ _ => safe_ok _) _
  | batchPick => exact h1 (fun _ => h2 (Shape.batchPick_safe _ _)) _
  | batchConcat => exact h2 (Shape.batchConcat_safe _ _)

theorem resizeBatch_wf {s t : Shape} {b : Nat} (h : s.WF) (e : s.resizeBatch b = ok t) : t.WF ∧ (∀ i, t.get i = s.get i) ∧ t.batch = b := by
  obtain ⟨h1, rfl⟩ := Shape.updateBatch_ok_iff.mp e
  exact ⟨h.withBatch h1, fun _ => rfl, rfl⟩

theorem NodeOp.shapes_wf {op : NodeOp α} {ss outs : List Shape} (hp : op.Proper) (hw : ∀ s ∈ ss, s.WF)
    (h : op.shapes .debug ss = ok outs) : ∀ s ∈ outs, s.WF := by
  have one : ∀ {s t : Shape}, s.WF → t ∈ [s] → t.WF := fun h ht => by rw [List.mem_singleton.mp ht]; exact h
  intro s hs
  cases op with
  | input v => cases h; exact one (Tensor.Fine.wf hp) hs
  | inputOwner v => cases h; exact one (Tensor.Fine.wf hp) hs
  | parameter v => cases h; exact one (Tensor.Fine.wf hp) hs
  | reshape v => cases h; exact one hp hs
  | un | cn | powi | triangularL | triangularU =>
    simp only [NodeOp.shapes, Res.bind_eq_ok, Res.ok.injEq] at h
    obtain ⟨x, h0, rfl⟩ := h
    exact one (at_wf hw h0) hs
  | bi | sc =>
    simp only [NodeOp.shapes, Res.bind_eq_ok, Res.ok.injEq] at h
    obtain ⟨x, h0, y, h1, z, h2, rfl⟩ := h
    exact one ((Shape.elementwise_iff (at_wf hw h0) (at_wf hw h1)).mp h2).2.2.1 hs
  | sum | max | min | logsumexp =>
    simp only [NodeOp.shapes, Res.bind_eq_ok, Res.ok.injEq] at h
    obtain ⟨x, h0, z, h2, rfl⟩ := h
    exact one ((at_wf hw h0).resizeDim_iff.mp h2).2.2.2.1 hs
  | broadcast =>
    simp only [NodeOp.shapes, Res.bind_eq_ok, Res.ok.injEq] at h
    obtain ⟨x, h0, z, h2, rfl⟩ := h
    exact one ((Shape.broadcast_iff (at_wf hw h0)).mp h2).2.2.2.2.1 hs
  | softmaxCrossEntropy =>
    simp only [NodeOp.shapes, Res.bind_eq_ok, Res.ok.injEq] at h
    obtain ⟨x, h0, y, h1, z, h2, w, h3, rfl⟩ := h
    have hz := ((Shape.elementwise_iff (at_wf hw h0) (at_wf hw h1)).mp h2).2.2.1
    exact one (hz.resizeDim_iff.mp h3).2.2.2.1 hs
  | sparseSoftmaxCrossEntropy | pick =>
    simp only [NodeOp.shapes, Res.bind_eq_ok, Res.ok.injEq] at h
    obtain ⟨x, h0, z, h2, rfl⟩ := h
    exact one ((Shape.pick_iff (at_wf hw h0)).mp h2).2.2.2.2.1 hs
  | matmul =>
    simp only [NodeOp.shapes, Res.bind_eq_ok, Res.ok.injEq] at h
    obtain ⟨x, h0, y, h1, z, h2, rfl⟩ := h
    exact one ((Shape.matmul_iff (at_wf hw h0) (at_wf hw h1)).mp h2).2.2.2.2.2.1 hs
  | transpose =>
    simp only [NodeOp.shapes, Res.bind_eq_ok, Res.ok.injEq] at h
    obtain ⟨x, h0, z, h2, rfl⟩ := h
    exact one ((Shape.transpose_iff (at_wf hw h0)).mp h2).2.1 hs
  | slice =>
    simp only [NodeOp.shapes, Res.bind_eq_ok, Res.ok.injEq] at h
    obtain ⟨x, h0, z, h2, rfl⟩ := h
    exact one ((Shape.slice_iff (at_wf hw h0)).mp h2).2.2.2.1 hs
  | split =>
    simp only [NodeOp.shapes, Res.bind_eq_ok, Res.ok.injEq] at h
    obtain ⟨x, h0, _, _, _, _, z, h2, rfl⟩ := h
    rw [(List.mem_replicate.mp hs).2]
    exact ((at_wf hw h0).resizeDim_iff.mp h2).2.2.2.1
  | concat =>
    simp only [NodeOp.shapes, Res.bind_eq_ok, Res.ok.injEq] at h
    obtain ⟨z, h2, rfl⟩ := h
    exact one ((Shape.concat_iff hw).mp h2).2.2.2.2.2.1 hs
  | batchSum =>
    simp only [NodeOp.shapes, Res.bind_eq_ok, Res.ok.injEq] at h
    obtain ⟨x, h0, z, h2, rfl⟩ := h
    exact one (resizeBatch_wf (at_wf hw h0) h2).1 hs
  | batchSlice =>
    simp only [NodeOp.shapes, Res.bind_eq_ok, Res.ok.injEq] at h
    obtain ⟨x, h0, z, h2, rfl⟩ := h
    exact one ((Shape.batchSlice_iff (at_wf hw h0)).mp h2).2.2.1 hs
  | batchSplit =>
    simp only [NodeOp.shapes, Res.bind_eq_ok, Res.ok.injEq] at h
    obtain ⟨x, h0, _, _, _, _, z, h2, rfl⟩ := h
    rw [(List.mem_replicate.mp hs).2]
    exact (resizeBatch_wf (at_wf hw h0) h2).1
  | batchPick =>
    simp only [NodeOp.shapes, Res.bind_eq_ok, Res.ok.injEq] at h
    obtain ⟨x, h0, z, h2, rfl⟩ := h
    exact one ((Shape.batchPick_iff (at_wf hw h0)).mp h2).2.2.1 hs
  | batchConcat =>
    simp only [NodeOp.shapes, Res.bind_eq_ok, Res.ok.injEq] at h
    obtain ⟨z, h2, rfl⟩ := h
    exact one ((Shape.batchConcat_iff hw).mp h2).2.2.2.1 hs

/-! ### forward -/

theorem Dev.fw_fine {op : FwOp α} {xs : List (Tensor α)} (hx : ∀ x ∈ xs, x.Fine) (d : Nat) (m : Nat → α) : GivesFine (Dev.fw op .debug d m xs) := by
  have h := Dev.fw_good (op := op) (p := .debug) hx (.inl rfl) d m
  exact ⟨h.1, fun y hy => by obtain ⟨_, _, h, _⟩ := h.2 y hy; exact h⟩

theorem NodeOp.apply1_fine {op : NodeOp α} (hp : op.Proper) {xs : List (Tensor α)} (hx : ∀ x ∈ xs, x.Fine) (m : Mem α) :
    GivesFine (op.apply1 .debug d m xs) := by
  have h1 : ∀ {k : Tensor α → Res (Tensor α)}, (∀ x, x.Fine → GivesFine (k x)) → ∀ i, GivesFine (Graph.at' xs i >>= k) :=
    fun h i => GivesFine.bind (at_safe _ _) fun x e => h x (hx x (at_mem e))
  have f1 : ∀ {op : FwOp α} {x : Tensor α} {m : Nat → α}, x.Fine → GivesFine (Dev.fw op .debug d m [x]) := fun h => Dev.fw_fine (by simpa using h) _ _
  have f2 : ∀ {op : FwOp α} {x y : Tensor α} {m : Nat → α}, x.Fine → y.Fine → GivesFine (Dev.fw op .debug d m [x, y]) :=
    fun h h' => Dev.fw_fine (by simpa using ⟨h, h'⟩) _ _
  have hpanic : GivesFine (Res.panic : Res (Tensor α)) := ⟨safe_panic, fun _ h => by cases h⟩
  cases op with
  | input => exact hpanic
  | inputOwner => exact hpanic
  | parameter => exact hpanic
  | split => exact hpanic
  | batchSplit => exact hpanic
  | cn c k => cases c <;> exact h1 (fun x hx => f1 hx) _
  | bi => exact h1 (fun x hx => h1 (fun y hy => f2 hx hy) _) _
  | sc => exact h1 (fun x hx => h1 (fun y hy => f2 hx hy) _) _
  | matmul => exact h1 (fun x hx => h1 (fun y hy => f2 hx hy) _) _
  | softmaxCrossEntropy dim =>
    refine h1 (fun x hx => h1 (fun t ht => ?_) _) _
    refine (TF.lnSoftmax_gives (Like.self hx)).toFine fun a ha => ?_
    have h := TF.abOp_fine (b := .mul) (l := .mul) (r := .mul) (m := m 3) ht ha.fine
    refine GivesFine.bind h.1 fun b hb => ?_
    exact (TF.sum_gives (Like.self (h.2 b hb))).toFine fun c hc => (TF.un_gives hc).fine
  | sparseSoftmaxCrossEntropy ids dim =>
    refine h1 (fun x hx => ?_) _
    refine (TF.lnSoftmax_gives (Like.self hx)).toFine fun a ha => ?_
    have h := TF.call_fine (op := .pick ids dim) (m := m 3) (x := a) (args := [a]) (by simpa using ha.fine)
    exact GivesFine.bind h.1 fun b hb => (TF.un_gives (Like.self (h.2 b hb))).fine
  | pick => exact h1 (fun x hx => TF.call_fine (by simpa using hx)) _
  | batchPick => exact h1 (fun x hx => TF.call_fine (by simpa using hx)) _
  | concat => exact Dev.fw_fine hx _ _
  | batchConcat => exact Dev.fw_fine hx _ _
  | reshape s => exact h1 (fun x hx => (Tensor.reshape_gives hx hp d).fine) _
  | _ => exact h1 (fun x hx => f1 hx) _

/-- Results of `forward`: fine tensors with the shapes and devices of the slots. -/
def FwGood (ys : List (Tensor α)) (r : Res (List (Tensor α))) : Prop :=
  r.Safe ∧ ∀ ys', r = ok ys' → (∀ y ∈ ys', y.Fine) ∧ ys'.map Tensor.shape = ys.map Tensor.shape ∧ ys'.map Tensor.device = ys.map Tensor.device

theorem FwGood.bind {ys : List (Tensor α)} {r : Res σ} {k : σ → Res (List (Tensor α))} (h : r.Safe) (hk : ∀ a, r = ok a → FwGood ys (k a)) :
    FwGood ys (r >>= k) := by
  cases r with
  | ok a => exact hk a rfl
  | panic => exact ⟨safe_panic, fun _ h => by cases h⟩
  | ub => exact absurd rfl h

omit [Flt α] in
theorem map_set_same {β : Type} {ys : List (Tensor α)} {i : Nat} {y y' : Tensor α} (f : Tensor α → β) (hy : ys[i]? = some y) (h : f y' = f y) :
    (ys.set i y').map f = ys.map f := by
  refine List.ext_getElem? fun k => ?_
  by_cases hk : k = i
  · subst hk
    have hi := (List.getElem?_eq_some_iff.mp hy).1
    have : ys[k] = y := (List.getElem?_eq_some_iff.mp hy).2
    simp [hi, h, this]
  · simp [List.getElem?_set_ne (Ne.symm hk)]

theorem FwGood.set {ys : List (Tensor α)} (hf : ∀ y ∈ ys, y.Fine) {i : Nat} {y y' : Tensor α} (hy : ys[i]? = some y) (h : y'.Fine) (hs : y'.shape = y.shape)
    (hd : y'.device = y.device) : FwGood ys (ok (ys.set i y')) := by
  refine ⟨safe_ok _, fun ys' e => ?_⟩
  cases e
  refine ⟨fun z hz => ?_, map_set_same _ hy hs, map_set_same _ hy hd⟩
  rcases List.mem_or_eq_of_mem_set hz with hz | rfl
  · exact hf z hz
  · exact h

theorem refer_safe (y v : Tensor α) : (y.refer v).Safe :=
  Res.Safe.bind (check_safe _) fun _ _ => Res.Safe.bind (check_safe _) fun _ _ => Res.Safe.bind (check_safe _) fun _ _ =>
    Res.Safe.bind (check_safe _) fun _ _ => safe_ok _

theorem refer_fine {y v z : Tensor α} (hy : y.Fine) (hv : v.Fine) (h : y.refer v = ok z) : z.Fine ∧ z.shape = y.shape ∧ z.device = y.device := by
  simp only [Tensor.refer, Res.bind_eq_ok, Res.ok.injEq, check_eq_ok] at h
  obtain ⟨_, h1, _, h2, _, h3, _, h4, rfl⟩ := h
  exact ⟨⟨hy.wf, fun _ => by simpa using h4, fun l hl => by show y.shape.size ≤ _ ∧ y.shape.size ≤ _; rw [h3]; exact hv.buf l hl⟩, rfl, rfl⟩

theorem put_good {ys : List (Tensor α)} (hf : ∀ y ∈ ys, y.Fine) (i : Nat) {t : Tensor α} (ht : t.Fine) : FwGood ys (NodeOp.put ys i t) := by
  unfold NodeOp.put
  refine FwGood.bind (at_safe _ _) fun y hy => FwGood.bind (refer_safe y t) fun z hz => ?_
  obtain ⟨h1, h2, h3⟩ := refer_fine (hf y (at_mem hy)) ht hz
  exact FwGood.set hf (Graph.at'_eq_ok.mp hy) h1 h2 h3

theorem loop_put_good {ys : List (Tensor α)} (hf : ∀ y ∈ ys, y.Fine) {n : Nat} {f : Nat → Res (Tensor α)} (h : ∀ i, GivesFine (f i)) :
    FwGood ys (loop n (fun i ys => do let t ← f i; NodeOp.put ys i t) ys) := by
  refine loop_safe_inv (fun _ (zs : List (Tensor α)) => (∀ y ∈ zs, y.Fine) ∧ zs.map Tensor.shape = ys.map Tensor.shape ∧ zs.map Tensor.device = ys.map Tensor.device)
    ⟨hf, rfl, rfl⟩ fun i zs _ hzs => ?_
  have h2 : FwGood zs (do let t ← f i; NodeOp.put zs i t) := FwGood.bind (h i).1 fun t ht => put_good hzs.1 i ((h i).2 t ht)
  exact ⟨h2.1, fun ws hws => by obtain ⟨a, b, c⟩ := h2.2 ws hws; exact ⟨a, b.trans hzs.2.1, c.trans hzs.2.2⟩⟩

theorem NodeOp.fw_good {op : NodeOp α} (hp : op.Proper) {xs ys : List (Tensor α)} (hx : ∀ x ∈ xs, x.Fine) (hy : ∀ y ∈ ys, y.Fine)
    (m : Mem α) : FwGood ys (op.fw .debug d m xs ys) := by
  cases op with
  | input v | parameter v =>
    refine FwGood.bind (at_safe _ _) fun y h => FwGood.bind (refer_safe y v) fun z hz => ?_
    obtain ⟨h1, h2, h3⟩ := refer_fine (hy y (at_mem h)) hp hz
    exact FwGood.set hy (Graph.at'_eq_ok.mp h) h1 h2 h3
  | inputOwner v =>
    refine FwGood.bind (at_safe _ _) fun y h => FwGood.bind (Tensor.alloc_safe _ _ _) fun z hz => FwGood.bind (Tensor.dev_safe _) fun e he => ?_
    have hzf := (Tensor.alloc_good (hy y (at_mem h)) (m 0)).2 z hz
    have hde : z.device = some e := by
      simp only [Tensor.dev, unwrap] at he
      split at he
      · cases he; assumption
      · cases he
    have hg := Dev.resetByTensor_good (p := .debug) hzf (show v.Fine from hp) hde
    refine FwGood.bind hg.1 fun w hw => ?_
    obtain ⟨h1, h2, h3, _⟩ := hg.2 w hw
    have hsd : z.shape = y.shape ∧ z.device = y.device := by
      simp only [Tensor.alloc, Res.bind_eq_ok, Res.ok.injEq] at hz
      obtain ⟨_, _, _, _, _, _, _, _, _, _, rfl⟩ := hz
      exact ⟨rfl, rfl⟩
    exact FwGood.set hy (Graph.at'_eq_ok.mp h) h1 (h3.trans hsd.1) (by rw [h2, ← hde, hsd.2])
  | split dim n =>
    refine FwGood.bind (at_safe _ _) fun x h => FwGood.bind (check_safe _) fun _ _ => ?_
    exact loop_put_good (f := fun i => Dev.fw (.slice dim (i * (x.shape.get dim / n)) ((i + 1) * (x.shape.get dim / n))) .debug d (m i) [x]) hy
      fun i => Dev.fw_fine (by simpa using hx x (at_mem h)) _ _
  | batchSplit n =>
    refine FwGood.bind (at_safe _ _) fun x h => FwGood.bind (check_safe _) fun _ _ => ?_
    exact loop_put_good (f := fun i => Dev.fw (.batchSlice (i * (x.shape.batch / n)) ((i + 1) * (x.shape.batch / n))) .debug d (m i) [x]) hy
      fun i => Dev.fw_fine (by simpa using hx x (at_mem h)) _ _
  | _ =>
    have h := NodeOp.apply1_fine (d := d) hp hx m
    exact FwGood.bind h.1 fun t ht => put_good hy 0 (h.2 t ht)

/-- What a panicking `forward` leaves is fine too. -/
theorem NodeOp.left_good (op : NodeOp α) {xs ys : List (Tensor α)} (hx : ∀ x ∈ xs, x.Fine) (hy : ∀ y ∈ ys, y.Fine) (m : Mem α) :
    FwGood ys (ok (op.left .debug d m xs ys)) := by
  have hid : FwGood ys (ok ys) := ⟨safe_ok _, fun ys' h => by cases h; exact ⟨hy, rfl, rfl⟩⟩
  have hput : ∀ (f : Nat → Res (Tensor α)) (n : Nat), (∀ i, GivesFine (f i)) →
      FwGood ys (ok (loopLeft n (fun i ys => do let t ← f i; put ys i t) ys)) := by
    intro f n hf
    refine ⟨safe_ok _, fun ys' h => ?_⟩
    cases h
    refine loopLeft_keeps (P := fun zs : List (Tensor α) => (∀ y ∈ zs, y.Fine) ∧ zs.map Tensor.shape = ys.map Tensor.shape ∧ zs.map Tensor.device = ys.map Tensor.device)
      ⟨hy, rfl, rfl⟩ fun i zs ws hzs hws => ?_
    have h2 : FwGood zs (do let t ← f i; NodeOp.put zs i t) := FwGood.bind (hf i).1 fun t ht => put_good hzs.1 i ((hf i).2 t ht)
    obtain ⟨a, b, c⟩ := h2.2 ws hws
    exact ⟨a, b.trans hzs.2.1, c.trans hzs.2.2⟩
  cases op with
  | inputOwner v =>
    simp only [NodeOp.left]
    split
    · rename_i z hz
      obtain ⟨y, h, hz⟩ := Res.bind_eq_ok.mp hz
      have hzf := (Tensor.alloc_good (hy y (at_mem h)) (m 0)).2 z hz
      have hsd : z.shape = y.shape ∧ z.device = y.device := by
        simp only [Tensor.alloc, Res.bind_eq_ok, Res.ok.injEq] at hz
        obtain ⟨_, _, _, _, _, _, _, _, _, _, rfl⟩ := hz
        exact ⟨rfl, rfl⟩
      exact FwGood.set hy (Graph.at'_eq_ok.mp h) hzf hsd.1 hsd.2
    · exact hid
  | split dim n =>
    simp only [NodeOp.left]
    split
    · rename_i x h
      exact hput (fun i => Dev.fw (.slice dim (i * (x.shape.get dim / n)) ((i + 1) * (x.shape.get dim / n))) .debug d (m i) [x]) n
        fun i => Dev.fw_fine (by simpa using hx x (at_mem h)) _ _
    · exact hid
  | batchSplit n =>
    simp only [NodeOp.left]
    split
    · rename_i x h
      exact hput (fun i => Dev.fw (.batchSlice (i * (x.shape.batch / n)) ((i + 1) * (x.shape.batch / n))) .debug d (m i) [x]) n
        fun i => Dev.fw_fine (by simpa using hx x (at_mem h)) _ _
    · exact hid
  | _ => exact hid

end Verif
