import Verif.Stale
import Verif.PropsShape

/-!
# Properties C18, C19, C47: memory safety, independence of stale memory, devices

`ub` is a raw-pointer access outside the buffer of a tensor; `r.Safe` says that a call does not end in `ub` (it returns or
panics).  `m` is the stale content of the memory that the pool hands out.
-/

set_option linter.unusedSectionVars false

namespace Verif
open Res
variable {α : Type} [Flt α]

/-- What may become of a tensor that was passed mutably to a call that panicked, when the panic is caught: any contents in its buffer, which
the call may have allocated; a host tensor that was being moved (tensor.rs:42-48) may be on the device, not yet allocated or with any
contents. -/
inductive Tensor.Disturbed (t : Tensor α) : Tensor α → Prop
  | unchanged : Tensor.Disturbed t t
  | contents {b b' : List α} : t.buf = some b → b'.length = b.length → Tensor.Disturbed t { t with buf := some b' }
  | allocated {m : Nat → α} {y : Tensor α} : t.alloc .debug m = ok y → Tensor.Disturbed t y
  | assigned {d : Nat} : t.host ≠ none → Tensor.Disturbed t { t with device := some d }
  | taken {d size : Nat} {m : Nat → α} {b : List α} : t.host ≠ none → t.shape.sizeU .debug = ok size → newBuf size m = ok b →
      Tensor.Disturbed t { t with device := some d, buf := some b, host := none }

theorem Tensor.Disturbed.shape {t t' : Tensor α} (h : t.Disturbed t') : t'.shape = t.shape := by
  cases h with
  | allocated hy =>
    unfold Tensor.alloc at hy
    simp only [check_bind_ok] at hy
    simp only [Res.bind_eq_ok] at hy
    obtain ⟨_, _, d, hd, _, _, _, _, hy⟩ := hy
    cases hy; rfl
  | _ => rfl

theorem Tensor.Disturbed.fine {t t' : Tensor α} (h : t.Disturbed t') (ht : t.Fine) : t'.Fine := by
  cases h with
  | unchanged => exact ht
  | @contents b b' hb hl =>
    refine ⟨ht.wf, fun _ => ht.host (by rw [hb]; simp), fun l e => ?_⟩
    cases e
    have := ht.buf b hb
    exact ⟨this.1, by rw [hl]; exact this.2⟩
  | @allocated m _ hy => exact (Tensor.alloc_good ht m).2 t' hy
  | assigned hh =>
    have hb : t.buf = none := by
      cases hb : t.buf with
      | none => rfl
      | some l => exact absurd (ht.host (by rw [hb]; simp)) hh
    exact ⟨ht.wf, fun h => absurd hb h, ht.buf⟩
  | @taken d size m b hh hs hb =>
    obtain ⟨q1, rfl⟩ := Shape.u32_debug_ok.mp hs
    obtain ⟨_, q2, q3⟩ := newBuf_imp q1 hb
    exact ⟨ht.wf, fun _ => rfl, fun l hl => by cases hl; exact ⟨q2, q3⟩⟩

theorem Tensor.Disturbed.null {t t' : Tensor α} (h : t.Disturbed t') (ht : t.device = none → t.buf = none) : t'.device = none → t'.buf = none := by
  cases h with
  | unchanged => exact ht
  | @contents b b' hb hl => intro hd; rw [ht hd] at hb; cases hb
  | @allocated m _ hy =>
    unfold Tensor.alloc at hy
    simp only [check_bind_ok] at hy
    simp only [Res.bind_eq_ok] at hy
    obtain ⟨_, _, d, hd, _, _, _, _, hy⟩ := hy
    cases hy
    cases hdd : t.device with
    | none => rw [hdd] at hd; cases hd
    | some e => intro hn; cases hn
  | assigned hh => intro hd; cases hd
  | taken hh hs hb => intro hd; cases hd

/-- The tensors a program can obtain in a build with overflow checks: made by the constructors or the device functions, changed by
the in-place functions; also those that a call that panicked leaves.  `+=`/`-=` only with
operands that have at most the volume of the tensor and a compatible batch, `batch_pick_bw` only with one id (see the
negations below). -/
inductive Obtainable : Tensor α → Prop
  | new (d : Nat) {s : Shape} : s.Reachable → Obtainable (Tensor.new d s)
  | newHost {s : Shape} (v : List α) : s.Reachable → Obtainable (Tensor.newHost s v)
  | alloc {t y : Tensor α} {m : Nat → α} : Obtainable t → t.alloc .debug m = ok y → Obtainable y
  | moveToDevice {t y : Tensor α} {d : Nat} {m : Nat → α} : Obtainable t → t.moveToDevice .debug d m = ok y → Obtainable y
  | updateShape {t y : Tensor α} {s : Shape} : Obtainable t → s.Reachable → t.updateShape .debug s = ok y → Obtainable y
  | reset {t y : Tensor α} {k : α} : Obtainable t → Dev.resetTensor .debug t k = ok y → Obtainable y
  | resetBySlice {t y : Tensor α} {v : List α} : Obtainable t → Dev.resetTensorBySlice .debug t v = ok y → Obtainable y
  | resetByTensor {t x y : Tensor α} : Obtainable t → Obtainable x → Dev.resetTensorByTensor .debug t x = ok y → Obtainable y
  | copy {t y : Tensor α} {d : Nat} {m : Nat → α} : Obtainable t → Dev.copyTensor .debug d m t = ok y → Obtainable y
  | mulAssignConst {t y : Tensor α} {d : Nat} {k : α} : Obtainable t → Dev.mulAssignConst .debug d k t = ok y → Obtainable y
  | addAssign {t x y : Tensor α} {d : Nat} : Obtainable t → Obtainable x → x.shape.volume ≤ t.shape.volume →
      BatchCompat x.shape t.shape → Dev.addAssign .debug d x t = ok y → Obtainable y
  | subAssign {t x y : Tensor α} {d : Nat} : Obtainable t → Obtainable x → x.shape.volume ≤ t.shape.volume →
      BatchCompat x.shape t.shape → Dev.subAssign .debug d x t = ok y → Obtainable y
  | fw {op : FwOp α} {xs : List (Tensor α)} {y : Tensor α} {d : Nat} {m : Nat → α} : (∀ x, x ∈ xs → Obtainable x) →
      Dev.fw op .debug d m xs = ok y → Obtainable y
  | bw {op : BwOp α} {xs ys : List (Tensor α)} {gy gx y : Tensor α} {d : Nat} {m : Mem α} : op.Checked →
      (∀ x, x ∈ xs → Obtainable x) → (∀ x, x ∈ ys → Obtainable x) → Obtainable gy → Obtainable gx →
      Dev.bw op .debug d m xs ys gy gx = ok y → Obtainable y
  | caught {t t' : Tensor α} : Obtainable t → t.Disturbed t' → Obtainable t'

/-- The invariant behind C18. -/
theorem Obtainable.fine {t : Tensor α} (h : Obtainable t) : t.Fine ∧ (t.device = none → t.buf = none) := by
  have dn : ∀ {y : Tensor α} {d : Nat}, y.device = some d → (y.device = none → y.buf = none) :=
    fun h1 h2 => by rw [h1] at h2; cases h2
  induction h with
  | new d hs => exact ⟨⟨hs.wf, fun _ => rfl, fun l hl => by cases hl⟩, fun _ => rfl⟩
  | newHost v hs => exact ⟨⟨hs.wf, fun h => absurd rfl h, fun l hl => by cases hl⟩, fun _ => rfl⟩
  | @alloc t y m _ hy ih =>
    refine ⟨(Tensor.alloc_good ih.1 m).2 y hy, ?_⟩
    unfold Tensor.alloc at hy
    simp only [check_bind_ok] at hy
    simp only [Res.bind_eq_ok] at hy
    obtain ⟨_, _, d, hd, _, _, _, _, hy⟩ := hy
    cases hy
    cases hdd : t.device with
    | none => rw [hdd] at hd; cases hd
    | some e => intro hn; cases hn
  | moveToDevice _ hy ih =>
    obtain ⟨h1, h2, _⟩ := (Tensor.moveToDevice_good ih.1 _).2 _ hy
    exact ⟨h1, dn h2⟩
  | @updateShape t y s _ hs hy ih =>
    refine ⟨(Tensor.updateShape_good ih.1 hs.wf).2 _ hy, ?_⟩
    unfold Tensor.updateShape at hy
    simp only [Res.bind_eq_ok] at hy
    obtain ⟨_, _, _, _, _, _, hy⟩ := hy
    cases hy; exact ih.2
  | reset _ hy ih => exact (Dev.resetTensor_safe ih.1 ih.2).2 _ hy
  | resetBySlice _ hy ih => exact (Dev.resetBySlice_safe ih.1 ih.2).2 _ hy
  | resetByTensor _ _ hy ih1 ih2 => exact (Dev.resetByTensor_safe ih1.1 ih1.2 ih2.1).2 _ hy
  | copy _ hy ih => obtain ⟨h1, h2, _⟩ := (Dev.copyTensor_good ih.1 _ _).2 _ hy; exact ⟨h1, dn h2⟩
  | mulAssignConst _ hy ih => obtain ⟨h1, h2, _⟩ := (Dev.mulAssignConst_good ih.1 _).2 _ hy; exact ⟨h1, dn h2⟩
  | addAssign _ _ hd hb hy ih1 ih2 => obtain ⟨h1, h2, _⟩ := (Dev.addAssign_good' ih2.1 ih1.1 hd hb.cases).2 _ hy; exact ⟨h1, dn h2⟩
  | subAssign _ _ hd hb hy ih1 ih2 => obtain ⟨h1, h2, _⟩ := (Dev.subAssign_good' ih2.1 ih1.1 hd hb.cases).2 _ hy; exact ⟨h1, dn h2⟩
  | @fw op xs y d m _ hy ih =>
    obtain ⟨s, h1, h2, h3, _⟩ := (Dev.fw_good (op := op) (p := .debug) (fun x hx => (ih x hx).1) (.inl rfl) d m).2 _ hy
    exact ⟨by assumption, dn (by assumption)⟩
  | bw hc _ _ _ _ hy ih1 ih2 ih3 ih4 =>
    obtain ⟨h1, h2, _⟩ := (Dev.bw_good (fun x hx => (ih1 x hx).1) (fun x hx => (ih2 x hx).1) ih3.1 ih4.1 hc _ _).2 _ hy
    exact ⟨h1, dn h2⟩
  | caught _ hd ih => exact ⟨hd.fine ih.1, hd.null ih.2⟩


/-! ### C18 -/

/-- C18: a tensor a program can obtain never has a buffer smaller than its shape says. -/
theorem C18_buffer_fits {t : Tensor α} (h : Obtainable t) {l : List α} (hl : t.buf = some l) : t.shape.size ≤ l.length :=
  (h.fine.1.buf l hl).2

/-- C18: every forward device function, on all tensors a program can obtain (any device, also null or host tensors), accesses
only memory inside its tensors. -/
theorem C18_forward_safe (op : FwOp α) {xs : List (Tensor α)} (hx : ∀ x, x ∈ xs → Obtainable x) (d : Nat) (m : Nat → α) :
    (Dev.fw op .debug d m xs).Safe :=
  (Dev.fw_good (fun x h => (hx x h).fine.1) (.inl rfl) d m).1

/-- C18: every backward device function other than `batch_pick_bw` with several ids. -/
theorem C18_backward_safe (op : BwOp α) (hop : op.Checked) {xs ys : List (Tensor α)} {gy gx : Tensor α}
    (hx : ∀ x, x ∈ xs → Obtainable x) (hy : ∀ y, y ∈ ys → Obtainable y) (hgy : Obtainable gy) (hgx : Obtainable gx)
    (d : Nat) (m : Mem α) : (Dev.bw op .debug d m xs ys gy gx).Safe :=
  (Dev.bw_good (fun x h => (hx x h).fine.1) (fun x h => (hy x h).fine.1) hgy.fine.1 hgx.fine.1 hop d m).1

/-- C18: the functions that create, copy, move and overwrite tensors. -/
theorem C18_create_safe {t x : Tensor α} (ht : Obtainable t) (hx : Obtainable x) {s : Shape} (hs : s.Reachable) (d : Nat)
    (m : Nat → α) (k : α) (v : List α) :
    (t.alloc .debug m).Safe ∧ (t.moveToDevice .debug d m).Safe ∧ (t.updateShape .debug s).Safe ∧
    (Dev.newByConstant .debug d m s k).Safe ∧ (Dev.newBySlice .debug d m s v).Safe ∧ (Dev.copyTensor .debug d m t).Safe ∧
    (Dev.resetTensor .debug t k).Safe ∧ (Dev.resetTensorBySlice .debug t v).Safe ∧ (Dev.resetTensorByTensor .debug t x).Safe ∧
    (Dev.mulAssignConst .debug d k t).Safe := by
  obtain ⟨h1, h2⟩ := ht.fine
  exact ⟨(Tensor.alloc_good h1 m).1, (Tensor.moveToDevice_good h1 m).1, (Tensor.updateShape_good h1 hs.wf).1,
    (Dev.newByConstant_good hs.wf d m k).1, (Dev.newBySlice_good hs.wf d m v).1, (Dev.copyTensor_good h1 d m).1,
    (Dev.resetTensor_safe h1 h2).1, (Dev.resetBySlice_safe h1 h2).1, (Dev.resetByTensor_safe h1 h2 hx.fine.1).1,
    (Dev.mulAssignConst_good h1 k).1⟩

/-- C18: the functions that read tensors.  `srt` is the sorting algorithm of the standard library (it permutes its input). -/
theorem C18_read_safe {t : Tensor α} (ht : Obtainable t) (d dim : Nat) {srt : (Nat → Nat → Bool) → List Nat → List Nat}
    (hs : ∀ le l, (srt le l).Perm l) :
    (t.toVec .debug).Safe ∧ (Dev.tensorToFloat .debug t).Safe ∧ (Dev.argmax .debug d t dim).Safe ∧
    (Dev.argmin .debug d t dim).Safe ∧ (Dev.argsort srt .debug d t dim).Safe :=
  have h := ht.fine.1
  ⟨Tensor.toVec_safe h, Dev.tensorToFloat_safe h, Dev.argmax_safe h dim, Dev.argmin_safe h dim, Dev.argsort_safe hs h dim⟩

/-- C18: `+=` and `-=` with an operand of at most the volume of the tensor (in particular of the same dims) and a compatible batch. -/
theorem C18_assign_safe {t x : Tensor α} (ht : Obtainable t) (hx : Obtainable x) (hd : x.shape.volume ≤ t.shape.volume)
    (hb : BatchCompat x.shape t.shape) (d : Nat) :
    (Dev.addAssign .debug d x t).Safe ∧ (Dev.subAssign .debug d x t).Safe :=
  ⟨(Dev.addAssign_good' hx.fine.1 ht.fine.1 hd hb.cases).1, (Dev.subAssign_good' hx.fine.1 ht.fine.1 hd hb.cases).1⟩

/-- C18: without overflow checks (release profile) the forward functions are safe whenever the exact size of the result fits u32. -/
theorem C18_forward_safe_release (op : FwOp α) {xs : List (Tensor α)} (hx : ∀ x, x ∈ xs → Obtainable x) {s : Shape}
    (hs : op.shape .debug (xs.map Tensor.shape) = ok s) (hsz : s.size < U32) (d : Nat) (m : Nat → α) :
    (Dev.fw op .release d m xs).Safe :=
  (Dev.fw_good (fun x h => (hx x h).fine.1) (.inr ⟨s, hs, hsz⟩) d m).1

/-- The shape `[n]` with batch `b`, for the witnesses. -/
def vecShape (n b : Nat) : Shape := ⟨[n, 1, 1, 1, 1, 1, 1, 1], b, if n = 1 then 0 else 1, n⟩

theorem vecShape_reachable {n b : Nat} (h : Shape.new .debug [n] b = ok (vecShape n b)) : (vecShape n b).Reachable := .new h

theorem Obtainable.const {d : Nat} {m : Nat → α} {s : Shape} {k : α} {y : Tensor α} (hs : s.Reachable)
    (h : Dev.newByConstant .debug d m s k = ok y) : Obtainable y := by
  unfold Dev.newByConstant at h
  obtain ⟨t, h1, h2⟩ := Res.bind_eq_ok.mp h
  exact .reset (.alloc (.new d hs) h1) h2

theorem loop_ub {n k : Nat} {f : Nat → σ → Res σ} {s : σ} (h : loop k f s = ub) (hk : k ≤ n) : loop n f s = ub := by
  obtain ⟨j, rfl⟩ := Nat.exists_eq_add_of_le hk
  clear hk
  induction j with
  | zero => exact h
  | succ j ih => rw [← Nat.add_assoc, loop_succ, ih]; rfl

theorem loop_hits {n k : Nat} {f : Nat → σ → Res σ} {s : σ} (I : σ → Prop) (h0 : I s) (hk : k < n)
    (hs : ∀ i, i < k → ∀ t, I t → ∃ t', f i t = ok t' ∧ I t') (hu : ∀ t, I t → f k t = ub) : loop n f s = ub := by
  have key : ∀ j, j ≤ k → ∃ t, loop j f s = ok t ∧ I t := by
    intro j
    induction j with
    | zero => exact fun _ => ⟨s, rfl, h0⟩
    | succ j ih =>
      intro hj
      obtain ⟨t, e, ht⟩ := ih (by omega)
      obtain ⟨t', e', ht'⟩ := hs j (by omega) t ht
      exact ⟨t', by rw [loop_succ, e, ok_bind, e'], ht'⟩
  obtain ⟨t, e, ht⟩ := key k (Nat.le_refl _)
  exact loop_ub (k := k + 1) (by rw [loop_succ, e, ok_bind, hu t ht]) hk

/-- A tensor whose `size()` is at most 64 gets a block of 64 elements, the smallest. -/
theorem small_alloc {s : Shape} {n : Nat} {p : Profile} (hn : s.sizeU p = ok n) (h1 : 1 ≤ n) (h : n ≤ 64) (m : Nat → α) :
    (Tensor.new 0 s : Tensor α).alloc p m = ok ⟨some 0, s, some ((List.range 64).map m), none⟩ := by
  have hc : Pool.classOf n = some 6 := by
    rw [Pool.classOf_iff (by show n < 4294967296; omega)]
    refine ⟨by omega, by omega, by rw [max_eq_right h]; decide, fun t ht => ?_⟩
    rw [max_eq_right h] at ht
    exact (Nat.pow_le_pow_iff_right (by omega : 1 < 2)).mp (show 2 ^ 6 ≤ 2 ^ t from ht)
  unfold Tensor.alloc
  show (s.sizeU p >>= fun n => newBuf n m >>= _) = _
  rw [hn, ok_bind]
  unfold newBuf
  rw [hc]; rfl

theorem small_block {s : Shape} {n : Nat} {p : Profile} (hn : s.sizeU p = ok n) (h1 : 1 ≤ n) (h : n ≤ 64) (m : Nat → α) (k : α) :
    ∃ y l, Dev.newByConstant p 0 m s k = ok y ∧ y.device = some 0 ∧ y.shape = s ∧ y.buf = some l ∧ l.length = 64 ∧
      (n ≤ 63 → l[63]? = some (m 63)) := by
  have hw : ∃ l, loop n (fun i py => wr py i k) ((List.range 64).map m) = ok l ∧ l.length = 64 ∧ (n ≤ 63 → l[63]? = some (m 63)) := by
    apply loop_inv (fun _ (l : List α) => l.length = 64 ∧ (n ≤ 63 → l[63]? = some (m 63))) (by simp)
    intro i l hi hl
    refine ⟨l.set i k, by unfold wr; rw [if_pos (by omega)], by simpa using hl.1, fun h => ?_⟩
    rw [List.getElem?_set_ne (by omega), hl.2 h]
  obtain ⟨l, e, hl⟩ := hw
  refine ⟨⟨some 0, s, some l, none⟩, l, ?_, rfl, rfl, rfl, hl.1, hl.2⟩
  unfold Dev.newByConstant
  rw [small_alloc hn h1 h m, ok_bind]
  show K.resetTensor p [] [] [k] _ = _
  unfold K.resetTensor
  rw [ix_cons_zero, ok_bind]
  show (s.sizeU p >>= _) = _
  rw [hn, ok_bind]
  show (loop n _ _ >>= _) = _
  rw [e]; rfl

/-- C18 is false of `+=` and `-=`: they check neither dims nor batch.  Witness: a scalar (in a block of 64 elements, the smallest)
`+=` a vector with 65 elements. -/
theorem C18_add_assign_out_of_bounds (m : Nat → α) : ∃ x y : Tensor α, Obtainable x ∧ Obtainable y ∧ x.device = some 0 ∧
    y.device = some 0 ∧ (∀ p, Dev.addAssign p 0 x y = ub) ∧ ∀ p, Dev.subAssign p 0 x y = ub := by
  have r1 := vecShape_reachable (n := 65) (b := 1) rfl
  have r2 := vecShape_reachable (n := 1) (b := 1) rfl
  obtain ⟨x, e1, h1⟩ := Dev.newByConstant_ok (α := α) r1.wf (by decide) .debug 0 m 0
  obtain ⟨y, ly, e2, hy1, hy2, hy3, hy4, -⟩ := small_block (α := α) (s := vecShape 1 1) (p := .debug) (n := 1) rfl (by omega) (by omega) m 0
  refine ⟨x, y, .const r1 e1, .const r2 e2, h1.device, hy1, fun p => ?_, fun p => ?_⟩
  all_goals
    obtain ⟨l, hl, hlen, _⟩ := h1.buf
    first | unfold Dev.addAssign | unfold Dev.subAssign
    rw [(Tensor.onDev_eq_ok (u := ())).mpr h1.device, ok_bind, (Tensor.onDev_eq_ok (u := ())).mpr hy1, ok_bind]
    unfold Dev.callFw Naive.fwImpl K.opAssign
    simp only [ix_cons_zero, ok_bind, Tensor.ptr, unwrap, hl, h1.shape, hy2, hy3]
    have hl' : 65 ≤ l.length := hlen
    unfold iter
    rw [loop_ub (k := 1)]
    · rfl
    · rw [loop_succ, loop_zero, ok_bind]
      show ((loop 65 _ _) >>= _) = ub
      rw [loop_hits (k := 64) (fun t : List α => t.length = 64) hy4 (by omega)]
      · rfl
      · intro i hi t ht
        rw [rd_eq (i := 0 + i) (l := l) (by omega), ok_bind]
        exact ⟨_, upd_eq (l := t) (i := 0 + i) (by omega) _, by simpa using ht⟩
      · intro t ht
        rw [rd_eq (i := 0 + 64) (l := l) (by omega), ok_bind]
        show (rd t (0 + 64) >>= _) = ub
        rw [rd_none (by omega)]; rfl
    · decide

/-- C18 is false of `batch_pick_bw` with several ids: it runs the kernel of `pick_bw`.  Witness: the gradient of picking batches 0 and
63 of 64 scalars, whose shapes the function accepts. -/
theorem C18_batch_pick_bw_out_of_bounds (m : Nat → α) : ∃ gy gx : Tensor α, Obtainable gy ∧ Obtainable gx ∧
    (BwOp.batchPick (α := α) [0, 63]).check .debug [] [] gy.shape gx.shape = ok () ∧
    ∀ p m', Dev.bw (.batchPick [0, 63]) p 0 m' [] [] gy gx = ub := by
  have r1 := vecShape_reachable (n := 1) (b := 2) rfl
  have r2 := vecShape_reachable (n := 1) (b := 64) rfl
  obtain ⟨gy, lg, e1, h1, h2, h3, h4, -⟩ := small_block (α := α) (s := vecShape 1 2) (p := .debug) (n := 2) rfl (by omega) (by omega) m 0
  obtain ⟨gx, lx, e2, hx1, hx2, hx3, hx4, -⟩ := small_block (α := α) (s := vecShape 1 64) (p := .debug) (n := 64) rfl (by omega) (by omega) m 0
  refine ⟨gy, gx, .const r1 e1, .const r2 e2, by rw [h2, hx2]; rfl, fun p m' => ?_⟩
  unfold Dev.bw
  show (gy.onDev 0 >>= fun _ => gx.onDev 0 >>= fun _ => (BwOp.batchPick (α := α) [0, 63]).check p [] [] gy.shape gx.shape >>= fun _ => K.pickBw p m' [] [] [gy] [0, 63] [] gx) = ub
  rw [(Tensor.onDev_eq_ok (u := ())).mpr h1, ok_bind, (Tensor.onDev_eq_ok (u := ())).mpr hx1, ok_bind,
    show (BwOp.batchPick (α := α) [0, 63]).check p [] [] gy.shape gx.shape = ok () by rw [h2, hx2]; cases p <;> rfl, ok_bind]
  unfold K.pickBw
  simp only [ix_cons_zero, ok_bind, Tensor.ptr, unwrap, h2, h3, hx2, hx3]
  rw [show (vecShape 1 2).lowerVolumeU p 0 = ok 1 by cases p <;> rfl, ok_bind, check_true _ (by decide), ok_bind]
  show (loop 2 _ _ >>= _) = ub
  rw [loop_succ, loop_succ, loop_zero, ok_bind]
  have v1 : (vecShape 1 2).volume / 1 = 1 := rfl
  have v2 : (vecShape 1 64).get 0 = 1 := rfl
  have v3 : (vecShape 1 64).hasBatch = true := rfl
  have v4 : (vecShape 1 64).volume = 1 := rfl
  simp only [v1, v2, v3, v4, loop_succ, loop_zero, ok_bind, List.drop_succ_cons, List.drop_zero, List.length_cons, List.length_nil,
    Nat.lt_irrefl, if_false, Nat.mul_zero, Nat.zero_add, ix_cons_zero, if_true, Nat.mul_one, Nat.add_zero]
  rw [rd_eq (by omega), ok_bind, upd_eq (by omega)]
  simp only [ok_bind]
  rw [rd_eq (by omega), ok_bind]
  unfold upd
  rw [rd_none (by simp; omega)]; rfl

theorem fwAb_ub {op : α → α → α} {p : Profile} {a : Tensor α} {u : List Nat} {v : List α} {la ly : List α} (ha : a.buf = some la)
    (h1 : la.length = 64) (h2 : ly.length = 64) {d : Option Nat} {s : Shape} {h : Option (List α)} (hv : 64 < s.volume)
    (hb : 0 < s.batch) : K.fwAb op p [a, a] u v ⟨d, s, some ly, h⟩ = ub := by
  unfold K.fwAb
  simp only [ix_cons_zero, ix_cons_one, ok_bind, Tensor.ptr, unwrap, ha]
  unfold iter
  rw [loop_ub (k := 1) ?_ hb]
  · rfl
  · rw [loop_succ, loop_zero, ok_bind]
    rw [loop_hits (k := 64) (fun t : List α => t.length = 64) h2 hv]
    · rfl
    · intro i hi t ht
      simp only [Nat.zero_add]
      rw [rd_eq (by omega), ok_bind, ok_bind]
      exact ⟨_, wr_eq (by omega) _, by simpa using ht⟩
    · intro t ht
      simp only [Nat.zero_add]
      rw [rd_none (by omega)]; rfl

/-- C18 is false in the release profile: `size()` wraps around.  Witness: shape `[641]` with batch 6700417 has
`641 * 6700417 = 2^32 + 1` elements, `size()` is 1, `new_tensor_by_constant` returns a tensor with a block of 64 elements, and `a + a`
reads outside of it. -/
theorem C18_release_out_of_bounds (m : Nat → α) (k : α) :
    Shape.new .release [641] 6700417 = ok (vecShape 641 6700417) ∧
    ∃ a : Tensor α, Dev.newByConstant .release 0 m (vecShape 641 6700417) k = ok a ∧
      Dev.fw (.bi .add) .release 0 m [a, a] = ub := by
  refine ⟨rfl, ?_⟩
  obtain ⟨a, la, e1, h1, h2, h3, h4, -⟩ := small_block (α := α) (s := vecShape 641 6700417) (p := .release) (n := 1) rfl (by omega) (by omega) m k
  refine ⟨a, e1, ?_⟩
  unfold Dev.fw
  rw [show Dev.onAll 0 [a, a] = ok () from onAll_ok fun x hx => by simp at hx; rw [hx]; exact h1, ok_bind]
  rw [show (FwOp.bi (α := α) .add).shape .release ([a, a].map Tensor.shape) = ok (vecShape 641 6700417) by
    simp only [List.map, h2]; rfl, ok_bind]
  rw [small_alloc (s := vecShape 641 6700417) (n := 1) rfl (by omega) (by omega), ok_bind]
  show K.fwAb _ .release [a, a] [] [] ⟨some 0, vecShape 641 6700417, some ((List.range 64).map m), none⟩ = ub
  exact fwAb_ub h3 (by omega) (by simp) (by show 64 < 641; omega) (by show 0 < 6700417; omega)

/-- Non-vacuity: null tensors, host tensors, allocated tensors and results of functions are obtainable. -/
example (m : Nat → α) : Obtainable (Tensor.new 0 (vecShape 2 1) : Tensor α) ∧ Obtainable (Tensor.newHost (vecShape 2 1) [1, 0] : Tensor α) ∧
    (∃ x y : Tensor α, Obtainable x ∧ Obtainable y ∧ Dev.newByConstant .debug 0 m (vecShape 65 3) 1 = ok x ∧
      Dev.fw (.bi .add) .debug 0 m [x, x] = ok y) ∧ (BwOp.matmulA : BwOp α).Checked := by
  have r1 := vecShape_reachable (n := 65) (b := 3) rfl
  obtain ⟨x, e1, h1⟩ := Dev.newByConstant_ok (α := α) r1.wf (by decide) .debug 0 m 1
  obtain ⟨y, e2, -⟩ := Dev.fw_ok (op := .bi .add) (s := vecShape 65 3) (d := 0) (xs := [x, x])
    (ins := [(vecShape 65 3, fun _ _ => 1), (vecShape 65 3, fun _ _ => 1)]) (.cons h1 (.cons h1 .nil)) rfl (by decide) (by trivial) .debug m
  have hx := Obtainable.const r1 e1
  exact ⟨.new 0 (vecShape_reachable rfl), .newHost _ (vecShape_reachable rfl),
    ⟨x, y, hx, .fw (xs := [x, x]) (by simpa using hx) e2, e1, e2⟩, trivial⟩

/-! ### C19 -/

/-- Two runs have the same observable outcome: both panic, or both return tensors of the same device and shape with the same
elements. -/
def SameOutcome (r r' : Res (Tensor α)) : Prop :=
  (r = panic ∧ r' = panic) ∨ ∃ y y' l, r = ok y ∧ r' = ok y' ∧ y.device = y'.device ∧ y.shape = y'.shape ∧
    (∀ p, y.toVec p = ok l) ∧ ∀ p, y'.toVec p = ok l

theorem SameT.outcome {d : Nat} {s : Shape} {r r' : Res (Tensor α)} (h : SameT d s r r') : SameOutcome r r' := by
  rcases h with h | ⟨y, y', F, h1, h2, h3, h4⟩
  · exact .inl h
  · exact .inr ⟨y, y', _, h1, h2, by rw [h3.device, h4.device], by rw [h3.shape, h4.shape], h3.toVec, h4.toVec⟩

/-- C19: the outcome of a forward function does not depend on what the recycled buffers contained. -/
theorem C19_forward {op : FwOp α} (hop : op.InRange) {xs : List (Tensor α)} (hx : ∀ x, x ∈ xs → Obtainable x) (d : Nat)
    (m m' : Nat → α) : SameOutcome (Dev.fw op .debug d m xs) (Dev.fw op .debug d m' xs) := by
  have hf : ∀ x, x ∈ xs → x.Fine := fun x h => (hx x h).fine.1
  obtain ⟨s, h, _⟩ := Dev.fw_same hf hf hop (List.forall₂_same.mpr fun _ _ => .inl rfl) d m m'
  exact h.outcome

/-- C19: nor does the outcome of a backward function (which may allocate temporaries). -/
theorem C19_backward {op : BwOp α} (hop : op.Checked) {xs ys : List (Tensor α)} {gy gx : Tensor α}
    (hx : ∀ x, x ∈ xs → Obtainable x) (hy : ∀ y, y ∈ ys → Obtainable y) (hgy : Obtainable gy) (hgx : Obtainable gx)
    (d : Nat) (m m' : Mem α) : SameOutcome (Dev.bw op .debug d m xs ys gy gx) (Dev.bw op .debug d m' xs ys gy gx) :=
  (Dev.bw_same (fun x h => (hx x h).fine.1) (fun x h => (hy x h).fine.1) hgy.fine.1 hgx.fine.1 hop d m m').outcome

/-- C19: nor do the contents of a tensor made by `new_tensor_by_constant`, `new_tensor_by_slice`, `copy_tensor`. -/
theorem C19_create {s : Shape} (hs : s.Reachable) {x : Tensor α} (hx : Obtainable x) (d : Nat) (m m' : Nat → α) (k : α) (v : List α) :
    SameOutcome (Dev.newByConstant .debug d m s k) (Dev.newByConstant .debug d m' s k) ∧
    SameOutcome (Dev.newBySlice .debug d m s v) (Dev.newBySlice .debug d m' s v) ∧
    SameOutcome (Dev.copyTensor .debug d m x) (Dev.copyTensor .debug d m' x) := by
  have panic_of : ∀ {s : Shape} {m : Nat → α}, s.WF → ¬ s.size ≤ 2 ^ 31 → (Tensor.new d s : Tensor α).alloc .debug m = panic := by
    intro s m hs h
    exact ne_ok_of_safe (Tensor.alloc_safe _ _ _) fun y hy => h (Tensor.alloc_new_imp hs hy).1
  refine ⟨?_, ?_, ?_⟩
  · by_cases h : s.size ≤ 2 ^ 31
    · obtain ⟨y, e1, h1⟩ := Dev.newByConstant_ok hs.wf h .debug d m k
      obtain ⟨y', e2, h2⟩ := Dev.newByConstant_ok hs.wf h .debug d m' k
      exact SameT.outcome (.inr ⟨y, y', _, e1, e2, h1, h2⟩)
    · unfold Dev.newByConstant; rw [panic_of hs.wf h, panic_of hs.wf h]; exact .inl ⟨rfl, rfl⟩
  · by_cases h : s.size ≤ 2 ^ 31
    · by_cases hv : v.length = s.size
      · obtain ⟨y, e1, h1⟩ := Dev.newBySlice_ok hs.wf h .debug d m hv
        obtain ⟨y', e2, h2⟩ := Dev.newBySlice_ok hs.wf h .debug d m' hv
        exact SameT.outcome (.inr ⟨y, y', _, e1, e2, h1, h2⟩)
      · have : ∀ m, Dev.newBySlice .debug d m s v = panic := by
          intro m
          obtain ⟨y, e1, h1⟩ := Tensor.alloc_new hs.wf h .debug d m
          unfold Dev.newBySlice Dev.resetTensorBySlice
          rw [e1, ok_bind, h1.shape, Shape.sizeU_eq h, ok_bind, check_false _ (fun e => hv e.symm)]; rfl
        rw [this, this]; exact .inl ⟨rfl, rfl⟩
    · unfold Dev.newBySlice; rw [panic_of hs.wf h, panic_of hs.wf h]; exact .inl ⟨rfl, rfl⟩
  · have hf := hx.fine
    by_cases h : x.shape.size ≤ 2 ^ 31
    · cases hb : x.buf with
      | none =>
        have : ∀ m, Dev.copyTensor .debug d m x = panic := by
          intro m
          obtain ⟨y, e1, h1⟩ := Tensor.alloc_new hf.1.wf h .debug d m
          unfold Dev.copyTensor Dev.resetTensorByTensor
          rw [e1, ok_bind]
          obtain ⟨l, hl, _⟩ := h1.buf
          rw [check_true _ (by simp [Tensor.valid, hl]), ok_bind, check_false _ (by simp [Tensor.valid, hb])]; rfl
        rw [this, this]; exact .inl ⟨rfl, rfl⟩
      | some l =>
        cases hd : x.device with
        | none => rw [hf.2 hd] at hb; cases hb
        | some e =>
          obtain ⟨f, hh⟩ := hf.1.holds hd hb
          obtain ⟨y, e1, h1⟩ := Dev.copyTensor_ok hh .debug d m
          obtain ⟨y', e2, h2⟩ := Dev.copyTensor_ok hh .debug d m'
          exact SameT.outcome (.inr ⟨y, y', _, e1, e2, h1, h2⟩)
    · unfold Dev.copyTensor; rw [panic_of hf.1.wf h, panic_of hf.1.wf h]; exact .inl ⟨rfl, rfl⟩

/-- The buffers themselves do differ beyond the elements of the tensor: the stale contents are still there (63 elements in a
block of 64). -/
example (a b : α) (m : Nat → α) (h : m 63 = b) : ∃ y l, Dev.newByConstant .debug 0 m (vecShape 63 1) a = ok y ∧
    y.buf = some l ∧ l[63]? = some b := by
  obtain ⟨y, l, e, _, _, h3, _, h5⟩ := small_block (s := vecShape 63 1) (p := .debug) (n := 63) rfl (by omega) (by omega) m a
  exact ⟨y, l, e, h3, by rw [h5 (by omega), h]⟩

/-! ### C47 -/

/-- C47: a forward function panics if one of its operands is not on its device (whatever the tensors are). -/
theorem C47_forward (op : FwOp α) (p : Profile) (d : Nat) (m : Nat → α) {xs : List (Tensor α)} {x : Tensor α} (hx : x ∈ xs)
    (h : x.device ≠ some d) : Dev.fw op p d m xs = panic := by
  unfold Dev.fw; rw [Dev.onAll_panic hx h]; rfl

/-- C47: a backward function panics if one of its tensors is not on its device. -/
theorem C47_backward (op : BwOp α) (p : Profile) (d : Nat) (m : Mem α) {xs ys : List (Tensor α)} {gy gx : Tensor α}
    (h : (∃ x, x ∈ xs ∧ x.device ≠ some d) ∨ (∃ y, y ∈ ys ∧ y.device ≠ some d) ∨ gy.device ≠ some d ∨ gx.device ≠ some d) :
    Dev.bw op p d m xs ys gy gx = panic := by
  unfold Dev.bw
  rcases h with ⟨x, h1, h2⟩ | h
  · rw [Dev.onAll_panic h1 h2]; rfl
  cases hx : Dev.onAll d xs with
  | panic => rfl
  | ub => exact absurd hx (Dev.onAll_safe _ _)
  | ok _ =>
  rw [ok_bind]
  rcases h with ⟨x, h1, h2⟩ | h
  · rw [Dev.onAll_panic h1 h2]; rfl
  cases hy : Dev.onAll d ys with
  | panic => rfl
  | ub => exact absurd hy (Dev.onAll_safe _ _)
  | ok _ =>
  rw [ok_bind]
  rcases h with h | h
  · rw [Tensor.onDev_panic h]; rfl
  cases hg : gy.onDev d with
  | panic => rfl
  | ub => exact absurd hg (Tensor.onDev_safe _ _)
  | ok _ => rw [ok_bind, Tensor.onDev_panic h]; rfl

/-- C47: so do the in-place functions and the functions that return indices. -/
theorem C47_others (p : Profile) (d : Nat) {x y : Tensor α} (k : α) (dim : Nat) (srt : (Nat → Nat → Bool) → List Nat → List Nat) :
    (x.device ≠ some d ∨ y.device ≠ some d → Dev.addAssign p d x y = panic ∧ Dev.subAssign p d x y = panic) ∧
    (x.device ≠ some d → Dev.mulAssignConst p d k x = panic ∧ Dev.argmax p d x dim = panic ∧ Dev.argmin p d x dim = panic ∧
      Dev.argsort srt p d x dim = panic) := by
  refine ⟨fun h => ?_, fun h => ?_⟩
  · have key : ∀ f : Unit → Res (Tensor α), (x.onDev d >>= fun _ => y.onDev d >>= f) = panic := by
      intro f
      rcases h with h | h
      · rw [Tensor.onDev_panic h]; rfl
      · rw [Tensor.onDev_panic h]
        cases hg : x.onDev d with
        | panic => rfl
        | ub => exact absurd hg (Tensor.onDev_safe _ _)
        | ok _ => rfl
    exact ⟨key _, key _⟩
  · unfold Dev.mulAssignConst Dev.argmax Dev.argmin Dev.argsort
    rw [Tensor.onDev_panic h]
    exact ⟨rfl, rfl, rfl, rfl⟩

/-- Non-vacuity: with all tensors on the device the same calls succeed. -/
example (m : Nat → α) : ∃ x y : Tensor α, Dev.newByConstant .debug 0 m (vecShape 65 3) 1 = ok x ∧
    Dev.fw (.bi .add) .debug 0 m [x, x] = ok y ∧ Dev.fw (.bi .add) .debug 1 m [x, x] = panic := by
  obtain ⟨x, e1, h1⟩ := Dev.newByConstant_ok (α := α) (vecShape_reachable (n := 65) (b := 3) rfl).wf (by decide) .debug 0 m 1
  obtain ⟨y, e2, -⟩ := Dev.fw_ok (op := .bi .add) (s := vecShape 65 3) (d := 0) (xs := [x, x])
    (ins := [(vecShape 65 3, fun _ _ => 1), (vecShape 65 3, fun _ _ => 1)]) (.cons h1 (.cons h1 .nil)) rfl (by decide) (by trivial) .debug m
  exact ⟨x, y, e1, e2, C47_forward _ _ _ _ (x := x) (by simp) (by rw [h1.device]; simp)⟩

end Verif
