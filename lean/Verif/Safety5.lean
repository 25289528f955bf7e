import Verif.DevMisc

/-!
# Memory safety of the other device functions: lemmas for C18
-/

set_option linter.unusedSectionVars false

namespace Verif
open Res
variable {α : Type} {d : Nat} [Flt α] {p : Profile}

theorem ptr_eq_ok {t : Tensor α} {l : List α} : t.ptr = ok l ↔ t.buf = some l := by
  cases h : t.buf with
  | none => rw [ptr_none h]; simp
  | some l' => rw [ptr_some h]; simp

theorem newBuf_imp {size : Nat} (hsz : size < U32) {m : Nat → α} {l : List α} (h : newBuf size m = ok l) :
    1 ≤ size ∧ size ≤ 2 ^ 31 ∧ size ≤ l.length := by
  by_cases h1 : 1 ≤ size ∧ size ≤ 2 ^ 31
  · obtain ⟨l', e, hl⟩ := newBuf_ok h1.1 h1.2 m
    rw [h] at e; cases e
    exact ⟨h1.1, h1.2, hl⟩
  · unfold newBuf at h
    rw [(Pool.classOf_none_iff hsz).mpr (by omega)] at h
    cases h

/-- Allocation of any tensor. -/
theorem Tensor.alloc_good {t : Tensor α} (h : t.Fine) (m : Nat → α) :
    (t.alloc .debug m).Safe ∧ ∀ y, t.alloc .debug m = ok y → y.Fine := by
  refine ⟨Tensor.alloc_safe _ _ _, fun y hy => ?_⟩
  unfold Tensor.alloc at hy
  simp only [check_bind_ok] at hy
  simp only [Res.bind_eq_ok] at hy
  obtain ⟨_, hh, _, hd, size, hs, b, hb, hy⟩ := hy
  cases hy
  obtain ⟨h1, rfl⟩ := Shape.u32_debug_ok.mp hs
  obtain ⟨_, h2, h3⟩ := newBuf_imp h1 hb
  refine ⟨h.wf, fun _ => by simpa using hh, fun l hl => ?_⟩
  cases hl
  exact ⟨h2, h3⟩

theorem Dev.resetTensor_good {x : Tensor α} (h : x.Fine) (hd : x.device = some d) (k : α) :
    Good d x.shape (Dev.resetTensor p x k) := by
  cases hb : x.buf with
  | none =>
    unfold Dev.resetTensor Dev.callFw
    show Good d x.shape (K.resetTensor p [] [] [k] x)
    unfold K.resetTensor
    simp only [ix_cons_zero, ok_bind, ptr_none hb]
    exact Good.bind_of (Shape.sizeU_safe _ _) fun _ _ => Good.panic
  | some l =>
    obtain ⟨f, hf⟩ := h.holds hd hb
    exact Good.of_ok (Dev.resetTensor_ok hf p k)

theorem Dev.resetBySlice_good {x : Tensor α} (h : x.Fine) (hd : x.device = some d) (v : List α) :
    Good d x.shape (Dev.resetTensorBySlice p x v) := by
  cases hb : x.buf with
  | none =>
    unfold Dev.resetTensorBySlice
    refine Good.bind_of (Shape.sizeU_safe _ _) fun _ _ => Good.bind_of (check_safe _) fun _ _ => ?_
    show Good d x.shape (K.resetBySlice p [] [] v x)
    unfold K.resetBySlice
    simp only [ptr_none hb]
    exact Good.bind_of (Shape.sizeU_safe _ _) fun _ _ => Good.panic
  | some l =>
    obtain ⟨f, hf⟩ := h.holds hd hb
    by_cases hv : v.length = x.shape.size
    · exact Good.of_ok (Dev.resetBySlice_ok hf p hv)
    · unfold Dev.resetTensorBySlice
      rw [Shape.sizeU_eq hf.small, ok_bind, check_false _ (fun e => hv e.symm)]
      exact Good.panic

theorem Dev.mulAssignConst_good {x : Tensor α} (h : x.Fine) (k : α) :
    Good d x.shape (Dev.mulAssignConst p d k x) := by
  unfold Dev.mulAssignConst
  refine Good.bind_of (Tensor.onDev_safe _ _) fun u hu => ?_
  have hd := Tensor.onDev_eq_ok.mp hu
  cases hb : x.buf with
  | none =>
    show Good d x.shape (K.mulAssignConst p [] [] [k] x)
    unfold K.mulAssignConst
    simp only [ix_cons_zero, ok_bind, ptr_none hb]
    exact Good.bind_of (Shape.sizeU_safe _ _) fun _ _ => Good.panic
  | some l =>
    obtain ⟨f, hf⟩ := h.holds hd hb
    have := Good.of_ok (Dev.mulAssignConst_ok hf p k)
    unfold Dev.mulAssignConst at this
    rwa [hu, ok_bind] at this

theorem Dev.tensorToVector_safe {x : Tensor α} (h : x.Fine) : (Dev.tensorToVector p x).Safe := by
  unfold Dev.tensorToVector
  refine Res.Safe.bind (Shape.sizeU_safe _ _) fun size hs => ?_
  cases hb : x.buf with
  | none =>
    unfold K.tensorToVector
    simp only [ix_cons_zero, ok_bind, ptr_none hb]
    exact Res.Safe.bind (Shape.sizeU_safe _ _) fun _ _ => safe_panic
  | some l =>
    obtain ⟨h1, h2⟩ := h.buf l hb
    have e := Shape.sizeU_eq h1 p
    rw [e] at hs; cases hs
    unfold K.tensorToVector
    simp only [ix_cons_zero, ok_bind, ptr_some hb, e]
    refine loop_ne_ub fun i t hi => Res.Safe.bind ?_ fun _ _ => ?_
    · rw [rd_eq (by omega)]; exact safe_ok _
    · unfold wx; split <;> simp

theorem Tensor.toVec_safe {x : Tensor α} (h : x.Fine) : (x.toVec p).Safe :=
  Res.Safe.bind x.dev_safe fun _ _ => Dev.tensorToVector_safe h

theorem Dev.tensorToFloat_safe {x : Tensor α} (h : x.Fine) : (Dev.tensorToFloat p x).Safe := by
  unfold Dev.tensorToFloat
  refine Res.Safe.bind (Shape.sizeU_safe _ _) fun size hs => Res.Safe.bind (check_safe _) fun _ hc =>
    Res.Safe.bind ?_ fun _ _ => ix_safe _ _
  rw [check_eq_ok] at hc; subst hc
  have := Dev.tensorToVector_safe (p := p) h
  unfold Dev.tensorToVector at this
  rw [hs, ok_bind] at this
  exact this

theorem Dev.resetByTensor_good {x source : Tensor α} (h : x.Fine) (hs : source.Fine) (hd : x.device = some d) :
    Good d x.shape (Dev.resetTensorByTensor p x source) := by
  unfold Dev.resetTensorByTensor
  refine Good.bind_of (check_safe _) fun _ h1 => Good.bind_of (check_safe _) fun _ h2 =>
    Good.bind_of (Shape.sizeU_safe _ _) fun a ha => Good.bind_of (Shape.sizeU_safe _ _) fun b hb =>
    Good.bind_of (check_safe _) fun _ h3 => ?_
  rw [check_eq_ok] at h1 h2 h3
  subst h3
  obtain ⟨l, hl⟩ := Option.isSome_iff_exists.mp h1
  obtain ⟨l2, hl2⟩ := Option.isSome_iff_exists.mp h2
  obtain ⟨f, hf⟩ := h.holds hd hl
  obtain ⟨q1, q2⟩ := hs.buf l2 hl2
  show Good d x.shape (K.resetByTensor p [source] [] [] x)
  cases hsd : source.device with
  | none =>
    unfold K.resetByTensor Tensor.toVec
    simp only [ix_cons_zero, ok_bind, Tensor.dev, hsd, unwrap, panic_bind]
    exact Good.bind_of (Shape.sizeU_safe _ _) fun _ _ => Good.panic
  | some e =>
    obtain ⟨g, hg⟩ := hs.holds hsd hl2
    have e1 : x.shape.size = source.shape.size := by
      rw [Shape.sizeU_eq hf.small] at ha
      rw [Shape.sizeU_eq hg.small] at hb
      cases ha; exact (Res.ok.inj hb).symm
    obtain ⟨y', e1, h1⟩ := K.resetByTensor_ok (p := p) (u := []) (v := []) hg.flat hf.flat.room e1
    exact Good.of_ok ⟨y', e1, h1.holds (f := fun c b => Arr.flat source.shape g (x.shape.offset c b)) fun _ _ _ => rfl⟩

theorem Tensor.moveToDevice_good {x : Tensor α} (h : x.Fine) (m : Nat → α) :
    Good d x.shape (x.moveToDevice .debug d m) := by
  unfold Tensor.moveToDevice
  refine Good.bind_of (check_safe _) fun _ h1 => Good.bind_of (Shape.sizeU_safe _ _) fun size hs =>
    Good.bind_of (newBuf_safe _ _) fun b hb => Good.bind_of (unwrap_safe _) fun v hv => ?_
  obtain ⟨q1, rfl⟩ := Shape.u32_debug_ok.mp hs
  obtain ⟨_, q2, q3⟩ := newBuf_imp q1 hb
  refine Dev.resetBySlice_good (x := { x with device := some d, buf := some b, host := none }) ⟨h.wf, fun _ => rfl, fun l hl => ?_⟩ rfl v
  cases hl
  exact ⟨q2, q3⟩

theorem Dev.newByConstant_good {s : Shape} (hs : s.WF) (d : Nat) (m : Nat → α) (k : α) :
    Good d s (Dev.newByConstant .debug d m s k) := by
  unfold Dev.newByConstant
  refine Good.bind_of (Tensor.alloc_safe _ _ _) fun t ht => ?_
  obtain ⟨_, hr⟩ := Tensor.alloc_new_imp hs ht
  have := Dev.resetTensor_good (p := .debug) hr.fine hr.device k
  rwa [hr.shape] at this

theorem Dev.newBySlice_good {s : Shape} (hs : s.WF) (d : Nat) (m : Nat → α) (v : List α) :
    Good d s (Dev.newBySlice .debug d m s v) := by
  unfold Dev.newBySlice
  refine Good.bind_of (Tensor.alloc_safe _ _ _) fun t ht => ?_
  obtain ⟨_, hr⟩ := Tensor.alloc_new_imp hs ht
  have := Dev.resetBySlice_good (p := .debug) hr.fine hr.device v
  rwa [hr.shape] at this

theorem Dev.copyTensor_good {x : Tensor α} (h : x.Fine) (d : Nat) (m : Nat → α) :
    Good d x.shape (Dev.copyTensor .debug d m x) := by
  unfold Dev.copyTensor
  refine Good.bind_of (Tensor.alloc_safe _ _ _) fun t ht => ?_
  obtain ⟨_, hr⟩ := Tensor.alloc_new_imp h.wf ht
  have := Dev.resetByTensor_good (p := .debug) hr.fine h hr.device
  rwa [hr.shape] at this

theorem Dev.addAssign_good {x g : Tensor α} (hx : x.Fine) (hg : g.Fine) (hd : ∀ i, x.shape.get i = g.shape.get i)
    (hb : x.shape.batch = 1 ∨ g.shape.batch = 1 ∨ x.shape.batch = g.shape.batch) :
    Good d g.shape (Dev.addAssign p d x g) := by
  unfold Dev.addAssign
  refine Good.bind_of (Tensor.onDev_safe _ _) fun _ h1 => Good.bind_of (Tensor.onDev_safe _ _) fun _ h2 => ?_
  exact K.opAssign_good (p := p) (u := []) (v := []) _ hx hg (Tensor.onDev_eq_ok.mp h1) (Tensor.onDev_eq_ok.mp h2) hd hb

theorem Dev.subAssign_good {x g : Tensor α} (hx : x.Fine) (hg : g.Fine) (hd : ∀ i, x.shape.get i = g.shape.get i)
    (hb : x.shape.batch = 1 ∨ g.shape.batch = 1 ∨ x.shape.batch = g.shape.batch) :
    Good d g.shape (Dev.subAssign p d x g) := by
  unfold Dev.subAssign
  refine Good.bind_of (Tensor.onDev_safe _ _) fun _ h1 => Good.bind_of (Tensor.onDev_safe _ _) fun _ h2 => ?_
  exact K.opAssign_good (p := p) (u := []) (v := []) _ hx hg (Tensor.onDev_eq_ok.mp h1) (Tensor.onDev_eq_ok.mp h2) hd hb

theorem Dev.addAssign_good' {x g : Tensor α} (hx : x.Fine) (hg : g.Fine) (hd : x.shape.volume ≤ g.shape.volume)
    (hb : x.shape.batch = 1 ∨ g.shape.batch = 1 ∨ x.shape.batch = g.shape.batch) :
    Good d g.shape (Dev.addAssign p d x g) := by
  unfold Dev.addAssign
  refine Good.bind_of (Tensor.onDev_safe _ _) fun _ h1 => Good.bind_of (Tensor.onDev_safe _ _) fun _ h2 => ?_
  exact K.opAssign_good' (p := p) (u := []) (v := []) _ hx hg (Tensor.onDev_eq_ok.mp h2) hd hb

theorem Dev.subAssign_good' {x g : Tensor α} (hx : x.Fine) (hg : g.Fine) (hd : x.shape.volume ≤ g.shape.volume)
    (hb : x.shape.batch = 1 ∨ g.shape.batch = 1 ∨ x.shape.batch = g.shape.batch) :
    Good d g.shape (Dev.subAssign p d x g) := by
  unfold Dev.subAssign
  refine Good.bind_of (Tensor.onDev_safe _ _) fun _ h1 => Good.bind_of (Tensor.onDev_safe _ _) fun _ h2 => ?_
  exact K.opAssign_good' (p := p) (u := []) (v := []) _ hx hg (Tensor.onDev_eq_ok.mp h2) hd hb

theorem Tensor.updateShape_good {x : Tensor α} (h : x.Fine) {s : Shape} (hs : s.WF) :
    (x.updateShape .debug s).Safe ∧ ∀ y, x.updateShape .debug s = ok y → y.Fine := by
  unfold Tensor.updateShape
  refine ⟨Res.Safe.bind (Shape.sizeU_safe _ _) fun _ _ => Res.Safe.bind (Shape.sizeU_safe _ _) fun _ _ =>
    Res.Safe.bind (check_safe _) fun _ _ => safe_ok _, fun y hy => ?_⟩
  simp only [Res.bind_eq_ok, check_eq_ok] at hy
  obtain ⟨a, ha, b, hb, _, rfl, hy⟩ := hy
  cases hy
  obtain ⟨_, e1⟩ := Shape.u32_debug_ok.mp ha
  obtain ⟨_, e2⟩ := Shape.u32_debug_ok.mp hb
  have e : s.size = x.shape.size := by unfold Shape.size; omega
  refine ⟨hs, h.host, fun l hl => ?_⟩
  show s.size ≤ _ ∧ s.size ≤ _
  rw [e]; exact h.buf l hl

/-- argmax, argmin. -/
theorem K.argext_safe (better : α → α → Bool) {x : Tensor α} (h : x.Fine) {dim : Nat} {ys : List Nat} :
    (K.argext better p [x] [dim] ys).Safe := by
  cases hb : x.buf with
  | none =>
    unfold K.argext
    simp only [ix_cons_zero, ok_bind, ptr_none hb]
    safe_chain
  | some l =>
    obtain ⟨h1, h2⟩ := h.buf l hb
    have hsz := size_axis h.wf h.wf (dim := dim) (fun _ _ => rfl) rfl
    have hlv := h.wf.lowerVolume_pos dim
    have hn1 := h.wf.get_pos dim
    unfold K.argext
    simp only [ix_cons_zero, ok_bind, ptr_some hb, Shape.sizeU_eq h1, Shape.lowerVolumeU_eq h.wf]
    generalize hH : x.shape.up dim * x.shape.batch = H at hsz
    generalize hbase : x.shape.lowerVolume dim = lv at *
    generalize hn : x.shape.get dim = n at *
    have hr2 : x.shape.size / n = lv * H := by rw [hsz, Nat.mul_right_comm, Nat.mul_div_cancel _ hn1]
    rw [hr2, check_true _ (Or.inr (Nat.ne_of_gt hlv)), ok_bind]
    refine loop_ne_ub fun i t hi => ?_
    have hp : ∀ j, j < n → i % lv + i / lv * (lv * n) + j * lv < l.length := fun j hj => by
      have := K.fibPos_lt hi hj
      unfold K.fibPos at this
      omega
    refine Res.Safe.bind ?_ fun v _ => Res.Safe.bind ?_ fun _ _ => ?_
    · have := hp 0 hn1
      rw [rd_eq (by omega)]; exact safe_ok _
    · have key := (loop_safe_inv (n := n - 1) (s := (i % lv + i / lv * (lv * n), v, 0))
        (f := fun j (st : Nat × α × Nat) => (rd l (st.1 + lv) >>= fun v =>
          ok (st.1 + lv, if better v st.2.1 then (v, j + 1) else st.2)))
        (fun j st => st.1 = i % lv + i / lv * (lv * n) + j * lv) (by simp)
        (fun j st hj hst => by
          have hlt := hp (j + 1) (by omega)
          have : st.1 + lv < l.length := by rw [hst, Nat.add_assoc, ← Nat.succ_mul]; exact hlt
          rw [rd_eq this, ok_bind]
          refine ⟨safe_ok _, fun t' ht' => ?_⟩
          cases ht'
          simp only [hst]; ring)).1
      exact key
    · unfold wx; split <;> simp

theorem Dev.argmax_safe {x : Tensor α} (h : x.Fine) (dim : Nat) : (Dev.argmax p d x dim).Safe := by
  unfold Dev.argmax Dev.divU
  refine Res.Safe.bind (Tensor.onDev_safe _ _) fun _ _ => Res.Safe.bind (Shape.sizeU_safe _ _) fun _ _ => ?_
  refine Res.Safe.bind (Res.Safe.bind (check_safe _) fun _ _ => safe_ok _) fun _ _ => K.argext_safe _ h

theorem Dev.argmin_safe {x : Tensor α} (h : x.Fine) (dim : Nat) : (Dev.argmin p d x dim).Safe := by
  unfold Dev.argmin Dev.divU
  refine Res.Safe.bind (Tensor.onDev_safe _ _) fun _ _ => Res.Safe.bind (Shape.sizeU_safe _ _) fun _ _ => ?_
  refine Res.Safe.bind (Res.Safe.bind (check_safe _) fun _ _ => safe_ok _) fun _ _ => K.argext_safe _ h

theorem wx_safe {β : Type} (t : List β) (i : Nat) (v : β) : (wx t i v).Safe := by unfold wx; split <;> simp

theorem wx_mem {β : Type} {t t' : List β} {i : Nat} {v : β} {P : β → Prop} (h : wx t i v = ok t') (ht : ∀ a, a ∈ t → P a) (hv : P v) :
    ∀ a, a ∈ t' → P a := by
  unfold wx at h
  split at h
  · cases h
    intro a ha
    rcases List.mem_or_eq_of_mem_set ha with h1 | h1
    · exact ht a h1
    · exact h1 ▸ hv
  · cases h

theorem K.sortBlock_safe {srt : (Nat → Nat → Bool) → List Nat → List Nat} {src : List α} {l : List Nat}
    (h : ∀ k, k ∈ l → k < src.length) : (K.sortBlock srt src l).Safe := by
  unfold K.sortBlock
  refine Res.Safe.bind (loop_ne_ub fun i t hi => ?_) fun _ _ => Res.Safe.bind (check_safe _) fun _ _ => safe_ok _
  rw [ix_eq hi, ok_bind, rd_eq (h _ (List.getElem_mem _)), ok_bind]
  exact safe_ok _

theorem K.argsort_safe {srt : (Nat → Nat → Bool) → List Nat → List Nat} (hs : ∀ le l, (srt le l).Perm l)
    {x : Tensor α} (h : x.Fine) {dim : Nat} {ys : List Nat} : (K.argsort srt p [x] [dim] ys).Safe := by
  unfold K.argsort
  simp only [ix_cons_zero, ok_bind]
  refine Res.Safe.bind (Shape.sizeU_safe _ _) fun size hsz => Res.Safe.bind (Shape.lowerVolumeU_safe _ _ _) fun skip hsk =>
    Res.Safe.bind (check_safe _) fun _ hc => ?_
  rw [check_eq_ok] at hc
  generalize hlen : x.shape.get dim = len at *
  cases hb : x.buf with
  | none =>
    rw [ptr_none hb]
    refine Res.Safe.bind ?_ fun _ _ => safe_panic
    exact loop_ne_ub fun _ _ _ => loop_ne_ub fun _ _ _ => loop_ne_ub fun _ _ _ => wx_safe _ _ _
  | some l =>
    obtain ⟨h1, h2⟩ := h.buf l hb
    rw [Shape.sizeU_eq h1] at hsz; cases hsz
    rw [Shape.lowerVolumeU_eq h.wf] at hsk; cases hsk
    have hsz := size_axis h.wf h.wf (dim := dim) (fun _ _ => rfl) rfl
    have hpos := h.wf.size_pos
    rw [hlen] at hsz
    generalize hH : x.shape.up dim * x.shape.batch = H at hsz
    generalize hbase : x.shape.lowerVolume dim = lv at *
    generalize hz : x.shape.size = size at *
    rw [ptr_some hb]
    have hnb : (size + lv * len - 1) / (lv * len) = H := by
      have h0 : 0 < lv * len := Nat.pos_of_ne_zero hc
      rw [hsz, show lv * len * H + lv * len - 1 = (lv * len - 1) + lv * len * H by omega, Nat.add_mul_div_left _ _ h0,
        Nat.div_eq_of_lt (by omega), Nat.zero_add]
    rw [hnb]
    have k1 := loop_safe_inv (n := H) (s := List.replicate size 0)
      (f := fun o ind => loop lv (fun j ind => loop len (fun i ind =>
        wx ind (o * (lv * len) + j * len + i) (o * (lv * len) + j + lv * i)) ind) ind)
      (fun _ ind => ∀ a, a ∈ ind → a < size) (by intro a ha; rw [List.eq_of_mem_replicate ha]; omega)
      (fun o ind ho hi => loop_safe_inv (n := lv) (fun _ ind => ∀ a, a ∈ ind → a < size) hi
        (fun j ind hj hi => loop_safe_inv (n := len) (fun _ ind => ∀ a, a ∈ ind → a < size) hi
          (fun i ind hi' hi => ⟨wx_safe _ _ _, fun t ht => wx_mem (P := fun a => a < size) ht hi (by
            have : j + lv * i < lv * len := by
              calc j + lv * i < lv + lv * i := by omega
                _ = lv * (i + 1) := by ring
                _ ≤ lv * len := Nat.mul_le_mul_left _ hi'
            rw [hsz, Nat.mul_comm (lv * len) H, Nat.add_assoc]
            exact nm_lt ho this)⟩)))
    refine Res.Safe.bind k1.1 fun ind hind => ?_
    have hind' := k1.2 ind hind
    rw [ok_bind]
    have k2 := loop_safe_inv (n := (size + len - 1) / len) (s := ind) (f := fun o ind => (check (o * len + len ≤ ind.length) >>= fun _ =>
        K.sortBlock srt l ((ind.drop (o * len)).take len) >>= fun blk =>
        ok (ind.take (o * len) ++ blk ++ ind.drop (o * len + len))))
      (fun _ ind => ∀ a, a ∈ ind → a < size) hind'
      (fun o ind ho hi => by
        have hsub : ∀ a, a ∈ (ind.drop (o * len)).take len → a < size :=
          fun a ha => hi a (List.mem_of_mem_drop (List.mem_of_mem_take ha))
        refine ⟨Res.Safe.bind (check_safe _) fun _ _ => Res.Safe.bind (K.sortBlock_safe fun a ha => ?_) fun _ _ => safe_ok _,
          fun t ht => ?_⟩
        · have := hsub a ha; omega
        · simp only [Res.bind_eq_ok] at ht
          obtain ⟨_, _, blk, hblk, ht⟩ := ht
          cases ht
          unfold K.sortBlock at hblk
          simp only [Res.bind_eq_ok] at hblk
          obtain ⟨_, _, _, _, hblk⟩ := hblk
          cases hblk
          intro a ha
          simp only [List.mem_append] at ha
          rcases ha with (ha | ha) | ha
          · exact hi a (List.mem_of_mem_take ha)
          · exact hsub a ((hs _ _).mem_iff.mp ha)
          · exact hi a (List.mem_of_mem_drop ha))
    refine Res.Safe.bind k2.1 fun ind2 _ => ?_
    exact loop_ne_ub fun _ _ _ => loop_ne_ub fun _ _ _ => loop_ne_ub fun _ _ _ => Res.Safe.bind (ix_safe _ _) fun _ _ => wx_safe _ _ _

theorem Dev.argsort_safe {srt : (Nat → Nat → Bool) → List Nat → List Nat} (hs : ∀ le l, (srt le l).Perm l)
    {x : Tensor α} (h : x.Fine) (dim : Nat) : (Dev.argsort srt p d x dim).Safe := by
  unfold Dev.argsort
  exact Res.Safe.bind (Tensor.onDev_safe _ _) fun _ _ => Res.Safe.bind (Shape.sizeU_safe _ _) fun _ _ => K.argsort_safe hs h

theorem BatchCompat.cases {a b : Shape} (h : BatchCompat a b) : a.batch = 1 ∨ b.batch = 1 ∨ a.batch = b.batch := by
  unfold BatchCompat at h; omega

theorem Dev.resetTensor_safe {t : Tensor α} {k : α} (h : t.Fine) (h2 : t.device = none → t.buf = none) :
    (Dev.resetTensor .debug t k).Safe ∧ ∀ y, Dev.resetTensor .debug t k = ok y → y.Fine ∧ (y.device = none → y.buf = none) := by
  cases hd : t.device with
  | some d =>
    have := Dev.resetTensor_good (p := .debug) h hd k
    exact ⟨this.1, fun y hy => ⟨(this.2 y hy).1, fun hn => by rw [(this.2 y hy).2.1] at hn; cases hn⟩⟩
  | none =>
    have e : ∀ y, Dev.resetTensor .debug t k ≠ ok y := by
      intro y hy
      unfold Dev.resetTensor Dev.callFw at hy
      change K.resetTensor .debug [] [] [k] t = ok y at hy
      unfold K.resetTensor at hy
      simp only [ix_cons_zero, ok_bind, ptr_none (h2 hd), Res.bind_eq_ok] at hy
      obtain ⟨_, _, _, hp, _⟩ := hy; cases hp
    refine ⟨?_, fun y hy => absurd hy (e y)⟩
    show (K.resetTensor .debug [] [] [k] t).Safe
    unfold K.resetTensor
    simp only [ix_cons_zero, ok_bind, ptr_none (h2 hd)]
    exact Res.Safe.bind (Shape.sizeU_safe _ _) fun _ _ => safe_panic

theorem Dev.resetBySlice_safe {t : Tensor α} {v : List α} (h : t.Fine) (h2 : t.device = none → t.buf = none) :
    (Dev.resetTensorBySlice .debug t v).Safe ∧
      ∀ y, Dev.resetTensorBySlice .debug t v = ok y → y.Fine ∧ (y.device = none → y.buf = none) := by
  cases hd : t.device with
  | some d =>
    have := Dev.resetBySlice_good (p := .debug) h hd v
    exact ⟨this.1, fun y hy => ⟨(this.2 y hy).1, fun hn => by rw [(this.2 y hy).2.1] at hn; cases hn⟩⟩
  | none =>
    have e : ∀ y, Dev.resetTensorBySlice .debug t v ≠ ok y := by
      intro y hy
      unfold Dev.resetTensorBySlice at hy
      simp only [Res.bind_eq_ok] at hy
      obtain ⟨_, _, _, _, hy⟩ := hy
      change K.resetBySlice .debug [] [] v t = ok y at hy
      unfold K.resetBySlice at hy
      simp only [ptr_none (h2 hd), Res.bind_eq_ok] at hy
      obtain ⟨_, _, _, hp, _⟩ := hy; cases hp
    refine ⟨?_, fun y hy => absurd hy (e y)⟩
    unfold Dev.resetTensorBySlice
    refine Res.Safe.bind (Shape.sizeU_safe _ _) fun _ _ => Res.Safe.bind (check_safe _) fun _ _ => ?_
    show (K.resetBySlice .debug [] [] v t).Safe
    unfold K.resetBySlice
    simp only [ptr_none (h2 hd)]
    exact Res.Safe.bind (Shape.sizeU_safe _ _) fun _ _ => safe_panic

theorem Dev.resetByTensor_safe {t x : Tensor α} (h : t.Fine) (h2 : t.device = none → t.buf = none) (hx : x.Fine) :
    (Dev.resetTensorByTensor .debug t x).Safe ∧
      ∀ y, Dev.resetTensorByTensor .debug t x = ok y → y.Fine ∧ (y.device = none → y.buf = none) := by
  cases hd : t.device with
  | some d =>
    have := Dev.resetByTensor_good (p := .debug) h hx hd
    exact ⟨this.1, fun y hy => ⟨(this.2 y hy).1, fun hn => by rw [(this.2 y hy).2.1] at hn; cases hn⟩⟩
  | none =>
    have e : Dev.resetTensorByTensor .debug t x = panic := by
      unfold Dev.resetTensorByTensor
      rw [check_false _ (by simp [Tensor.valid, h2 hd])]; rfl
    rw [e]; exact ⟨safe_panic, fun y hy => by cases hy⟩

end Verif
