import Verif.Safety

/-!
# Memory safety of the device functions: lemmas for C18 (continued)
-/

set_option linter.unusedSectionVars false

namespace Verif
open Res
variable {α : Type} {d : Nat} [Flt α]

theorem FwOp.shape_safe (op : FwOp α) (p : Profile) (sh : List Shape) : (op.shape p sh).Safe := by
  unfold FwOp.shape
  split
  all_goals first
    | exact safe_ok _
    | exact safe_panic
    | exact Shape.elementwise_safe _ _
    | exact Shape.scalarOp_safe _ _
    | exact Shape.resizeDim_safe _ _ _ _
    | exact Shape.resizeBatch_safe _ _
    | exact Shape.broadcast_safe _ _ _ _
    | exact Shape.matmul_safe _ _ _
    | exact Shape.transpose_safe _ _
    | exact Res.Safe.bind (check_safe _) fun _ _ => safe_ok _
    | exact Shape.slice_safe _ _ _ _ _
    | exact Shape.pick_safe _ _ _ _
    | exact Res.Safe.bind (check_safe _) fun _ _ => Shape.concat_safe _ _ _
    | exact Res.Safe.bind (check_safe _) fun _ _ => Shape.batchConcat_safe _ _
    | exact Shape.batchSlice_safe _ _ _
    | exact Shape.batchPick_safe _ _

theorem volN_le {f g : Nat → Nat} {n : Nat} (h : ∀ i, i < n → f i ≤ g i) : volN f n ≤ volN g n := by
  induction n with
  | zero => exact Nat.le_refl _
  | succ n ih => exact Nat.mul_le_mul (ih fun i hi => h i (by omega)) (h n (by omega))

theorem concat_le {xs : List Shape} {dim : Nat} {s : Shape} (hx : ∀ x, x ∈ xs → x.WF)
    (h : ShapeOps.concat .debug xs dim = ok s) : ∀ x, x ∈ xs → x.size ≤ s.size := by
  obtain ⟨_, _, h1, _, _, h2, h3, h4⟩ := (Shape.concat_iff hx).mp h
  intro x hxm
  obtain ⟨i, hi, rfl⟩ := List.getElem_of_mem hxm
  have e : Verif.nth xs i = xs[i] := by simp [Verif.nth, List.getElem?_eq_getElem hi]
  unfold Shape.size
  refine Nat.mul_le_mul ?_ ?_
  · rw [h4, ← e]; exact Shape.maxN_le (f := fun i => (Verif.nth xs i).batch) hi
  · rw [(hx _ hxm).vol, h2.vol]
    refine volN_le fun k _ => ?_
    rw [h3 k]
    unfold setC
    by_cases hk : k = dim
    · subst hk; rw [if_pos rfl, ← e]; exact Shape.sumN_le (f := fun i => (Verif.nth xs i).get k) hi
    · rw [if_neg hk, ← h1 i hi k hk, e]

theorem batchConcat_le {xs : List Shape} {s : Shape} (hx : ∀ x, x ∈ xs → x.WF)
    (h : ShapeOps.batchConcat .debug xs = ok s) : ∀ x, x ∈ xs → x.size ≤ s.size := by
  obtain ⟨_, h1, _, h2, h3, h4⟩ := (Shape.batchConcat_iff hx).mp h
  intro x hxm
  obtain ⟨i, hi, rfl⟩ := List.getElem_of_mem hxm
  have e : Verif.nth xs i = xs[i] := by simp [Verif.nth, List.getElem?_eq_getElem hi]
  unfold Shape.size
  refine Nat.mul_le_mul ?_ ?_
  · rw [h4, ← e]; exact Shape.sumN_le (f := fun i => (Verif.nth xs i).batch) hi
  · rw [(hx _ hxm).vol, h2.vol]
    refine volN_le fun k _ => ?_
    rw [h3 k, ← h1 i hi k, e]

/-- In a build without overflow checks as well, allocation of a shape whose size fits in u32 gives room or panics. -/
theorem Tensor.alloc_new_imp' {s : Shape} (hs : s.WF) {p : Profile} (hp : p = .debug ∨ s.size < U32) {d : Nat} {m : Nat → α}
    {y : Tensor α} (h : (Tensor.new d s : Tensor α).alloc p m = ok y) : s.size ≤ 2 ^ 31 ∧ y.Room d s := by
  rcases hp with rfl | hp
  · exact Tensor.alloc_new_imp hs h
  · refine Tensor.alloc_new_imp hs (d := d) (m := m) ?_
    rw [Tensor.alloc_new_eq] at h ⊢
    have e : ∀ q, s.sizeU q = ok s.size := fun q => Shape.u32_ok hp
    rw [e] at h ⊢
    exact h

theorem Dev.fw_panic_of {op : FwOp α} {p : Profile} {xs : List (Tensor α)} {m : Nat → α} {s : Shape}
    (hs : op.shape p (xs.map Tensor.shape) = ok s) (ha : (Tensor.new d s : Tensor α).alloc p m = panic) :
    Dev.fw op p d m xs = panic := by
  unfold Dev.fw
  cases h : Dev.onAll d xs with
  | ub => exact absurd h (Dev.onAll_safe _ _)
  | panic => rfl
  | ok _ => rw [ok_bind, hs, ok_bind, ha]; rfl

theorem asU32_asI32 (k : Int) : asU32 (K.powiFw.asI32 (asU32 k)) = asU32 k := by
  unfold K.powiFw.asI32 asU32
  split <;> omega

theorem asI32_range (k : Int) : -2147483648 ≤ K.powiFw.asI32 (asU32 k) ∧ K.powiFw.asI32 (asU32 k) ≤ 2147483647 := by
  unfold K.powiFw.asI32 asU32
  split <;> omega

theorem FwOp.shape_powi (p : Profile) (a b : Int) (sh : List Shape) :
    (FwOp.powi a : FwOp α).shape p sh = (FwOp.powi b : FwOp α).shape p sh := by
  match sh with
  | [] => rfl
  | [_] => rfl
  | _ :: _ :: _ => rfl

/-- Memory safety of the forward functions, with what is known about a returned tensor. -/
theorem Dev.fw_good {op : FwOp α} {xs : List (Tensor α)} {p : Profile} (hx : ∀ x, x ∈ xs → x.Fine)
    (hp : p = .debug ∨ ∃ s, op.shape .debug (xs.map Tensor.shape) = ok s ∧ s.size < U32) (d : Nat) (m : Nat → α) :
    (Dev.fw op p d m xs).Safe ∧ ∀ y, Dev.fw op p d m xs = ok y →
      ∃ s, op.shape .debug (xs.map Tensor.shape) = ok s ∧ y.Fine ∧ y.device = some d ∧ y.shape = s ∧ y.buf ≠ none := by
  have hwf : ∀ t, t ∈ xs.map Tensor.shape → t.WF := by
    intro t ht; obtain ⟨x, h1, rfl⟩ := List.mem_map.mp ht; exact (hx x h1).wf
  -- it is enough to show `Good` when the shape is accepted
  suffices hmain : ∀ s, op.shape .debug (xs.map Tensor.shape) = ok s → (p = .debug ∨ s.size < U32) →
      Good d s (Dev.fw op p d m xs) by
    cases hs : op.shape .debug (xs.map Tensor.shape) with
    | ok s =>
      have hp' : p = .debug ∨ s.size < U32 := by
        rcases hp with hp | ⟨s', e, hp⟩
        · exact .inl hp
        · rw [hs] at e; cases e; exact .inr hp
      obtain ⟨h1, h2⟩ := hmain s hs hp'
      exact ⟨h1, fun y hy => ⟨s, rfl, h2 y hy⟩⟩
    | ub => exact absurd hs (op.shape_safe _ _)
    | panic =>
      have hpd : p = .debug := by
        rcases hp with hp | ⟨s', e, _⟩
        · exact hp
        · rw [hs] at e; cases e
      subst hpd
      have e : Dev.fw op .debug d m xs = panic := by
        unfold Dev.fw
        cases h : Dev.onAll d xs with
        | ub => exact absurd h (Dev.onAll_safe _ _)
        | panic => rfl
        | ok _ => rw [ok_bind, hs]; rfl
      rw [e]
      exact ⟨safe_panic, fun _ h => by cases h⟩
  intro s hs hps
  have hsw := FwOp.shape_wf hwf hs
  by_cases hsz : s.size ≤ 2 ^ 31
  swap
  · -- too large: the allocation panics
    rw [Dev.fw_panic_of (FwOp.shape_any hs p)]
    · exact Good.panic
    · cases ha : (Tensor.new d s : Tensor α).alloc p m with
      | ok y => exact absurd (Tensor.alloc_new_imp' hsw hps ha).1 hsz
      | panic => rfl
      | ub => exact absurd ha (Tensor.alloc_safe _ _ _)
  cases hd : Dev.onAll d xs with
  | ub => exact absurd hd (Dev.onAll_safe _ _)
  | panic =>
    have : Dev.fw op p d m xs = panic := by unfold Dev.fw; rw [hd]; rfl
    rw [this]; exact Good.panic
  | ok _ =>
  have hdev := Dev.onAll_eq_ok.mp hd
  obtain ⟨y, ha, hy⟩ := Tensor.alloc_new (α := α) hsw hsz p d m
  have hrun : Dev.fw op p d m xs = Dev.callFw p op.name xs op.u32data op.f32data y := by
    unfold Dev.fw; rw [hd, ok_bind, FwOp.shape_any hs p, ok_bind, ha, ok_bind]
  obtain ⟨ly, hly, _⟩ := hy.buf
  by_cases hn : ∃ x, x ∈ xs ∧ x.buf = none
  · -- some operand has no buffer
    by_cases har : op.arity = none
    · cases op
      case concat dim =>
        have hle := concat_le hwf (check_bind_ok.mp hs).2
        refine Good.panicOr (r' := Dev.fw (.concat dim) p d m (xs.map Tensor.fill)) ?_ ?_
        · rw [hrun]
          unfold Dev.fw
          have e1 : (xs.map Tensor.fill).map Tensor.shape = xs.map Tensor.shape := by simp [Tensor.fill, Function.comp_def]
          rw [e1, (Dev.onAll_eq_ok (u := ())).mpr (by
            intro z hz; obtain ⟨w, hw, rfl⟩ := List.mem_map.mp hz; exact hdev w hw), ok_bind, FwOp.shape_any hs p, ok_bind, ha, ok_bind]
          exact K.concat_fill p xs [dim] [] y
        · obtain ⟨ins, h1, h2⟩ := HoldAll.of_fine (d := d) (xs := xs.map Tensor.fill) (by
            intro z hz
            obtain ⟨w, hw, rfl⟩ := List.mem_map.mp hz
            exact ⟨(hx w hw).fill (Nat.le_trans (hle _ (List.mem_map.mpr ⟨w, hw, rfl⟩)) hsz), hdev w hw, by simp [Tensor.fill]⟩)
          refine Good.of_ok (Dev.fw_ok (op := FwOp.concat dim) h1 ?_ hsz trivial p m)
          rw [h2]
          have e1 : (xs.map Tensor.fill).map Tensor.shape = xs.map Tensor.shape := by simp [Tensor.fill, Function.comp_def]
          rw [e1]; exact hs
      case batchConcat =>
        have hle := batchConcat_le hwf (check_bind_ok.mp hs).2
        refine Good.panicOr (r' := Dev.fw .batchConcat p d m (xs.map Tensor.fill)) ?_ ?_
        · rw [hrun]
          unfold Dev.fw
          have e1 : (xs.map Tensor.fill).map Tensor.shape = xs.map Tensor.shape := by simp [Tensor.fill, Function.comp_def]
          rw [e1, (Dev.onAll_eq_ok (u := ())).mpr (by
            intro z hz; obtain ⟨w, hw, rfl⟩ := List.mem_map.mp hz; exact hdev w hw), ok_bind, FwOp.shape_any hs p, ok_bind, ha, ok_bind]
          exact K.batchConcat_fill p xs [] [] y
        · obtain ⟨ins, h1, h2⟩ := HoldAll.of_fine (d := d) (xs := xs.map Tensor.fill) (by
            intro z hz
            obtain ⟨w, hw, rfl⟩ := List.mem_map.mp hz
            exact ⟨(hx w hw).fill (Nat.le_trans (hle _ (List.mem_map.mpr ⟨w, hw, rfl⟩)) hsz), hdev w hw, by simp [Tensor.fill]⟩)
          refine Good.of_ok (Dev.fw_ok (op := FwOp.batchConcat) h1 ?_ hsz trivial p m)
          rw [h2]
          have e1 : (xs.map Tensor.fill).map Tensor.shape = xs.map Tensor.shape := by simp [Tensor.fill, Function.comp_def]
          rw [e1]; exact hs
      all_goals cases har
    · rw [hrun]
      exact FwOp.null_good hs (by rw [hly]; simp) hn har
  · have hall : ∀ x, x ∈ xs → x.Fine ∧ x.device = some d ∧ x.buf ≠ none :=
      fun x hxm => ⟨hx x hxm, hdev x hxm, fun e => hn ⟨x, hxm, e⟩⟩
    obtain ⟨ins, h1, h2⟩ := HoldAll.of_fine hall
    have hs' := hs
    rw [← h2] at hs'
    have tri : ∀ (lower : Bool) (k : Nat), op = (if lower then .triangularL k else .triangularU k) →
        Good d s (Dev.fw op p d m xs) := by
      intro lower k e
      have hl : xs.length = 1 := by
        have := FwOp.shape_len hs 1 (by subst e; cases lower <;> rfl)
        simpa using this
      obtain ⟨x, rfl⟩ := List.length_eq_one_iff.mp hl
      have hm : (x.shape.isMatrix = true ∧ x.shape.get 0 = x.shape.get 1) ∧ x.shape = s := by
        subst e
        cases lower
        · obtain ⟨a, b⟩ := check_bind_ok.mp hs; cases b; exact ⟨a, rfl⟩
        · obtain ⟨a, b⟩ := check_bind_ok.mp hs; cases b; exact ⟨a, rfl⟩
      obtain ⟨hm, rfl⟩ := hm
      obtain ⟨hf, hdx, hbx⟩ := hall x (by simp)
      obtain ⟨lx, hlx⟩ := Option.ne_none_iff_exists'.mp hbx
      obtain ⟨f, hh⟩ := hf.holds hdx hlx
      have hsq : x.shape.size = x.shape.batch * (x.shape.get 0 * x.shape.get 0) := by
        unfold Shape.size
        rw [hf.wf.matrix_volume (hf.wf.isMatrix_iff.mp hm.1), ← hm.2]
      have key : ∀ y', K.triangularFw lower p [x] [k] ([] : List α) y = ok y' → y'.device = some d ∧ y'.shape = x.shape ∧
          y'.buf ≠ none := by
        intro y' hy'
        unfold K.triangularFw at hy'
        simp only [Res.bind_eq_ok] at hy'
        obtain ⟨_, _, _, _, _, _, _, _, _, _, e⟩ := hy'
        cases e
        exact ⟨hy.device, hy.shape, by simp⟩
      have hsafe := K.triangular_safe (d := d) (lower := lower) (p := p) (u := [k]) (v := ([] : List α)) hh hy hsq
      have e2 : Dev.callFw p op.name [x] op.u32data op.f32data y = K.triangularFw lower p [x] [k] [] y := by
        subst e; cases lower <;> rfl
      rw [hrun, e2]
      exact ⟨hsafe.1, fun y' hy' => ⟨hsafe.2 y' hy', key y' hy'⟩⟩
    cases op
    case triangularL k => exact tri true k rfl
    case triangularU k => exact tri false k rfl
    case powi k =>
      have e : Dev.fw (.powi k) p d m xs = Dev.fw (.powi (K.powiFw.asI32 (asU32 k))) p d m xs := by
        unfold Dev.fw
        show _ = Dev.onAll d xs >>= fun _ => FwOp.shape p (.powi (K.powiFw.asI32 (asU32 k)) : FwOp α) _ >>= fun s =>
          (Tensor.new d s).alloc p m >>= fun y => Dev.callFw p .powi xs [asU32 (K.powiFw.asI32 (asU32 k))] [] y
        rw [asU32_asI32]
        rw [FwOp.shape_powi p (K.powiFw.asI32 (asU32 k)) k]
        rfl
      rw [e]
      refine Good.of_ok (Dev.fw_ok (op := FwOp.powi (K.powiFw.asI32 (asU32 k))) h1 ?_ hsz (asI32_range k) p m)
      rw [FwOp.shape_powi .debug _ k]; exact hs'
    all_goals exact Good.of_ok (Dev.fw_ok h1 hs' hsz trivial p m)

end Verif
