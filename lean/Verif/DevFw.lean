import Verif.HoldsLemmas

/-!
# Every forward device function computes its meaning
-/

namespace Verif
open Res Shape ShapeOps
variable {α : Type} {d : Nat} {p : Profile}

/-- The argument tensors hold the given arrays. -/
abbrev HoldAll (d : Nat) (xs : List (Tensor α)) (ins : List (Shape × Arr α)) : Prop :=
  List.Forall₂ (fun x i => x.Holds d i.1 i.2) xs ins

theorem HoldAll.shapes {xs : List (Tensor α)} {ins : List (Shape × Arr α)} (h : HoldAll d xs ins) :
    xs.map Tensor.shape = ins.map Prod.fst := by
  induction h with
  | nil => rfl
  | cons h _ ih => simp [h.shape, ih]

theorem HoldAll.wf {xs : List (Tensor α)} {ins : List (Shape × Arr α)} (h : HoldAll d xs ins) :
    ∀ s, s ∈ ins.map Prod.fst → s.WF := by
  induction h with
  | nil => simp
  | cons h _ ih =>
    intro s hs
    rcases List.mem_cons.mp hs with e | e
    · exact e ▸ h.wf
    · exact ih s e

theorem HoldAll.get {xs : List (Tensor α)} {ins : List (Shape × Arr α)} (h : HoldAll d xs ins) {n : Nat} (hn : n < ins.length) :
    ∃ x, xs[n]? = some x ∧ x.Holds d ins[n].1 ins[n].2 := by
  have hl := h.length_eq
  refine ⟨xs[n], List.getElem?_eq_getElem (by omega), ?_⟩
  have := (List.forall₂_iff_get.mp h).2 n (by omega) hn
  simpa using this

theorem onAll_ok {xs : List (Tensor α)} [Flt α] (h : ∀ x, x ∈ xs → x.device = some d) : Dev.onAll d xs = ok () := by
  unfold Dev.onAll
  rw [loop_eq_foldN (f := fun _ _ => ())]
  intro i hi _
  rw [ix_eq hi, ok_bind]
  have := h _ (List.getElem_mem hi)
  simp [Tensor.onDev, Tensor.dev, unwrap, this]

theorem HoldAll.onAll [Flt α] {xs : List (Tensor α)} {ins : List (Shape × Arr α)} (h : HoldAll d xs ins) :
    Dev.onAll d xs = ok () := by
  refine onAll_ok ?_
  induction h with
  | nil => simp
  | cons h _ ih =>
    intro x hx
    rcases List.mem_cons.mp hx with e | e
    · exact e ▸ h.device
    · exact ih x e

/-- Whatever shape inference computes with overflow checks it computes without. -/
theorem FwOp.shape_any {op : FwOp α} {sh : List Shape} {s : Shape} (h : op.shape .debug sh = ok s) (p : Profile) :
    op.shape p sh = ok s := by
  cases p with
  | debug => exact h
  | release =>
    revert h s
    show Refines _ _
    have h1 := @refines_new
    have h2 := @refines_resizeDim
    unfold FwOp.shape
    split <;> first
      | exact .rfl
      | exact h2 _ _ _
      | exact .bind .rfl fun _ => h2 _ _ _
      | exact .bind .rfl fun _ => h1 _ _
      | exact .bind .rfl fun _ => .bind .rfl fun _ => h2 _ _ _
      | exact .bind .rfl fun _ => .bind .rfl fun _ => .bind (h2 _ _ _) fun _ => .rfl
      | exact .bind .rfl fun _ => .bind .rfl fun _ => .bind .rfl fun _ => .bind (.loop (fun _ _ => .bind .rfl fun _ =>
          .bind (refines_hasSameLooDims _ _ _) fun _ => .bind .rfl fun _ => .bind .rfl fun _ => .bind (.u32 _) fun _ => .rfl) _)
          fun _ => h2 _ _ _
      | exact .bind .rfl fun _ => .bind .rfl fun _ => .bind .rfl fun _ => .bind (.loop (fun _ _ => .bind .rfl fun _ =>
          .bind .rfl fun _ => .u32 _) _) fun _ => .rfl

/-- The kernel runs after the checks and the allocation. -/
theorem Dev.fw_run [Flt α] {op : FwOp α} {xs : List (Tensor α)} {ins : List (Shape × Arr α)} {s : Shape} {F : Arr α}
    (hx : HoldAll d xs ins) (hs : op.shape .debug (ins.map Prod.fst) = ok s) (hw : s.WF) (hsz : s.size ≤ 2 ^ 31)
    (hk : ∀ y : Tensor α, y.Room d s → ∃ y', callFw p op.name xs op.u32data op.f32data y = ok y' ∧ y'.Holds d s F)
    (m : Nat → α) :
    ∃ y, Dev.fw op p d m xs = ok y ∧ y.Holds d s F := by
  obtain ⟨y, h1, h2⟩ := Tensor.alloc_new hw hsz p d m
  obtain ⟨y', h3, h4⟩ := hk y h2
  refine ⟨y', ?_, h4⟩
  unfold Dev.fw
  rw [hx.onAll, ok_bind, hx.shapes, FwOp.shape_any hs p, ok_bind, h1, ok_bind, h3]

/-- Argument shapes that need no further check. -/
def FwOp.Fits : FwOp α → Shape → Prop
  | .triangularL k, s => s.get 0 + k ≤ U32
  | .triangularU k, s => s.get 0 + k ≤ U32
  | .powi k, _ => -2147483648 ≤ k ∧ k ≤ 2147483647
  | _, _ => True

theorem asI32_asU32 {k : Int} (h1 : -2147483648 ≤ k) (h2 : k ≤ 2147483647) : K.powiFw.asI32 (asU32 k) = k := by
  unfold K.powiFw.asI32 asU32
  split <;> omega

theorem Is.vol {y x : Shape} {b : Nat} (h : y.Is x.get b) (hx : x.WF) : x.volume = y.volume :=
  vol_of_dims hx h.1 (fun i => (h.2.1 i).symm)

theorem forall₂_one {x : List (Tensor α)} {i : Shape × Arr α} (h : HoldAll d x [i]) :
    ∃ t, x = [t] ∧ t.Holds d i.1 i.2 := by
  cases h with
  | cons h1 h2 => cases h2; exact ⟨_, rfl, h1⟩

theorem forall₂_two {x : List (Tensor α)} {i j : Shape × Arr α} (h : HoldAll d x [i, j]) :
    ∃ t u, x = [t, u] ∧ t.Holds d i.1 i.2 ∧ u.Holds d j.1 j.2 := by
  cases h with
  | cons h1 h2 => cases h2 with
    | cons h3 h4 => cases h4; exact ⟨_, _, rfl, h1, h3⟩

/-- Result well-formed. -/
theorem FwOp.shape_wf {op : FwOp α} {sh : List Shape} {s : Shape} (hw : ∀ t, t ∈ sh → t.WF)
    (h : op.shape .debug sh = ok s) : s.WF := by
  unfold FwOp.shape at h
  split at h
  all_goals first
    | (obtain rfl : _ = s := by simpa using h
       exact hw _ (by simp))
    | exact ((elementwise_iff (hw _ (by simp)) (hw _ (by simp))).mp h).2.2.1
    | exact ((scalarOp_iff (hw _ (by simp)) (hw _ (by simp))).mp h).2.2.1
    | exact ((hw _ (by simp)).resizeDim_iff.mp h).2.2.2.1
    | exact ((broadcast_iff (hw _ (by simp))).mp h).2.2.2.2.1
    | exact ((matmul_iff (hw _ (by simp)) (hw _ (by simp))).mp h).2.2.2.2.2.1
    | exact ((transpose_iff (hw _ (by simp))).mp h).2.1
    | exact ((slice_iff (hw _ (by simp))).mp h).2.2.2.1
    | exact ((pick_iff (hw _ (by simp))).mp h).2.2.2.2.1
    | exact ((batchSlice_iff (hw _ (by simp))).mp h).2.2.1
    | exact ((batchPick_iff (hw _ (by simp))).mp h).2.2.1
    | (obtain ⟨_, rfl⟩ := updateBatch_ok_iff.mp h
       exact (hw _ (by simp)).withBatch (by omega))
    | (obtain ⟨_, h⟩ := check_bind_ok.mp h
       obtain rfl : _ = s := by simpa using h
       exact hw _ (by simp))
    | (obtain ⟨_, h⟩ := check_bind_ok.mp h
       exact ((concat_iff hw).mp h).2.2.2.2.2.1)
    | (obtain ⟨_, h⟩ := check_bind_ok.mp h
       exact ((batchConcat_iff hw).mp h).2.2.2.1)
    | cases h

end Verif
