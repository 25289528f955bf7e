import Verif.Safety4

/-!
# The other device functions: creating, copying, reading tensors; in-place functions
-/

set_option linter.unusedSectionVars false

namespace Verif
open Res
variable {α : Type} {d : Nat} [Flt α] {p : Profile}

theorem Tensor.Room.of_holds {t : Tensor α} {s : Shape} {f : Arr α} (h : t.Holds d s f) : t.Room d s := h.flat.room

/-! ## Reading -/

theorem Tensor.Flat.toVec {t : Tensor α} {s : Shape} {g : Nat → α} (h : t.Flat d s g) (p : Profile) :
    t.toVec p = ok ((List.range s.size).map g) := by
  unfold Tensor.toVec Tensor.dev Dev.tensorToVector
  simp only [h.device, unwrap, ok_bind, h.shape, Shape.sizeU_eq h.small]
  exact K.tensorToVector_ok h (by simp)

theorem Tensor.Holds.toVec {t : Tensor α} {s : Shape} {f : Arr α} (h : t.Holds d s f) (p : Profile) :
    t.toVec p = ok ((List.range s.size).map (Arr.flat s f)) := h.flat.toVec p

theorem Tensor.Holds.toVec_spec {t : Tensor α} {s : Shape} {f : Arr α} (h : t.Holds d s f) (p : Profile) :
    ∃ l, t.toVec p = ok l ∧ l.length = s.size ∧ ∀ c b, s.Valid c b → l[s.offset c b]? = some (f c b) := by
  refine ⟨_, h.toVec p, by simp, fun c b hv => ?_⟩
  have := h.wf.offset_lt hv
  rw [List.getElem?_map, List.getElem?_range this, Option.map_some, Arr.flat_offset h.wf f hv]

/-- `to_vec` shows the elements: with the shape it determines `Holds`. -/
theorem Tensor.Holds.of_toVec {t : Tensor α} {s : Shape} {f g : Arr α} {l : List α} (h : t.Holds d s f)
    (hl : t.toVec p = ok l) (hg : ∀ c b, s.Valid c b → l[s.offset c b]? = some (g c b)) : t.Holds d s g := by
  refine h.congr fun c b hv => ?_
  obtain ⟨l', e, _, h3⟩ := h.toVec_spec p
  rw [hl] at e; cases e
  have := hg c b hv
  rw [h3 c b hv] at this
  exact (Option.some.inj this).symm

theorem Tensor.Holds.toFloat {t : Tensor α} {s : Shape} {f : Arr α} (h : t.Holds d s f) (h1 : s.size = 1) (p : Profile) :
    Dev.tensorToFloat p t = ok (f czero 0) := by
  unfold Dev.tensorToFloat
  rw [h.shape, Shape.sizeU_eq h.small, ok_bind, check_true _ h1, ok_bind,
    K.tensorToVector_ok h.flat (by simp [h1]), ok_bind, h1]
  have hv : s.Valid czero 0 := ⟨fun i => h.wf.get_pos i, h.wf.batch_pos⟩
  have e0 : s.offset czero 0 = 0 := by have := h.wf.offset_lt hv; omega
  have := Arr.flat_offset h.wf f hv
  rw [e0] at this
  simp [this]

/-! ## Creating -/

theorem Dev.newByConstant_ok {s : Shape} (hs : s.WF) (hsz : s.size ≤ 2 ^ 31) (p : Profile) (d : Nat) (m : Nat → α) (k : α) :
    ∃ y, Dev.newByConstant p d m s k = ok y ∧ y.Holds d s (fun _ _ => k) := by
  obtain ⟨t, e, hr⟩ := Tensor.alloc_new hs hsz p d m
  obtain ⟨y, e2, hy⟩ := K.resetTensor_ok (p := p) (c := k) (xs := []) (u := []) (f := []) hr
  exact ⟨y, by unfold Dev.newByConstant Dev.resetTensor Dev.callFw; rw [e, ok_bind]; exact e2, hy.holds fun _ _ _ => rfl⟩

theorem Dev.newBySlice_ok {s : Shape} (hs : s.WF) (hsz : s.size ≤ 2 ^ 31) (p : Profile) (d : Nat) (m : Nat → α) {v : List α}
    (hv : v.length = s.size) :
    ∃ y, Dev.newBySlice p d m s v = ok y ∧ y.Holds d s (fun c b => v.getD (s.offset c b) 0) := by
  obtain ⟨t, e, hr⟩ := Tensor.alloc_new hs hsz p d m
  obtain ⟨y, e2, hy⟩ := K.resetBySlice_ok (p := p) (xs := []) (u := []) (f := v) (g := fun k => v.getD k 0) hr
    (fun k hk => by rw [List.getElem?_eq_getElem (by omega), List.getD_eq_getElem?_getD, List.getElem?_eq_getElem (by omega)]; rfl)
  refine ⟨y, ?_, hy.holds fun _ _ _ => rfl⟩
  unfold Dev.newBySlice Dev.resetTensorBySlice Dev.callFw
  rw [e, ok_bind, hr.shape, Shape.sizeU_eq hsz, ok_bind, check_true _ hv.symm, ok_bind]
  exact e2

theorem K.resetByTensor_ok {x y : Tensor α} {sx s : Shape} {g : Nat → α} {u : List Nat} {v : List α} (hx : x.Flat e sx g)
    (hy : y.Room d s) (hsz : s.size = sx.size) :
    ∃ y', K.resetByTensor p [x] u v y = ok y' ∧ y'.Flat d s g := by
  obtain ⟨ly, hpy, _, hly⟩ := hy.ptr
  have pw : PW ly.length (loop s.size fun i py => (ix ((List.range sx.size).map g) i >>= fun v => wr py i v))
      (fun k => foldN s.size (fun i a => if k = i then g i else a)) :=
    PW.loop fun i hi => (PW.wr (by omega)).congr (fun t _ => by
      rw [ix_some (a := g i) (by simp [show i < sx.size by omega]), ok_bind]) (fun _ _ _ => rfl)
  obtain ⟨l', e, hf⟩ := pw.result hy hly (fun k hk a => foldN_one k hk (fun i _ hne t => by
    rw [if_neg (fun e => hne e.symm)]) (by rw [if_pos rfl]))
  refine ⟨_, ?_, hf⟩
  simp only [K.resetByTensor, ix_cons_zero, ok_bind, hy.shape, Shape.sizeU_eq hy.small, hx.toVec p, hpy, e]

/-- `reset_by_tensor`: the elements in storage order, whatever the two shapes and devices. -/
theorem Dev.resetByTensor_ok {x y : Tensor α} {sx s : Shape} {f g : Arr α} (hx : x.Holds e sx f) (hy : y.Holds d s g)
    (hsz : s.size = sx.size) (p : Profile) :
    ∃ y', Dev.resetTensorByTensor p y x = ok y' ∧ y'.Holds d s (fun c b => Arr.flat sx f (s.offset c b)) := by
  obtain ⟨l, hl, _⟩ := hx.buf
  obtain ⟨l2, hl2, _⟩ := hy.buf
  obtain ⟨y', e1, h1⟩ := K.resetByTensor_ok (p := p) (u := []) (v := []) hx.flat hy.flat.room hsz
  refine ⟨y', ?_, h1.holds fun _ _ _ => rfl⟩
  unfold Dev.resetTensorByTensor Dev.callFw
  rw [check_true _ (by simp [Tensor.valid, hl2]), ok_bind, check_true _ (by simp [Tensor.valid, hl]), ok_bind, hy.shape, hx.shape,
    Shape.sizeU_eq hy.small, ok_bind, Shape.sizeU_eq hx.small, ok_bind, check_true _ hsz, ok_bind]
  exact e1

theorem Dev.copyTensor_ok {x : Tensor α} {s : Shape} {f : Arr α} (hx : x.Holds e s f) (p : Profile) (d : Nat) (m : Nat → α) :
    ∃ y, Dev.copyTensor p d m x = ok y ∧ y.Holds d s f := by
  obtain ⟨t, e, hr⟩ := Tensor.alloc_new hx.wf hx.small p d m
  obtain ⟨l, hl, _⟩ := hx.buf
  obtain ⟨l2, hl2, _⟩ := hr.buf
  obtain ⟨y', e1, h1⟩ := K.resetByTensor_ok (p := p) (u := []) (v := []) hx.flat hr rfl
  refine ⟨y', ?_, h1.holds fun c b hv => Arr.flat_offset hx.wf f hv⟩
  unfold Dev.copyTensor Dev.resetTensorByTensor Dev.callFw
  rw [hx.shape, e, ok_bind, check_true _ (by simp [Tensor.valid, hl2]), ok_bind, check_true _ (by simp [Tensor.valid, hl]), ok_bind,
    hr.shape, Shape.sizeU_eq hr.small, ok_bind, ok_bind, check_true _ rfl, ok_bind]
  exact e1

/-! ## In-place functions -/

theorem Dev.resetTensor_ok {y : Tensor α} {s : Shape} {f : Arr α} (hy : y.Holds d s f) (p : Profile) (k : α) :
    ∃ y', Dev.resetTensor p y k = ok y' ∧ y'.Holds d s (fun _ _ => k) := by
  obtain ⟨y', e, h⟩ := K.resetTensor_ok (p := p) (c := k) (xs := []) (u := []) (f := []) hy.flat.room
  exact ⟨y', e, h.holds fun _ _ _ => rfl⟩

theorem Dev.resetBySlice_ok {y : Tensor α} {s : Shape} {f : Arr α} (hy : y.Holds d s f) (p : Profile) {v : List α}
    (hv : v.length = s.size) :
    ∃ y', Dev.resetTensorBySlice p y v = ok y' ∧ y'.Holds d s (fun c b => v.getD (s.offset c b) 0) := by
  obtain ⟨y', e2, h⟩ := K.resetBySlice_ok (p := p) (xs := []) (u := []) (f := v) (g := fun k => v.getD k 0) hy.flat.room
    (fun k hk => by rw [List.getElem?_eq_getElem (by omega), List.getD_eq_getElem?_getD, List.getElem?_eq_getElem (by omega)]; rfl)
  refine ⟨y', ?_, h.holds fun _ _ _ => rfl⟩
  unfold Dev.resetTensorBySlice Dev.callFw
  rw [hy.shape, Shape.sizeU_eq hy.small, ok_bind, check_true _ hv.symm, ok_bind]
  exact e2

theorem Dev.mulAssignConst_ok {y : Tensor α} {s : Shape} {f : Arr α} (hy : y.Holds d s f) (p : Profile) (k : α) :
    ∃ y', Dev.mulAssignConst p d k y = ok y' ∧ y'.Holds d s (fun c b => f c b * k) := by
  obtain ⟨y', e, h⟩ := K.mulAssignConst_ok (p := p) (c := k) (xs := []) (u := []) (f := []) hy.flat
  refine ⟨y', ?_, h.holds fun c b hv => by rw [Arr.flat_offset hy.wf f hv]⟩
  unfold Dev.mulAssignConst Dev.callFw
  rw [Tensor.onDev_eq_ok (u := ()) |>.mpr hy.device, ok_bind]
  exact e

end Verif
