import Verif.PropsFw3
import Verif.PropsSafety
import Verif.OptLemmas

/-!
# The panics of `concat` and the batch functions (C26, C28), `reshape` and `flatten` (C53)
-/

set_option linter.unusedSectionVars false

namespace Verif
open Res
variable {α : Type} [Flt α] {d : Nat} {x y : Tensor α} {s sx sy : Shape} {f g : Arr α}

/-! ### C26, C28: what is rejected -/

theorem HoldAll.fine {xs : List (Tensor α)} {ins : List (Shape × Arr α)} (h : HoldAll d xs ins) : ∀ x, x ∈ xs → x.Fine := by
  intro x hx
  obtain ⟨n, hn, rfl⟩ := List.mem_iff_getElem.mp hx
  obtain ⟨x', e, h'⟩ := h.get (n := n) (by rw [← h.length_eq]; exact hn)
  rw [List.getElem?_eq_getElem hn] at e
  cases e
  exact h'.fine

/-- C26: `concat` panics (with overflow checks) when it has no argument, the axis number is 8 or more, some extent on another axis differs,
or two batches are incompatible. -/
theorem C26_concat_panics {xs : List (Tensor α)} {ins : List (Shape × Arr α)} (hx : HoldAll d xs ins) {dim : Nat}
    (h : ¬ CatFits dim (ins.map Prod.fst)) (m : Nat → α) : TF.concat .debug m xs dim = panic := by
  unfold TF.concat
  by_cases hne : ins = []
  · subst hne
    have : xs = [] := by have := hx.length_eq; exact List.length_eq_zero_iff.mp (by simpa using this)
    subst this; rfl
  obtain ⟨x, e, hx0⟩ := hx.get (List.length_pos_of_ne_nil hne)
  have ex : ix xs 0 = ok x := by unfold ix; rw [e]
  rw [ex, ok_bind]
  unfold TF.call Tensor.dev unwrap
  rw [hx0.device, ok_bind]
  refine Dev.fw_panics (op := .concat dim) hx.fine trivial ?_ m
  rintro ⟨s, hp⟩
  have hs := hp.shape
  rw [hx.shapes] at hs
  simp only [FwOp.shape] at hs
  rw [check_bind_ok] at hs
  obtain ⟨q1, q2, q3, q4, _⟩ := (Shape.concat_iff hx.wf).mp hs.2
  exact h ⟨q1, q2, q3, q4⟩

/-- C28: `batch_slice` panics exactly outside the ranges C28_batch_slice covers. -/
theorem C28_batch_slice_panics (hx : x.Holds d sx f) {lower upper : Nat} (h : ¬ (lower < upper ∧ upper ≤ sx.batch)) (m : Nat → α) :
    TF.batchSlice .debug m x lower upper = panic := by
  unfold TF.batchSlice TF.call Tensor.dev unwrap
  rw [hx.device, ok_bind]
  refine Dev.fw_panics (op := .batchSlice lower upper) (by simp [hx.fine]) trivial ?_ m
  rintro ⟨s, hp⟩
  have hs := hp.shape
  simp only [List.map, hx.shape] at hs
  obtain ⟨q1, q2, _⟩ := (Shape.batchSlice_iff hx.wf).mp hs
  exact h ⟨q1, q2⟩

/-- C28: `batch_pick` panics without ids and with an id that is no batch number. -/
theorem C28_batch_pick_panics (hx : x.Holds d sx f) {ids : List Nat} (h : ¬ (ids ≠ [] ∧ ∀ id, id ∈ ids → id < sx.batch)) (m : Nat → α) :
    TF.batchPick .debug m x ids = panic := by
  unfold TF.batchPick TF.call Tensor.dev unwrap
  rw [hx.device, ok_bind]
  refine Dev.fw_panics (op := .batchPick ids) (by simp [hx.fine]) trivial ?_ m
  rintro ⟨s, hp⟩
  have hs := hp.shape
  simp only [List.map, hx.shape] at hs
  obtain ⟨q1, q2, _⟩ := (Shape.batchPick_iff hx.wf).mp hs
  exact h ⟨q1, q2⟩

/-- C28: `batch_split` panics when the batches cannot be divided into `n` equal ranges. -/
theorem C28_batch_split_panics (hx : x.Holds d sx f) {n : Nat} (h : n = 0 ∨ ¬ n ∣ sx.batch) (p : Profile) (m : Mem α) :
    TF.batchSplit p m x n = panic := by
  unfold TF.batchSplit
  simp only [hx.shape]
  by_cases hn : n = 0
  · rw [check_false _ (by omega)]; rfl
  · rw [check_true _ hn, ok_bind, check_false]
    · rfl
    · intro e
      rcases h with h | h
      · exact hn h
      · exact h ⟨_, by rw [← e]; exact Nat.mul_comm _ _⟩

/-- C28: `batch_concat` panics without arguments and when some dims differ. -/
theorem C28_batch_concat_panics {xs : List (Tensor α)} {ins : List (Shape × Arr α)} (hx : HoldAll d xs ins)
    (h : ins = [] ∨ ∃ i, i < ins.length ∧ ∃ a, (nth (ins.map Prod.fst) i).get a ≠ (nth (ins.map Prod.fst) 0).get a) (m : Nat → α) :
    TF.batchConcat .debug m xs = panic := by
  unfold TF.batchConcat
  by_cases hne : ins = []
  · subst hne
    have : xs = [] := by have := hx.length_eq; exact List.length_eq_zero_iff.mp (by simpa using this)
    subst this; rfl
  obtain ⟨x, e, hx0⟩ := hx.get (List.length_pos_of_ne_nil hne)
  have ex : ix xs 0 = ok x := by unfold ix; rw [e]
  rw [check_true _ (by rw [hx.length_eq]; simpa using hne), ok_bind, ex, ok_bind]
  unfold TF.call Tensor.dev unwrap
  rw [hx0.device, ok_bind]
  refine Dev.fw_panics (op := .batchConcat) hx.fine trivial ?_ m
  rintro ⟨s, hp⟩
  have hs := hp.shape
  rw [hx.shapes] at hs
  simp only [FwOp.shape] at hs
  rw [check_bind_ok] at hs
  obtain ⟨_, q2, _⟩ := (Shape.batchConcat_iff hx.wf).mp hs.2
  obtain ⟨i, hi, a, ha⟩ := h.resolve_left hne
  exact ha (q2 i (by simpa using hi) a)

/-! ### C53 -/

/-- C53: `reshape(t)` of a tensor with as many elements as `t` keeps the storage order: the element of the result at a storage position is
the element of the argument at the same storage position. -/
theorem C53_reshape (hx : x.Holds d sx f) {t : Shape} (ht : t.WF) (hsz : t.size = sx.size) (p : Profile) (m : Nat → α) :
    ∃ F, Yields (TF.reshape p m x t) d t F ∧ ∀ c b c' b', sx.Valid c b → t.offset c' b' = sx.offset c b → F c' b' = f c b := by
  refine ⟨_, TF.reshape_ok hx ht hsz p m, fun c b c' b' hv e => ?_⟩
  show Arr.flat sx f (t.offset c' b') = f c b
  rw [e, Arr.flat_offset hx.wf f hv]

/-- C53: `reshape` back to the old shape gives the tensor back. -/
theorem C53_reshape_back (hx : x.Holds d sx f) {t : Shape} (ht : t.WF) (hsz : t.size = sx.size) (p : Profile) (m m' : Nat → α) :
    Yields (do let y ← TF.reshape p m x t; TF.reshape p m' y sx) d sx f := by
  obtain ⟨y, e, hy⟩ := TF.reshape_ok hx ht hsz p m
  rw [e, ok_bind]
  obtain ⟨z, e', hz⟩ := TF.reshape_ok hy hx.wf hsz.symm p m'
  refine ⟨z, e', hz.congr fun c b hv => ?_⟩
  have hlt : sx.offset c b < t.size := by rw [hsz]; exact hx.wf.offset_lt hv
  have := ht.offset_coord hlt
  simp only [Arr.flat]
  rw [this.2]
  show f c b = Arr.flat sx f (sx.offset c b)
  rw [Arr.flat_offset hx.wf f hv]

/-- C53: with overflow checks `reshape` panics when the numbers of elements differ. -/
theorem C53_reshape_panics (hx : x.Holds d sx f) {t : Shape} (hsz : t.size ≠ sx.size) (m : Nat → α) :
    TF.reshape .debug m x t = panic := by
  obtain ⟨y, e, hy⟩ := Dev.copyTensor_ok hx .debug d m
  simp only [TF.reshape, Tensor.dev, hx.device, unwrap, ok_bind, e, Tensor.updateShape, hy.shape, Shape.sizeU_eq hx.small]
  by_cases hlt : t.batch * t.volume < U32
  · rw [show t.sizeU .debug = ok t.size by unfold Shape.sizeU umul; rw [Shape.u32_ok hlt]; rfl, ok_bind, check_false _ hsz]; rfl
  · rw [show t.sizeU .debug = panic by unfold Shape.sizeU umul; exact Shape.u32_debug_panic (by omega)]; rfl

/-- C53: `flatten` gives every batch as a vector in storage order. -/
theorem C53_flatten (hx : x.Holds d sx f) (p : Profile) (m : Nat → α) :
    ∃ (t : Shape) (F : Arr α), t.Is (fun i => if i = 0 then sx.volume else 1) sx.batch ∧ Yields (TF.flatten p m x) d t F ∧
      ∀ c b c', sx.Valid c b → c' 0 = sx.offset c 0 → F c' b = f c b := by
  obtain ⟨t, ht, hy⟩ := TF.flatten_ok hx p m
  refine ⟨t, _, ht, hy, fun c b c' hv e => ?_⟩
  have e2 : c' 0 + b * sx.volume = sx.offset c b := by
    rw [e, hx.wf.vol]; unfold Shape.offset; rw [Nat.zero_mul]; rfl
  show Arr.flat sx f (c' 0 + b * sx.volume) = f c b
  rw [e2, Arr.flat_offset hx.wf f hv]

/-- C53 is false without overflow checks: `size()` wraps around, so a scalar can be reshaped to a shape with `2^32 + 1` elements, and adding the
result to itself reads outside of its memory. -/
theorem C53_reshape_release_out_of_bounds (m m' : Nat → α) (k : α) :
    Shape.new .release [641] 6700417 = ok (vecShape 641 6700417) ∧
    ∃ a y : Tensor α, Dev.newByConstant .release 0 m (vecShape 1 1) k = ok a ∧
      TF.reshape .release m' a (vecShape 641 6700417) = ok y ∧ Dev.fw (.bi .add) .release 0 m [y, y] = ub := by
  refine ⟨rfl, ?_⟩
  obtain ⟨a, la, e1, h1, h2, h3, h4, -⟩ := small_block (α := α) (s := vecShape 1 1) (p := .release) (n := 1) rfl (by omega) (by omega) m k
  obtain ⟨v, r, rfl⟩ : ∃ v r, la = v :: r := by cases la with
    | nil => simp at h4
    | cons v r => exact ⟨v, r, rfl⟩
  refine ⟨a, ⟨some 0, vecShape 641 6700417, some (((List.range 64).map m').set 0 v), none⟩, e1, ?_, ?_⟩
  · unfold TF.reshape Tensor.dev unwrap
    rw [h1, ok_bind]
    unfold Dev.copyTensor
    rw [h2, small_alloc (s := vecShape 1 1) (n := 1) rfl (by omega) (by omega), ok_bind]
    unfold Dev.resetTensorByTensor
    obtain ⟨ad, ash, ab, ah⟩ := a
    subst h1 h2 h3
    rfl
  · unfold Dev.fw
    rw [show Dev.onAll 0 _ = ok () from onAll_ok fun x hx => by simp at hx; rw [hx], ok_bind]
    rw [show (FwOp.bi (α := α) .add).shape .release (List.map Tensor.shape [_, _]) = ok (vecShape 641 6700417) from rfl, ok_bind]
    rw [small_alloc (s := vecShape 641 6700417) (n := 1) rfl (by omega) (by omega), ok_bind]
    show K.fwAb _ .release [_, _] [] [] ⟨some 0, vecShape 641 6700417, some ((List.range 64).map m), none⟩ = ub
    exact fwAb_ub rfl (by simp) (by simp) (by show 64 < 641; omega) (by show 0 < 6700417; omega)

/-! ### Concrete cases -/

/-- A 2×4 tensor with two batches can be reshaped to a 4×2 one with two batches, to a vector of 16, and not to a vector of 15; it is rejected by
the batch functions for wrong ranges and ids. -/
example (v : List α) (hv : v.length = 16) (m : Nat → α) (mm : Mem α) : ∃ x, Dev.newBySlice .debug 0 m (matShape 2 4 2) v = ok x ∧
    (∃ y, TF.reshape .debug m x (matShape 4 2 2) = ok y) ∧ (∃ y, TF.reshape .debug m x (vecShape 16 1) = ok y) ∧
    TF.reshape .debug m x (vecShape 15 1) = panic ∧ TF.batchSlice .debug m x 1 3 = panic ∧ TF.batchPick .debug m x [0, 2] = panic ∧
    TF.batchSplit .debug mm x 3 = panic ∧ TF.concat .debug m [x, x] 8 = panic := by
  have w : (matShape 2 4 2).WF := matShape_wf rfl
  obtain ⟨x, e, h⟩ := Dev.newBySlice_ok (α := α) w (by decide) .debug 0 m (v := v) hv
  obtain ⟨F1, ⟨y1, e1, -⟩, -⟩ := C53_reshape h (t := matShape 4 2 2) (matShape_wf rfl) (by decide) .debug m
  obtain ⟨F2, ⟨y2, e2, -⟩, -⟩ := C53_reshape h (t := vecShape 16 1) (vecShape_wf rfl) (by decide) .debug m
  exact ⟨x, e, ⟨y1, e1⟩, ⟨y2, e2⟩, C53_reshape_panics h (by decide) m, C28_batch_slice_panics h (by decide) m,
    C28_batch_pick_panics h (by decide) m, C28_batch_split_panics h (by decide) .debug mm,
    C26_concat_panics (xs := [x, x]) (ins := [(_, _), (_, _)]) (.cons h (.cons h .nil)) (fun hc => absurd hc.1 (by omega)) m⟩

end Verif
