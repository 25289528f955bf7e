import Verif.PropsFw
import Verif.FwMore2
import Verif.IntInst

/-!
# Properties C21 – C24: reductions, sorting, broadcasting and matrix products

Notation of `TensorSpec`: `cset c dim j` are the coordinates `c` with coordinate `dim` replaced by `j`, `mat i j` the coordinates of row
`i` and column `j`; `sumTo n t` is `0 + t 0 + … + t (n-1)`.
-/

set_option linter.unusedSectionVars false

namespace Verif
open Res
variable {α : Type} [Flt α] {d : Nat} {x y : Tensor α} {s sx sy : Shape} {f g : Arr α}

/-! ### C21 -/

/-- C21: `sum(dim)` adds the elements of the axis from left to right, for every one of the 8 axes (also beyond the depth), and the result's
shape is the operand's with that axis set to 1 (such a shape always exists). -/
theorem C21_sum (hx : x.Holds d sx f) {dim : Nat} (hd : dim < 8) (p : Profile) (m : Nat → α) :
    ∃ s : Shape, s.Is (cset sx.get dim 1) sx.batch ∧
      Yields (TF.sum p m x dim) d s (fun c b => sumTo (sx.get dim) (fun j => f (cset c dim j) b)) := by
  obtain ⟨s, hs⟩ := Shape.exists_is_cset hx.wf hd (le_refl 1) (lt_of_le_of_lt (volN_le (g := sx.get) fun i _ => by
    unfold cset; split
    · exact hx.wf.get_pos i
    · exact le_refl _) (by rw [← hx.wf.vol]; exact hx.wf.vol_lt))
  obtain ⟨h1, h2, -, -⟩ := resize1 hx.wf hd hs
  exact ⟨s, hs, TF.call1 (op := .sum dim) hx h1 (h2.trans hx.small) trivial p m⟩

/-- C21: `max(dim)`: every element of the result is an element of its fibre and an upper bound of it. -/
theorem C21_max [LinearOrder α] (hgt : ∀ a b : α, Flt.gt a b = decide (b < a)) (hx : x.Holds d sx f) {dim : Nat} (hd : dim < 8)
    (p : Profile) (m : Nat → α) :
    ∃ (s : Shape) (F : Arr α), s.Is (cset sx.get dim 1) sx.batch ∧ Yields (TF.max p m x dim) d s F ∧ ∀ c b, s.Valid c b →
      (∃ j, j < sx.get dim ∧ F c b = f (cset c dim j) b) ∧ ∀ j, j < sx.get dim → f (cset c dim j) b ≤ F c b := by
  obtain ⟨s, hs, -⟩ := C21_sum hx hd p m
  obtain ⟨h1, h2, -, -⟩ := resize1 hx.wf hd hs
  exact ⟨s, _, hs, TF.call1 (op := .max dim) hx h1 (h2.trans hx.small) trivial p m, fun c b _ =>
    scanTo_max (hx.wf.get_pos dim) (fun j => f (cset c dim j) b) (fun v t => Flt.gt v t) (fun a b => hgt a b)⟩

/-- C21: `min(dim)`: every element of the result is an element of its fibre and a lower bound of it. -/
theorem C21_min [LinearOrder α] (hgt : ∀ a b : α, Flt.gt a b = decide (b < a)) (hx : x.Holds d sx f) {dim : Nat} (hd : dim < 8)
    (p : Profile) (m : Nat → α) :
    ∃ (s : Shape) (F : Arr α), s.Is (cset sx.get dim 1) sx.batch ∧ Yields (TF.min p m x dim) d s F ∧ ∀ c b, s.Valid c b →
      (∃ j, j < sx.get dim ∧ F c b = f (cset c dim j) b) ∧ ∀ j, j < sx.get dim → F c b ≤ f (cset c dim j) b := by
  obtain ⟨s, hs, -⟩ := C21_sum hx hd p m
  obtain ⟨h1, h2, -, -⟩ := resize1 hx.wf hd hs
  exact ⟨s, _, hs, TF.call1 (op := .min dim) hx h1 (h2.trans hx.small) trivial p m, fun c b _ =>
    scanTo_min (hx.wf.get_pos dim) (fun j => f (cset c dim j) b) (fun v t => Flt.gt t v) (fun a b => hgt b a)⟩

/-- C21: `argmax(dim)`: the entry of each fibre is the first position of its greatest element (any axis number; beyond the depth every fibre has one element). -/
theorem C21_argmax [LinearOrder α] (hgt : ∀ a b : α, Flt.gt a b = decide (b < a)) (hx : x.Holds d sx f) {dim : Nat}
    (hs : s.Is (cset sx.get dim 1) sx.batch) (p : Profile) :
    ∃ r, TF.argmax p x dim = ok r ∧ r.length = s.size ∧ ∀ c b, s.Valid c b → ∃ k, r[s.offset c b]? = some k ∧ k < sx.get dim ∧
      (∀ j, j < sx.get dim → f (cset c dim j) b ≤ f (cset c dim k) b) ∧ ∀ j, j < k → f (cset c dim j) b < f (cset c dim k) b := by
  obtain ⟨r, e, h1, h2⟩ := argext_holds (fun v t => Flt.gt v t) hx hs p
  refine ⟨r, ?_, h1, fun c b hv => ?_⟩
  · unfold TF.argmax Tensor.dev; rw [hx.device]; exact e
  · obtain ⟨q1, -, q3, q4⟩ := argScan_max (fun j => f (cset c dim j) b) (fun v t => Flt.gt v t) (fun a b => hgt a b) (sx.get dim - 1)
    have := hx.wf.get_pos dim
    exact ⟨_, h2 c b hv, by omega, fun j hj => q3 j (by omega), q4⟩

/-- C21: `argmin(dim)`: the entry of each fibre is the first position of its least element (any axis number). -/
theorem C21_argmin [LinearOrder α] (hgt : ∀ a b : α, Flt.gt a b = decide (b < a)) (hx : x.Holds d sx f) {dim : Nat}
    (hs : s.Is (cset sx.get dim 1) sx.batch) (p : Profile) :
    ∃ r, TF.argmin p x dim = ok r ∧ r.length = s.size ∧ ∀ c b, s.Valid c b → ∃ k, r[s.offset c b]? = some k ∧ k < sx.get dim ∧
      (∀ j, j < sx.get dim → f (cset c dim k) b ≤ f (cset c dim j) b) ∧ ∀ j, j < k → f (cset c dim k) b < f (cset c dim j) b := by
  obtain ⟨r, e, h1, h2⟩ := argext_holds (fun v t => Flt.gt t v) hx hs p
  refine ⟨r, ?_, h1, fun c b hv => ?_⟩
  · unfold TF.argmin Tensor.dev; rw [hx.device]; exact e
  · obtain ⟨q1, -, q3, q4⟩ := argScan_min (fun j => f (cset c dim j) b) (fun v t => Flt.gt t v) (fun a b => hgt b a) (sx.get dim - 1)
    have := hx.wf.get_pos dim
    exact ⟨_, h2 c b hv, by omega, fun j hj => q3 j (by omega), q4⟩

/-- C21: an axis number of 8 or more makes `sum`, `max`, `min` and `logsumexp` panic. -/
theorem C21_panics (hx : x.Holds d sx f) {dim : Nat} (hd : 8 ≤ dim) (p : Profile) (m : Nat → α) :
    TF.sum p m x dim = panic ∧ TF.max p m x dim = panic ∧ TF.min p m x dim = panic ∧ TF.logsumexp p m x dim = panic := by
  have key : ∀ op : FwOp α, (op.shape p [sx] = sx.resizeDim p dim 1) → TF.call op p m x [x] = panic := by
    intro op e
    unfold TF.call Tensor.dev unwrap Dev.fw
    rw [hx.device, ok_bind, onAll_ok (fun t ht => by rw [List.mem_singleton.mp ht]; exact hx.device), ok_bind, List.map_cons, List.map_nil,
      hx.shape, e]
    unfold Shape.resizeDim Shape.updateDim
    rw [check_false _ (by omega)]; rfl
  exact ⟨key (.sum dim) rfl, key (.max dim) rfl, key (.min dim) rfl, key (.logsumexp dim) rfl⟩

/-! ### C22 -/

/-- C22: `argsort(dim)`: along every fibre the entries are the flat positions of the elements of that fibre, each once, ordered by value
(ascending).  `srt` is any sorting algorithm that returns an ordered permutation for a total preorder (`sort_unstable_by`). -/
theorem C22_argsort [LinearOrder α] (hgt : ∀ a b : α, Flt.gt a b = decide (b < a)) (hfeq : ∀ a b : α, Flt.feq a b = decide (a = b))
    {srt : (Nat → Nat → Bool) → List Nat → List Nat} (hs : SortSpec srt) (hx : x.Holds d sx f) (dim : Nat) (p : Profile) :
    ∃ r, TF.argsort srt p x dim = ok r ∧ r.length = sx.size ∧
      ∀ c b, sx.Valid c b → ∃ σ τ : Nat → Nat,
        (∀ i, i < sx.get dim → σ i < sx.get dim ∧ τ i < sx.get dim ∧ τ (σ i) = i ∧ σ (τ i) = i) ∧
        (∀ i, i < sx.get dim → r[sx.offset (cset c dim i) b]? = some (sx.offset (cset c dim (σ i)) b)) ∧
        ∀ i j, i < j → j < sx.get dim → f (cset c dim (σ i)) b ≤ f (cset c dim (σ j)) b :=
  argsort_holds hgt hfeq hs hx dim p

/-! ### C23 -/

/-- C23: `broadcast(dim, n)` of a tensor with extent 1 on that axis repeats its elements along the axis. -/
theorem C23_broadcast (hx : x.Holds d sx f) {dim n : Nat} (hd : dim < 8) (h1 : sx.get dim = 1) (hn : n ≠ 0)
    (hv : sx.volume * n < U32) (hsz : sx.volume * n * sx.batch ≤ 2 ^ 31) (p : Profile) (m : Nat → α) :
    ∃ s : Shape, s.Is (cset sx.get dim n) sx.batch ∧ Yields (TF.broadcast p m x dim n) d s (fun c b => f (cset c dim 0) b) := by
  have hvol : ∀ s : Shape, s.Is (cset sx.get dim n) sx.batch → s.size = sx.volume * n * sx.batch := by
    intro s hs
    have hne : ∀ i, i ≠ dim → s.get i = sx.get i := fun i hi => by
      have := hs.2.1 i; unfold cset at this; rw [if_neg hi] at this; exact this
    have hdim : s.get dim = n := by have := hs.2.1 dim; unfold cset at this; rw [if_pos rfl] at this; exact this
    have e1 := size_axis hs.1 hx.wf hne hs.2.2
    have e2 := size_axis hx.wf hx.wf (dim := dim) (fun _ _ => rfl) rfl
    rw [hdim] at e1
    rw [h1] at e2
    unfold Shape.size at e1 e2 ⊢
    rw [e1]
    calc _ = sx.lowerVolume dim * 1 * (sx.up dim * sx.batch) * n := by ring
      _ = _ := by rw [← e2]; ring
  obtain ⟨s, hs⟩ := Shape.exists_is_cset hx.wf hd (Nat.one_le_iff_ne_zero.mpr hn) (by
    have := hx.wf.volN_update (m := n) hd
    rw [h1, Nat.mul_one] at this
    exact lt_of_eq_of_lt this hv)
  exact ⟨s, hs, TF.call1 (op := .broadcast dim n) hx ((Shape.broadcast_iff hx.wf).mpr ⟨hd, h1, hn, hv, hs⟩) (by rw [hvol s hs]; exact hsz) trivial p m⟩

/-- C23: summing the repeated elements again adds each of them `n` times. -/
theorem C23_sum_of_broadcast (hx : x.Holds d sx f) {dim n : Nat} (hd : dim < 8) (h1 : sx.get dim = 1) (hn : n ≠ 0)
    (hv : sx.volume * n < U32) (hsz : sx.volume * n * sx.batch ≤ 2 ^ 31) (p : Profile) (m m' : Nat → α) :
    Yields (do let t ← TF.broadcast p m x dim n; TF.sum p m' t dim) d sx (fun c b => sumTo n (fun _ => f c b)) := by
  obtain ⟨s, hs, hy⟩ := C23_broadcast hx hd h1 hn hv hsz p m
  refine hy.bind fun t ht => ?_
  obtain ⟨s', hs', hy'⟩ := C21_sum ht hd p m'
  have hdim : s.get dim = n := by have := hs.2.1 dim; unfold cset at this; rw [if_pos rfl] at this; exact this
  have e : s' = sx := hs'.1.ext hx.wf (by rw [hs'.2.2, hs.2.2]) (fun i => by
    have h2 := hs'.2.1 i; have h3 := hs.2.1 i
    unfold cset at h2 h3
    split at h2 <;> rename_i hi
    · rw [h2, hi, h1]
    · rw [if_neg hi] at h3; rw [h2, h3])
  subst e
  refine hy'.congr fun c b hv => ?_
  rw [hdim]
  have : ∀ j, f (cset (cset c dim j) dim 0) b = f c b := fun j => by
    congr 1; funext i; unfold cset
    have := hv.1 dim
    by_cases hi : i = dim
    · rw [if_pos hi, hi]; omega
    · rw [if_neg hi, if_neg hi]
  simp only [this]

/-- C23: any other argument makes `broadcast` panic (in a build with overflow checks). -/
theorem C23_panics (hx : x.Holds d sx f) {dim n : Nat}
    (h : ¬ (dim < 8 ∧ sx.get dim = 1 ∧ n ≠ 0 ∧ sx.volume * n < U32 ∧ sx.volume * n * sx.batch ≤ 2 ^ 31)) (m : Nat → α) :
    TF.broadcast .debug m x dim n = panic := by
  unfold TF.broadcast TF.call Tensor.dev unwrap
  rw [hx.device, ok_bind]
  refine Dev.fw_panics (op := .broadcast dim n) (by simp [hx.fine]) trivial ?_ m
  rintro ⟨s, hp⟩
  have hs := hp.shape
  simp only [List.map, hx.shape] at hs
  obtain ⟨q1, q2, q3, q4, q5⟩ := (Shape.broadcast_iff hx.wf).mp hs
  refine h ⟨q1, q2, q3, q4, ?_⟩
  have hv : s.volume = sx.volume * n := by
    have := hx.wf.volN_update (m := n) q1
    rw [q2, Nat.mul_one] at this
    rw [q5.1.vol, volN_congr (fun i _ => q5.2.1 i)]; exact this
  have := hp.size
  unfold Shape.size at this
  rw [hv, q5.2.2, Nat.mul_comm] at this
  exact this

/-! ### C24 -/

/-- What `matmul` needs. -/
def MatFits (a b : Shape) : Prop :=
  (∀ i, 2 ≤ i → a.get i = 1) ∧ (∀ i, 2 ≤ i → b.get i = 1) ∧ a.get 1 = b.get 0 ∧ BatchCompat a b

/-- C24: `matmul` in any arithmetic: the products of row and column are added in blocks of 8 (`sumBlk`), for all sizes, batches broadcast. -/
theorem C24_matmul (hx : x.Holds d sx f) (hy : y.Holds d sy g) (h : MatFits sx sy) (hv : sx.get 0 * sy.get 1 < U32)
    (hsz : sx.get 0 * sy.get 1 * max sx.batch sy.batch ≤ 2 ^ 31) (p : Profile) (m : Nat → α) :
    ∃ s : Shape, s.Is (fun i => if i = 0 then sx.get 0 else if i = 1 then sy.get 1 else 1) (max sx.batch sy.batch) ∧
      Yields (TF.matmul p m x y) d s (fun c b =>
        sumBlk (sx.get 1) (fun j => f (mat (c 0) j) (bb sx b) * g (mat j (c 1)) (bb sy b))) := by
  have hvol : volN (matDims (sx.get 0) (sy.get 1)) 8 = sx.get 0 * sy.get 1 := by simp [volN, matDims]
  obtain ⟨s, hs⟩ := Shape.exists_is (f := matDims (sx.get 0) (sy.get 1)) (b := max sx.batch sy.batch)
    (fun i => by unfold matDims; have := hx.wf.get_pos 0; have := hy.wf.get_pos 1; split_ifs <;> omega)
    (fun i hi => by unfold matDims; rw [if_neg (by omega), if_neg (by omega)]) (by rw [hvol]; exact hv)
    (by have := hx.wf.batch_pos; omega)
  refine ⟨s, hs, TF.call2 (op := .matmul) hx.device hx hy
    ((Shape.matmul_iff hx.wf hy.wf).mpr ⟨h.1, h.2.1, h.2.2.1, h.2.2.2, hv, hs⟩) ?_ trivial p m⟩
  unfold Shape.size
  rw [hs.1.vol, volN_congr (fun i _ => hs.2.1 i), hvol, hs.2.2, Nat.mul_comm]
  exact hsz

/-- C24: when addition is associative with unit 0, `matmul` is the mathematical product. -/
theorem C24_matmul_sum (hassoc : ∀ u v w : α, u + v + w = u + (v + w)) (hz : ∀ u : α, u + 0 = u) (hz' : ∀ u : α, 0 + u = u)
    (hx : x.Holds d sx f) (hy : y.Holds d sy g) (h : MatFits sx sy) (hv : sx.get 0 * sy.get 1 < U32)
    (hsz : sx.get 0 * sy.get 1 * max sx.batch sy.batch ≤ 2 ^ 31) (p : Profile) (m : Nat → α) :
    ∃ s : Shape, s.Is (fun i => if i = 0 then sx.get 0 else if i = 1 then sy.get 1 else 1) (max sx.batch sy.batch) ∧
      Yields (TF.matmul p m x y) d s (fun c b =>
        sumTo (sx.get 1) (fun j => f (mat (c 0) j) (bb sx b) * g (mat j (c 1)) (bb sy b))) := by
  obtain ⟨s, hs, hyl⟩ := C24_matmul hx hy h hv hsz p m
  refine ⟨s, hs, hyl.congr fun c b _ => ?_⟩
  letI : AddMonoid α := { add_assoc := hassoc, zero_add := hz', add_zero := hz, nsmul := nsmulRec }
  exact (blockSum_eq _ _).symm

/-- C24: other shapes make `matmul` panic (in a build with overflow checks). -/
theorem C24_panics (hx : x.Holds d sx f) (hy : y.Holds d sy g) (h : ¬ MatFits sx sy) (m : Nat → α) :
    TF.matmul .debug m x y = panic := by
  unfold TF.matmul TF.call Tensor.dev unwrap
  rw [hx.device, ok_bind]
  refine Dev.fw_panics (op := .matmul) (by simp [hx.fine, hy.fine]) trivial ?_ m
  rintro ⟨s, hp⟩
  have hs := hp.shape
  simp only [List.map, hx.shape, hy.shape] at hs
  obtain ⟨q1, q2, q3, q4, _⟩ := (Shape.matmul_iff hx.wf hy.wf).mp hs
  exact h ⟨q1, q2, q3, q4⟩

/-! ### Concrete cases -/

/-- C21, C22: a 3×2 tensor with two batches, over the integers, meets the hypotheses. -/
example : letI := intFlt; ∃ x : Tensor ℤ, Dev.newBySlice .debug 0 (fun _ => 9) (matShape 3 2 2) [5, 7, 7, 1, 1, 0, 2, 9, 4, 8, 3, 3] = ok x ∧
    (∃ r, TF.argmax .debug x 0 = ok r ∧ r.length = 4) ∧
    (∃ r, TF.argsort (fun le l => l.mergeSort le) .debug x 1 = ok r ∧ r.length = 12) ∧
    ∃ y, TF.sum .debug (fun _ => 9) x 1 = ok y := by
  letI := intFlt
  have w : (matShape 3 2 2).WF := matShape_wf rfl
  obtain ⟨x, e, h⟩ := Dev.newBySlice_ok (α := ℤ) (s := matShape 3 2 2) w (by decide) .debug 0 (fun _ => 9)
    (v := [5, 7, 7, 1, 1, 0, 2, 9, 4, 8, 3, 3]) rfl
  obtain ⟨s, hs, -⟩ := C21_sum h (dim := 0) (by omega) .debug (fun _ => 9)
  obtain ⟨r, er, hr, -⟩ := C21_argmax (fun _ _ => rfl) h hs .debug
  obtain ⟨r2, er2, hr2, -⟩ := C22_argsort (fun _ _ => rfl) (fun _ _ => rfl) sortSpec_mergeSort h 1 .debug
  obtain ⟨_, _, y, ey, -⟩ := C21_sum h (dim := 1) (by omega) .debug (fun _ => 9)
  refine ⟨x, e, ⟨r, er, ?_⟩, ⟨r2, er2, hr2⟩, y, ey⟩
  rw [hr]
  unfold Shape.size
  rw [hs.1.vol, volN_congr (fun i _ => hs.2.1 i), hs.2.2]
  decide

/-- C23, C24: a batched 9×10 matrix times a 10×3 matrix (sizes that are not multiples of 8). -/
example (a b : α) (m : Nat → α) : ∃ x y z, Dev.newByConstant .debug 0 m (matShape 9 10 2) a = ok x ∧
    Dev.newByConstant .debug 0 m (matShape 10 3 1) b = ok y ∧ TF.matmul .debug m x y = ok z ∧
    ∃ s, s.get 0 = 9 ∧ s.get 1 = 3 ∧ s.batch = 2 ∧ z.Holds 0 s (fun _ _ => sumBlk 10 (fun _ => a * b)) := by
  obtain ⟨x, e1, h1⟩ := Dev.newByConstant_ok (α := α) (matShape_wf (n := 9) (m := 10) (b := 2) rfl) (by decide) .debug 0 m a
  obtain ⟨y, e2, h2⟩ := Dev.newByConstant_ok (α := α) (matShape_wf (n := 10) (m := 3) (b := 1) rfl) (by decide) .debug 0 m b
  have tail : ∀ {n k q}, ∀ i, 2 ≤ i → (matShape n k q).get i = 1 := by
    intro n k q i hi
    have : ∀ j, Shape.raw (matShape n k q).dims (j + 2) = 1 := fun j => by
      unfold matShape Shape.raw
      match j with
      | 0 | 1 | 2 | 3 | 4 | 5 => rfl
      | j + 6 => rfl
    unfold Shape.get
    obtain ⟨j, rfl⟩ := Nat.exists_eq_add_of_le' hi
    split
    · exact this j
    · rfl
  obtain ⟨s, hs, z, e3, h3⟩ := C24_matmul h1 h2 ⟨tail, tail, rfl, .inr (.inr rfl)⟩ (by decide) (by decide) .debug m
  exact ⟨x, y, z, e1, e2, e3, s, hs.2.1 0, hs.2.1 1, hs.2.2, h3⟩

end Verif
