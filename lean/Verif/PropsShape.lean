import Verif.Refines

/-!
# Properties C01–C08: shapes

Vocabulary: `Shape.get s i` is `shape[i]`; `volN f n = f 0 * … * f (n-1)`; `raw dims i` is `dims[i]`, or 1 beyond the end
of the list; `Shape.Reachable` is membership in the set of shapes the public API can produce;
`y.Is f b`: `y` is well-formed with `y[i] = f i` and batch `b`.
-/

namespace Verif
open Res Shape ShapeOps

/-! ### C01 -/

/-- C01: `Shape::new(dims, batch)` panics exactly when there are more than 8 dims, batch is 0, some dim is 0, or the
product of the dims does not fit u32. -/
theorem C01_new_panics_iff (dims : List Nat) (batch : Nat) :
    Shape.new .debug dims batch = panic ↔
      8 < dims.length ∨ batch = 0 ∨ 0 ∈ dims ∨ U32 ≤ volN (raw dims) dims.length := by
  rw [panic_iff_of_safe (new_safe _ _ _), new_ok_iff]
  have hz : (∀ i, i < dims.length → raw dims i ≠ 0) ↔ ¬ 0 ∈ dims := by
    constructor
    · intro h h0
      obtain ⟨i, hi, he⟩ := List.mem_iff_getElem.mp h0
      exact h i hi (by simp [raw, List.getD_eq_getElem?_getD, hi, he])
    · intro h i hi h0
      apply h
      have : dims[i] = 0 := by simpa [raw, List.getD_eq_getElem?_getD, hi] using h0
      exact this ▸ List.getElem_mem hi
  unfold NewOk
  rw [hz]
  by_cases h0 : 0 ∈ dims <;> simp only [h0, not_true, not_false_iff, false_and, and_false, true_or, or_true,
    true_and, false_or]
  omega

/-- C01: when `Shape::new` returns, every entry is the given dim (1 elsewhere), the batch is the given one, `volume()` is
the product of the dims, `depth()` is the position after the last dim different from 1, and `dims()` are the first
`depth()` entries. -/
theorem C01_new_canonical {dims : List Nat} {batch : Nat} {s : Shape} (h : Shape.new .debug dims batch = ok s) :
    (∀ i, s.get i = raw dims i) ∧ s.batch = batch ∧ s.volume = volN (raw dims) dims.length ∧
    (∀ d, s.depth ≤ d ↔ ∀ i, d ≤ i → raw dims i = 1) ∧
    (∀ i, s.dimsSlice[i]? = if i < s.depth then some (raw dims i) else none) := by
  obtain ⟨hw, hb, hg⟩ := new_ok h
  obtain ⟨hl, _⟩ := new_ok_imp h
  refine ⟨hg, hb, ?_, ?_, ?_⟩
  · rw [hw.vol, volN_congr (fun i _ => hg i)]
    obtain ⟨k, hk⟩ := Nat.exists_eq_add_of_le hl
    rw [hk, volN_add, volN_ones (n := k), Nat.mul_one]
    intro i _
    exact raw_of_length_le (by omega)
  · intro d
    rw [hw.depth_le_iff]
    exact forall_congr' fun i => by rw [hg]
  · intro i
    unfold dimsSlice
    rw [List.getElem?_take]
    split
    · rename_i hi
      have h8 : i < s.dims.length := by rw [hw.len]; have := hw.depth_le; omega
      rw [← hg, hw.get_eq_raw, List.getElem?_eq_getElem h8]
      simp [raw, List.getD_eq_getElem?_getD, h8]
    · rfl

/-- Non-vacuity for C01: a shape with a trailing 1. -/
example : ∃ s, Shape.new .debug [3, 1, 5, 1] 7 = ok s ∧ s.depth = 3 ∧ s.volume = 15 ∧ s.get 2 = 5 ∧ s.get 9 = 1 :=
  ⟨⟨[3, 1, 5, 1, 1, 1, 1, 1], 7, 3, 15⟩, by decide, by decide⟩
example : Shape.new .debug [65536, 65536] 1 = panic := by decide

/-! ### C02 -/

/-- C02: two shapes obtained from the API are equal (derived `PartialEq`: stored array, batch, depth, volume) iff their batches and all
their entries agree. -/
theorem C02_eq_iff {s t : Shape} (hs : s.Reachable) (ht : t.Reachable) :
    s = t ↔ s.batch = t.batch ∧ ∀ i, s.get i = t.get i :=
  ⟨fun h => h ▸ ⟨rfl, fun _ => rfl⟩, fun h => hs.wf.ext ht.wf h.1 h.2⟩

/-- C02: trailing ones given to `Shape::new` make no difference. -/
theorem C02_trailing_ones {dims : List Nat} {b k : Nat} {s : Shape} (h : Shape.new .debug dims b = ok s)
    (hk : dims.length + k ≤ 8) : Shape.new .debug (dims ++ List.replicate k 1) b = ok s := by
  have hraw : ∀ i, raw (dims ++ List.replicate k 1) i = raw dims i := by
    intro i
    unfold raw
    simp only [List.getD_eq_getElem?_getD, List.getElem?_append]
    split
    · rfl
    · rename_i hi
      rw [List.getElem?_eq_none (by omega : dims.length ≤ i)]
      rw [List.getElem?_replicate]
      split <;> rfl
  obtain ⟨h1, h2, h3, h4⟩ := new_ok_imp h
  obtain ⟨hw, hb, hg⟩ := new_ok h
  have hN : NewOk (dims ++ List.replicate k 1) b := by
    refine ⟨by simpa using hk, h2, ?_, ?_⟩
    · intro i _
      rw [hraw]
      by_cases hi : i < dims.length
      · exact h3 i hi
      · rw [raw_of_length_le (by omega)]; decide
    · rw [List.length_append, List.length_replicate, volN_congr (fun i _ => hraw i), volN_add,
        volN_ones (n := k) (fun i _ => raw_of_length_le (by omega)), Nat.mul_one]
      exact h4
  obtain ⟨t, ht, htw, htb, htg⟩ := new_of .debug hN
  rw [ht]
  congr 1
  exact htw.ext hw (by rw [htb, hb]) (fun i => by rw [htg, hg, hraw])

/-- Non-vacuity for C02: resizing back and forth gives the shape built directly. -/
example : ∃ s t u, Shape.new .debug [3] 2 = ok s ∧ s.resizeDim .debug 4 6 = ok t ∧ t.resizeDim .debug 4 1 = ok u ∧ u = s ∧ t ≠ s :=
  ⟨⟨[3, 1, 1, 1, 1, 1, 1, 1], 2, 1, 3⟩, ⟨[3, 1, 1, 1, 6, 1, 1, 1], 2, 5, 18⟩, _, by decide, by decide, by decide, rfl,
    by decide⟩

/-! ### C03 -/

/-- C03: `resize_dim(dim, m)` (and `update_dim`) panics exactly when dim ≥ 8, m = 0 or the new product overflows. -/
theorem C03_resizeDim_panics_iff {s : Shape} (hs : s.Reachable) (dim m : Nat) :
    s.resizeDim .debug dim m = panic ↔ 8 ≤ dim ∨ m = 0 ∨ U32 ≤ volN (fun i => if i = dim then m else s.get i) 8 := by
  rw [panic_iff_of_safe (resizeDim_safe _ _ _ _)]
  constructor
  · intro h
    by_cases h1 : dim < 8 ∧ m ≠ 0 ∧ volN (fun i => if i = dim then m else s.get i) 8 < U32
    · obtain ⟨t, ht, _⟩ := hs.wf.updateDim_of .debug h1.1 h1.2.1 h1.2.2
      exact (h ⟨t, ht⟩).elim
    · omega
  · rintro h ⟨t, ht⟩
    have := hs.wf.updateDim_ok_imp ht
    omega

/-- C03: the result differs from the original only in that dim, and its cached depth and volume fit its dims. -/
theorem C03_resizeDim_result {s t : Shape} (hs : s.Reachable) {dim m : Nat} (h : s.resizeDim .debug dim m = ok t) :
    t.get dim = m ∧ (∀ i, i ≠ dim → t.get i = s.get i) ∧ t.batch = s.batch ∧
    t.volume = volN t.get 8 ∧ (∀ d, t.depth ≤ d ↔ ∀ i, d ≤ i → t.get i = 1) ∧
    t.volume * s.get dim = s.volume * m := by
  obtain ⟨hw, hb, hg⟩ := hs.wf.updateDim_ok h
  refine ⟨by rw [hg, if_pos rfl], fun i hi => by rw [hg, if_neg hi], hb, hw.vol, hw.depth_le_iff, ?_⟩
  rw [hw.vol, volN_congr (fun i _ => hg i)]
  exact hs.wf.volN_update (hs.wf.updateDim_ok_imp h).1

/-- C03, companion for the batch: `resize_batch(b)` panics iff b = 0 and changes only the batch. -/
theorem C03_resizeBatch {s : Shape} (hs : s.Reachable) (b : Nat) :
    (s.resizeBatch b = panic ↔ b = 0) ∧
    ∀ t, s.resizeBatch b = ok t → t.batch = b ∧ t.volume = s.volume ∧ (∀ i, t.get i = s.get i) ∧ t.Reachable := by
  constructor
  · rw [panic_iff_of_safe (resizeBatch_safe _ _)]
    constructor
    · intro h
      by_cases hb : b = 0
      · exact hb
      · exact (h ⟨_, updateBatch_ok_iff.mpr ⟨by omega, rfl⟩⟩).elim
    · rintro rfl ⟨t, ht⟩
      have := (updateBatch_ok_iff.mp ht).1
      omega
  · intro t ht
    obtain ⟨_, rfl⟩ := updateBatch_ok_iff.mp ht
    exact ⟨rfl, rfl, fun _ => rfl, Reachable.updateBatch hs ht⟩

example : ∃ s t, Shape.new .debug [3, 4] 2 = ok s ∧ s.resizeDim .debug 1 7 = ok t ∧ t.volume = 21 :=
  ⟨⟨[3, 4, 1, 1, 1, 1, 1, 1], 2, 2, 12⟩, ⟨[3, 7, 1, 1, 1, 1, 1, 1], 2, 2, 21⟩, by decide, by decide, rfl⟩

/-! ### C04 -/

/-- C04: `has_same_dims` is equality of all entries. -/
theorem C04_hasSameDims_iff {s t : Shape} (hs : s.Reachable) (ht : t.Reachable) :
    s.hasSameDims t = true ↔ ∀ i, s.get i = t.get i := hs.wf.hasSameDims_iff ht.wf

/-- C04: `has_same_loo_dims(_, dim)` is equality of all entries but `dim` (for every u32 `dim` below u32::MAX). -/
theorem C04_hasSameLooDims_iff {s t : Shape} (hs : s.Reachable) (ht : t.Reachable) {dim : Nat} (hd : dim + 1 < U32) (p : Profile) :
    (∃ b, s.hasSameLooDims p t dim = ok b) ∧
    (s.hasSameLooDims p t dim = ok true ↔ ∀ i, i ≠ dim → s.get i = t.get i) := by
  obtain ⟨b, hb, hi⟩ := hs.wf.hasSameLooDims_of ht.wf p hd
  refine ⟨⟨b, hb⟩, ?_⟩
  rw [hb, Res.ok.injEq, hi]

/-- C04: at `dim = u32::MAX` without overflow checks, where `dim + 1` is 0, the call panics if one of the shapes is a scalar (an index out of the
bounds of an array). -/
theorem C04_hasSameLooDims_max_release (s t : Shape) (h : s.isScalar = true ∨ t.isScalar = true) : s.hasSameLooDims .release t (U32 - 1) = panic := by
  have h1 : uadd .release (U32 - 1) 1 = ok 0 := by decide
  unfold hasSameLooDims
  rw [h1, ok_bind]
  simp only [isScalar, beq_iff_eq] at h
  have hU : ¬ U32 - 1 ≤ 8 := by decide
  by_cases hs : s.depth = 0
  · simp only [if_pos hs]
    rw [check_false _ (by simpa using hU)]
    rfl
  · have ht : t.depth = 0 := h.resolve_left hs
    simp only [if_neg hs, if_pos ht]
    by_cases h8 : s.depth ≤ 8
    · rw [check_true _ (by simpa using h8), check_false _ (by simpa using hU)]
      rfl
    · rw [check_false _ (by simpa using h8)]
      rfl

/-- C04: at `dim = u32::MAX` the addition `dim + 1` overflows and the call panics. -/
theorem C04_hasSameLooDims_max (s t : Shape) : s.hasSameLooDims .debug t (U32 - 1) = panic := by
  have h : uadd .debug (U32 - 1) 1 = panic := by decide
  unfold hasSameLooDims
  rw [h]
  rfl

example : ∃ s t, Shape.new .debug [3, 4, 5] 1 = ok s ∧ Shape.new .debug [3, 9, 5] 1 = ok t ∧
    s.hasSameLooDims .debug t 1 = ok true ∧ s.hasSameLooDims .debug t 0 = ok false ∧ s.hasSameDims t = false :=
  ⟨⟨[3, 4, 5, 1, 1, 1, 1, 1], 1, 3, 60⟩, ⟨[3, 9, 5, 1, 1, 1, 1, 1], 1, 3, 135⟩, by decide, by decide, by decide, by decide,
    by decide⟩

/-! ### C05 -/

/-- C05: `lower_volume(dim)` never overflows and is the product of the dims below `dim`, and
`lower_volume(dim) * shape[dim]` divides `volume()`. -/
theorem C05_lowerVolume {s : Shape} (hs : s.Reachable) (dim : Nat) :
    s.lowerVolumeU .debug dim = ok (volN s.get dim) ∧ volN s.get dim * s.get dim ∣ s.volume := by
  constructor
  · rw [lowerVolumeU_eq hs.wf, hs.wf.lowerVolume_eq]
  · rw [← hs.wf.lowerVolume_eq]
    exact ⟨s.up dim, hs.wf.volume_split dim⟩

/-- C05: the column-major offset maps valid coordinates into `0..size()`, … -/
theorem C05_offset_lt {s : Shape} (hs : s.Reachable) {c : Nat → Nat} {b : Nat} (h : s.Valid c b) :
    s.offset c b < s.batch * s.volume := hs.wf.offset_lt h

/-- C05: … injectively, … -/
theorem C05_offset_injective {s : Shape} (hs : s.Reachable) {c e : Nat → Nat} {b b' : Nat} (h : s.Valid c b)
    (h' : s.Valid e b') (heq : s.offset c b = s.offset e b') : b = b' ∧ c = e :=
  let ⟨h1, h2⟩ := hs.wf.offset_inj h h' heq
  ⟨h1, funext h2⟩

/-- C05: … and onto. -/
theorem C05_offset_surjective {s : Shape} (hs : s.Reachable) {k : Nat} (h : k < s.batch * s.volume) :
    ∃ c b, s.Valid c b ∧ s.offset c b = k :=
  let ⟨h1, h2⟩ := hs.wf.offset_coord h
  ⟨_, _, h1, h2⟩

/-- C05: the kernels' decomposition along an axis: an offset is `lo + lower_volume(dim) * (c[dim] + shape[dim] * hi)` where `lo` and
`hi` do not depend on `c[dim]`. -/
theorem C05_axis_decomposition {s : Shape} (hs : s.Reachable) (dim : Nat) {c : Nat → Nat} {b : Nat} (h : s.Valid c b) :
    ∃ lo hi, lo < volN s.get dim ∧
      ∀ j, j < s.get dim → s.offset (setC c dim j) b = lo + volN s.get dim * (j + s.get dim * hi) := by
  refine ⟨s.lo dim c, s.hi dim c b, ?_, ?_⟩
  · rw [← hs.wf.lowerVolume_eq]; exact hs.wf.lo_lt h dim
  · intro j hj
    have hv : s.Valid (setC c dim j) b := by
      refine ⟨fun d => ?_, h.2⟩
      unfold setC
      split
      · next e => exact e ▸ hj
      · exact h.1 d
    rw [hs.wf.offset_split hv dim, ← hs.wf.lowerVolume_eq]
    have e1 : s.lo dim (setC c dim j) = s.lo dim c := lo_congr (fun _ _ => rfl) (fun i hi => setC_ne hi)
    have e2 : s.hi dim (setC c dim j) b = s.hi dim c b := hi_congr _ (fun _ _ => rfl) (fun i hi => setC_ne hi)
    rw [e1, e2]
    simp [setC]

example : ∃ s, Shape.new .debug [3, 4] 2 = ok s ∧ s.Valid (fun d => if d = 0 then 2 else if d = 1 then 3 else 0) 1 ∧
    s.offset (fun d => if d = 0 then 2 else if d = 1 then 3 else 0) 1 = 23 ∧ s.batch * s.volume = 24 := by
  refine ⟨⟨[3, 4, 1, 1, 1, 1, 1, 1], 2, 2, 12⟩, by decide, ⟨fun d => ?_, by decide⟩, by decide, by decide⟩
  match d with
  | 0 => decide
  | 1 => decide
  | n + 2 => simp [Shape.get]

/-! ### C06 -/

/-- A shape function never shows undefined behaviour, and the shapes it returns are given by `R`; hence it panics exactly when no
shape satisfies `R`. -/
def Decides (x : Res Shape) (R : Shape → Prop) : Prop :=
  (∀ y, x = ok y ↔ R y) ∧ (x = panic ↔ ¬ ∃ y, R y)

theorem Decides.mk' {x : Res Shape} {R : Shape → Prop} (h : x.Safe) (hr : ∀ y, x = ok y ↔ R y) : Decides x R :=
  ⟨hr, by rw [panic_iff_of_safe h]; exact not_congr (exists_congr hr)⟩

/-- C06 elementwise: same dims, compatible batches; dims kept, batch the maximum. -/
theorem C06_elementwise {a b : Shape} (ha : a.Reachable) (hb : b.Reachable) :
    Decides (elementwise a b) fun y =>
      (∀ i, a.get i = b.get i) ∧ BatchCompat a b ∧ y.Is a.get (max a.batch b.batch) :=
  .mk' (elementwise_safe _ _) fun _ => elementwise_iff ha.wf hb.wf

/-- C06 scalar_op. -/
theorem C06_scalarOp {x k : Shape} (hx : x.Reachable) (hk : k.Reachable) :
    Decides (scalarOp x k) fun y =>
      (∀ i, k.get i = 1) ∧ BatchCompat x k ∧ y.Is x.get (max x.batch k.batch) :=
  .mk' (scalarOp_safe _ _) fun _ => scalarOp_iff hx.wf hk.wf

/-- C06 broadcast. -/
theorem C06_broadcast {x : Shape} (hx : x.Reachable) (dim n : Nat) :
    Decides (broadcast .debug x dim n) fun y =>
      dim < 8 ∧ x.get dim = 1 ∧ n ≠ 0 ∧ x.volume * n < U32 ∧ y.Is (setC x.get dim n) x.batch :=
  .mk' (broadcast_safe _ _ _ _) fun _ => broadcast_iff hx.wf

/-- C06 matmul. -/
theorem C06_matmul {l r : Shape} (hl : l.Reachable) (hr : r.Reachable) :
    Decides (matmul .debug l r) fun y =>
      (∀ i, 2 ≤ i → l.get i = 1) ∧ (∀ i, 2 ≤ i → r.get i = 1) ∧ l.get 1 = r.get 0 ∧ BatchCompat l r ∧
      l.get 0 * r.get 1 < U32 ∧
      y.Is (fun i => if i = 0 then l.get 0 else if i = 1 then r.get 1 else 1) (max l.batch r.batch) :=
  .mk' (matmul_safe _ _ _) fun _ => matmul_iff hl.wf hr.wf

/-- C06 transpose. -/
theorem C06_transpose {x : Shape} (hx : x.Reachable) :
    Decides (transpose .debug x) fun y =>
      (∀ i, 2 ≤ i → x.get i = 1) ∧ y.Is (fun i => if i = 0 then x.get 1 else if i = 1 then x.get 0 else 1) x.batch :=
  .mk' (transpose_safe _ _) fun _ => transpose_iff hx.wf

/-- C06 slice. -/
theorem C06_slice {x : Shape} (hx : x.Reachable) (dim lower upper : Nat) :
    Decides (slice .debug x dim lower upper) fun y =>
      dim < 8 ∧ lower < upper ∧ upper ≤ x.get dim ∧ y.Is (setC x.get dim (upper - lower)) x.batch :=
  .mk' (slice_safe _ _ _ _ _) fun _ => slice_iff hx.wf

/-- C06 pick. -/
theorem C06_pick {x : Shape} (hx : x.Reachable) (ids : List Nat) (dim : Nat) :
    Decides (pick .debug x ids dim) fun y =>
      dim < 8 ∧ ids ≠ [] ∧ (x.batch = ids.length ∨ x.batch = 1 ∨ ids.length = 1) ∧ (∀ id, id ∈ ids → id < x.get dim) ∧
      y.Is (setC x.get dim 1) (max x.batch ids.length) :=
  .mk' (pick_safe _ _ _ _) fun _ => pick_iff hx.wf

/-- C06 concat: the dims other than `dim` agree, batches pairwise compatible; dim `dim` is the sum. -/
theorem C06_concat {xs : List Shape} (hx : ∀ x, x ∈ xs → x.Reachable) (dim : Nat) :
    Decides (concat .debug xs dim) fun y =>
      dim < 8 ∧ xs ≠ [] ∧ (∀ i, i < xs.length → ∀ d, d ≠ dim → (nth xs i).get d = (nth xs 0).get d) ∧ AllCompat xs ∧
      volN (setC (nth xs 0).get dim (sumN (fun i => (nth xs i).get dim) xs.length)) 8 < U32 ∧
      y.Is (setC (nth xs 0).get dim (sumN (fun i => (nth xs i).get dim) xs.length))
        (maxN (fun i => (nth xs i).batch) xs.length) :=
  .mk' (concat_safe _ _ _) fun _ => concat_iff fun x h => (hx x h).wf

/-- C06 batch_pick. -/
theorem C06_batchPick {x : Shape} (hx : x.Reachable) (ids : List Nat) :
    Decides (batchPick x ids) fun y => ids ≠ [] ∧ (∀ id, id ∈ ids → id < x.batch) ∧ y.Is x.get ids.length :=
  .mk' (batchPick_safe _ _) fun _ => batchPick_iff hx.wf

/-- C06 batch_slice. -/
theorem C06_batchSlice {x : Shape} (hx : x.Reachable) (lower upper : Nat) :
    Decides (batchSlice x lower upper) fun y => lower < upper ∧ upper ≤ x.batch ∧ y.Is x.get (upper - lower) :=
  .mk' (batchSlice_safe _ _ _) fun _ => batchSlice_iff hx.wf

/-- C06 batch_concat. -/
theorem C06_batchConcat {xs : List Shape} (hx : ∀ x, x ∈ xs → x.Reachable) :
    Decides (batchConcat .debug xs) fun y =>
      xs ≠ [] ∧ (∀ i, i < xs.length → ∀ d, (nth xs i).get d = (nth xs 0).get d) ∧
      (xs.length = 1 ∨ sumN (fun i => (nth xs i).batch) xs.length < U32) ∧
      y.Is (nth xs 0).get (sumN (fun i => (nth xs i).batch) xs.length) :=
  .mk' (batchConcat_safe _ _) fun _ => batchConcat_iff fun x h => (hx x h).wf

/-- C06, uniqueness: the shape described by `Is` is unique, so the relations above determine the result. -/
theorem C06_is_unique {y z : Shape} {f : Nat → Nat} {b : Nat} (h1 : y.Is f b) (h2 : z.Is f b) : y = z := Is.unique h1 h2

/-- Non-vacuity for C06: each function returns on a concrete case. -/
example :
    let a : Shape := ⟨[3, 4, 1, 1, 1, 1, 1, 1], 2, 2, 12⟩
    let b : Shape := ⟨[3, 4, 1, 1, 1, 1, 1, 1], 1, 2, 12⟩
    let v : Shape := ⟨[4, 5, 1, 1, 1, 1, 1, 1], 2, 2, 20⟩
    let k : Shape := ⟨[1, 1, 1, 1, 1, 1, 1, 1], 2, 0, 1⟩
    elementwise a b = ok a ∧ scalarOp b k = ok a ∧ matmul .debug a v = ok ⟨[3, 5, 1, 1, 1, 1, 1, 1], 2, 2, 15⟩ ∧
    transpose .debug v = ok ⟨[5, 4, 1, 1, 1, 1, 1, 1], 2, 2, 20⟩ ∧
    slice .debug a 1 1 3 = ok ⟨[3, 2, 1, 1, 1, 1, 1, 1], 2, 2, 6⟩ ∧
    pick .debug a [3, 0] 1 = ok ⟨[3, 1, 1, 1, 1, 1, 1, 1], 2, 1, 3⟩ ∧
    concat .debug [b, a] 1 = ok ⟨[3, 8, 1, 1, 1, 1, 1, 1], 2, 2, 24⟩ ∧
    batchPick a [1, 1, 0] = ok ⟨[3, 4, 1, 1, 1, 1, 1, 1], 3, 2, 12⟩ ∧
    batchSlice a 1 2 = ok b ∧ batchConcat .debug [a, b] = ok ⟨[3, 4, 1, 1, 1, 1, 1, 1], 3, 2, 12⟩ ∧
    broadcast .debug k 3 6 = ok ⟨[1, 1, 1, 6, 1, 1, 1, 1], 2, 4, 6⟩ ∧
    elementwise a v = panic := by decide

/-! ### C07 -/

/-- C07: deserialising the record written for a reachable shape gives the same shape back (in either build profile). -/
theorem C07_roundtrip {s : Shape} (hs : s.Reachable) (p : Profile) : Shape.ofRecord p s.toRecord = ok s :=
  hs.wf.new_record p

/-- C07: deserialising a record panics exactly when the record is not acceptable to `Shape::new`; there is no third outcome
(in particular no error value). -/
theorem C07_deserialize_panics (dims : List Nat) (b : Nat) :
    Shape.ofRecord .debug (dims, b) = panic ↔
      8 < dims.length ∨ b = 0 ∨ 0 ∈ dims ∨ U32 ≤ volN (raw dims) dims.length := C01_new_panics_iff dims b

example : ∃ s, Shape.new .debug [2, 1, 3, 1] 4 = ok s ∧ s.toRecord = ([2, 1, 3], 4) :=
  ⟨⟨[2, 1, 3, 1, 1, 1, 1, 1], 4, 3, 6⟩, by decide, by decide⟩

/-! ### C08 -/

/-- C08: whatever a build with overflow checks computes without panicking, a release build computes as well — for every shape
function (`elementwise`, `scalar_op`, `batch_pick`, `batch_slice` do no checked arithmetic). -/
theorem C08_release_agrees :
    (∀ dims b, Refines (Shape.new .debug dims b) (Shape.new .release dims b)) ∧
    (∀ (s : Shape) dim m, Refines (s.resizeDim .debug dim m) (s.resizeDim .release dim m)) ∧
    (∀ (s : Shape) dim, Refines (s.lowerVolumeU .debug dim) (s.lowerVolumeU .release dim)) ∧
    (∀ s : Shape, Refines (s.sizeU .debug) (s.sizeU .release)) ∧
    (∀ (s r : Shape) dim, Refines (s.hasSameLooDims .debug r dim) (s.hasSameLooDims .release r dim)) ∧
    (∀ (x : Shape) dim n, Refines (broadcast .debug x dim n) (broadcast .release x dim n)) ∧
    (∀ l r : Shape, Refines (matmul .debug l r) (matmul .release l r)) ∧
    (∀ x : Shape, Refines (transpose .debug x) (transpose .release x)) ∧
    (∀ (x : Shape) dim lo up, Refines (slice .debug x dim lo up) (slice .release x dim lo up)) ∧
    (∀ (x : Shape) ids dim, Refines (pick .debug x ids dim) (pick .release x ids dim)) ∧
    (∀ (xs : List Shape) dim, Refines (concat .debug xs dim) (concat .release xs dim)) ∧
    (∀ xs : List Shape, Refines (batchConcat .debug xs) (batchConcat .release xs)) := by
  refine ⟨refines_new, refines_resizeDim, fun s dim => .loop (fun _ _ => .u32 _) _, fun s => .u32 _,
    refines_hasSameLooDims, ?_, ?_, ?_, ?_, ?_, ?_, ?_⟩
  · exact fun x dim n => .bind .rfl fun _ => refines_resizeDim _ _ _
  · exact fun l r => .bind .rfl fun _ => refines_new _ _
  · exact fun x => .bind .rfl fun _ => refines_new _ _
  · exact fun x dim lo up => .bind .rfl fun _ => .bind .rfl fun _ => refines_resizeDim _ _ _
  · exact fun x ids dim => .bind .rfl fun _ => .bind .rfl fun _ => .bind (refines_resizeDim _ _ _) fun _ => .rfl
  · exact fun xs dim => .bind .rfl fun _ => .bind .rfl fun _ => .bind (.loop (fun _ _ => .bind .rfl fun _ =>
      .bind (refines_hasSameLooDims _ _ _) fun _ => .bind .rfl fun _ => .bind .rfl fun _ => .bind (.u32 _) fun _ => .rfl) _)
      fun _ => refines_resizeDim _ _ _
  · exact fun xs => .bind .rfl fun _ => .bind .rfl fun _ => .bind (.loop (fun _ _ => .bind .rfl fun _ =>
      .bind .rfl fun _ => .u32 _) _) fun _ => .rfl

theorem release_new_imp {dims : List Nat} {b : Nat} {s : Shape} (h : Shape.new .release dims b = ok s) :
    dims.length ≤ 8 ∧ 1 ≤ b ∧ ∀ i, i < dims.length → raw dims i ≠ 0 := by
  unfold Shape.new at h
  rw [check_bind_ok, check_bind_ok, bind_eq_ok] at h
  obtain ⟨h1, h2, st, hst, _⟩ := h
  refine ⟨h1, h2, fun i hi => ?_⟩
  obtain ⟨tr, _, _, ht⟩ := loop_trace hst
  have := ht i hi
  rw [ix_eq_raw hi, ok_bind, check_bind_ok] at this
  exact this.1

/-- C08: when the exact product of the dims fits u32, `Shape::new` behaves identically in both profiles, panics included. -/
theorem C08_new_agrees_exactly {dims : List Nat} (b : Nat) (h : volN (raw dims) dims.length < U32) :
    Shape.new .release dims b = Shape.new .debug dims b := by
  by_cases hN : NewOk dims b
  · obtain ⟨s, hs, _⟩ := new_of .debug hN
    rw [hs]
    exact refines_new _ _ _ hs
  · have h1 : Shape.new .debug dims b = panic := by
      rw [panic_iff_of_safe (new_safe _ _ _), new_ok_iff]; exact hN
    rw [h1, panic_iff_of_safe (new_safe _ _ _)]
    rintro ⟨s, hs⟩
    obtain ⟨a1, a2, a3⟩ := release_new_imp hs
    exact hN ⟨a1, a2, a3, h⟩

/-- C08: same for `resize_dim`. -/
theorem C08_resizeDim_agrees_exactly {s : Shape} (hs : s.Reachable) {dim m : Nat}
    (h : volN (fun i => if i = dim then m else s.get i) 8 < U32) :
    s.resizeDim .release dim m = s.resizeDim .debug dim m := by
  by_cases hd : dim < 8 ∧ m ≠ 0
  · obtain ⟨t, ht, _⟩ := hs.wf.updateDim_of .debug hd.1 hd.2 h
    rw [show s.resizeDim .debug dim m = ok t from ht]
    exact refines_resizeDim _ _ _ _ ht
  · unfold resizeDim updateDim
    by_cases h1 : dim < 8
    · have h2 : ¬ m ≠ 0 := fun e => hd ⟨h1, e⟩
      rw [check_true _ h1, check_false _ h2]
      rfl
    · rw [check_false _ h1]; rfl

/-- C08 (negation of the full claim): in a release build volume and size wrap around silently — there is a shape accepted by
`Shape::new` whose volume is not the product of its dims, and one with a correct volume whose size() is smaller than batch*volume. -/
theorem C08_release_wraps :
    (∃ s, Shape.new .release [65536, 65537] 1 = ok s ∧ s.volume = 65536 ∧ volN s.get 8 = 65536 * 65537 ∧
      s.sizeU .release = ok 65536) ∧
    (∃ s, Shape.new .release [65536] 65537 = ok s ∧ s.volume = 65536 ∧ s.sizeU .release = ok 65536 ∧
      s.batch * s.volume = 65536 * 65537) ∧
    (∃ s t, Shape.new .release [65536] 1 = ok s ∧ s.resizeDim .release 1 65536 = ok t ∧ t.volume = 0 ∧
      t.resizeDim .release 0 4 = ok ⟨[4, 65536, 1, 1, 1, 1, 1, 1], 1, 2, 0⟩ ∧
      Shape.new .release [4, 65536] 1 = ok ⟨[4, 65536, 1, 1, 1, 1, 1, 1], 1, 2, 262144⟩) :=
  ⟨⟨⟨[65536, 65537, 1, 1, 1, 1, 1, 1], 1, 2, 65536⟩, by decide, by decide, by decide, by decide⟩,
   ⟨⟨[65536, 1, 1, 1, 1, 1, 1, 1], 65537, 1, 65536⟩, by decide, by decide, by decide, by decide⟩,
   ⟨⟨[65536, 1, 1, 1, 1, 1, 1, 1], 1, 1, 65536⟩, ⟨[65536, 65536, 1, 1, 1, 1, 1, 1], 1, 2, 0⟩, by decide, by decide, by decide,
    by decide, by decide⟩⟩

end Verif
