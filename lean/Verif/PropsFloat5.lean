import Verif.FloatOrder
import Verif.PropsFloat3
import Verif.PropsFw2
import Verif.PropsBw

/-!
# C71: max, min, argmax, argmin and argsort of floats, with NaN, infinities and signed zeros
-/

set_option linter.unusedSectionVars false
set_option linter.style.haveILetI false

namespace Verif
open Fmt Res Shape

section
variable [E : Ieee] {d : Nat} {x y gy gx : Tensor (Fl f32)} {s sx : Shape} {f fy fgy fg : Arr (Fl f32)}

/-- `v` is the greatest of `r 0, …, r (n-1)` as the functions understand it, and `k` its place: NaN if the first is NaN; otherwise the NaNs are left out, and
of several equal ones (`-0` and `+0` are) the first counts. -/
structure Greatest (n : Nat) (r : Nat → Fl f32) (v : Fl f32) (k : Nat) : Prop where
  lt : k < n
  at_ : v = r k
  nan : r 0 = .nan → v = .nan ∧ k = 0
  num : r 0 ≠ .nan → v ≠ .nan
  le : r 0 ≠ .nan → ∀ j, j < n → r j ≠ .nan → (r j).rank ≤ v.rank
  first : r 0 ≠ .nan → ∀ j, j < k → r j ≠ .nan → (r j).rank < v.rank

/-- The same for the least. -/
structure Least (n : Nat) (r : Nat → Fl f32) (v : Fl f32) (k : Nat) : Prop where
  lt : k < n
  at_ : v = r k
  nan : r 0 = .nan → v = .nan ∧ k = 0
  num : r 0 ≠ .nan → v ≠ .nan
  le : r 0 ≠ .nan → ∀ j, j < n → r j ≠ .nan → v.rank ≤ (r j).rank
  first : r 0 ≠ .nan → ∀ j, j < k → r j ≠ .nan → v.rank < (r j).rank

theorem greatest_scan {n : Nat} (hn : 1 ≤ n) (r : Nat → Fl f32) :
    Greatest n r (scanTo (fun v t => Flt.gt v t) n r) (K.argScan (fun v t => Flt.gt v t) r (n - 1)).2 := by
  obtain ⟨m, rfl⟩ : ∃ m, n = m + 1 := ⟨n - 1, by omega⟩
  rw [scanTo_argScan, Nat.add_sub_cancel]
  obtain ⟨h1, h2⟩ := argScan_good (good := fun x : Fl f32 => x ≠ .nan) (key := Fl.rank) (fun a b => (Fl.gt_iff : Fl.gt a b = true ↔ _)) r m
  by_cases h0 : r 0 = .nan
  · have e := h1 (fun h => h h0)
    rw [show K.argScan (fun v t => Flt.gt v t) r m = (r 0, 0) from e]
    exact ⟨by omega, rfl, fun _ => ⟨h0, rfl⟩, fun h => absurd h0 h, fun h => absurd h0 h, fun h => absurd h0 h⟩
  · obtain ⟨g1, g2, g3, g4, g5⟩ := h2 h0
    change (K.argScan (fun v t => Flt.gt v t) r m).2 ≤ m at g1
    change (K.argScan (fun v t => Flt.gt v t) r m).1 = r (K.argScan (fun v t => Flt.gt v t) r m).2 at g2
    refine ⟨by omega, g2, fun h => absurd h h0, fun _ => ?_, fun _ j hj hg => ?_, fun _ j hj hg => ?_⟩
    · rw [g2]; exact g3
    · rw [g2]; exact g4 j (by omega) hg
    · rw [g2]; exact g5 j hj hg

theorem least_scan {n : Nat} (hn : 1 ≤ n) (r : Nat → Fl f32) :
    Least n r (scanTo (fun v t => Flt.gt t v) n r) (K.argScan (fun v t => Flt.gt t v) r (n - 1)).2 := by
  obtain ⟨m, rfl⟩ : ∃ m, n = m + 1 := ⟨n - 1, by omega⟩
  rw [scanTo_argScan, Nat.add_sub_cancel]
  obtain ⟨h1, h2⟩ := argScan_good (better := fun v t : Fl f32 => Flt.gt t v) (good := fun x : Fl f32 => x ≠ .nan) (β := ERealᵒᵈ)
    (key := fun x => OrderDual.toDual x.rank) (fun a b => by
      show Fl.gt b a = true ↔ _
      rw [Fl.gt_iff, OrderDual.toDual_lt_toDual]
      tauto) r m
  by_cases h0 : r 0 = .nan
  · have e := h1 (fun h => h h0)
    rw [e]
    exact ⟨by omega, rfl, fun _ => ⟨h0, rfl⟩, fun h => absurd h0 h, fun h => absurd h0 h, fun h => absurd h0 h⟩
  · obtain ⟨g1, g2, g3, g4, g5⟩ := h2 h0
    refine ⟨by omega, g2, fun h => absurd h h0, fun _ => ?_, fun _ j hj hg => ?_, fun _ j hj hg => ?_⟩
    · rw [g2]; exact g3
    · rw [g2]; exact g4 j (by omega) hg
    · rw [g2]; exact g5 j hj hg

/-- C71: `max(dim)` and `argmax(dim)` of any floats: on every fibre, value and position of the greatest element; NaN and position 0 if the fibre starts with
NaN, otherwise the NaNs are left out. -/
theorem C71_max (hx : x.Holds d sx f) {dim : Nat} (hd : dim < 8) (p : Profile) (m : Nat → Fl f32) :
    ∃ (s : Shape) (F : Arr (Fl f32)) (r : List Nat), s.Is (cset sx.get dim 1) sx.batch ∧ Yields (TF.max p m x dim) d s F ∧
      TF.argmax p x dim = ok r ∧ r.length = s.size ∧ ∀ c b, s.Valid c b → ∃ k, r[s.offset c b]? = some k ∧
        Greatest (sx.get dim) (fun j => f (cset c dim j) b) (F c b) k := by
  obtain ⟨s, hs, -⟩ := C21_sum hx hd p m
  obtain ⟨h1, h2, -, -⟩ := resize1 hx.wf hd hs
  obtain ⟨r, e, h3, h4⟩ := argext_holds (fun v t => Flt.gt v t) hx hs p
  refine ⟨s, _, r, hs, TF.call1 (op := .max dim) hx h1 (h2.trans hx.small) trivial p m, ?_, h3, fun c b hv => ⟨_, h4 c b hv,
    greatest_scan (hx.wf.get_pos dim) fun j => f (cset c dim j) b⟩⟩
  unfold TF.argmax Tensor.dev; rw [hx.device]; exact e

/-- C71: `min(dim)` and `argmin(dim)`. -/
theorem C71_min (hx : x.Holds d sx f) {dim : Nat} (hd : dim < 8) (p : Profile) (m : Nat → Fl f32) :
    ∃ (s : Shape) (F : Arr (Fl f32)) (r : List Nat), s.Is (cset sx.get dim 1) sx.batch ∧ Yields (TF.min p m x dim) d s F ∧
      TF.argmin p x dim = ok r ∧ r.length = s.size ∧ ∀ c b, s.Valid c b → ∃ k, r[s.offset c b]? = some k ∧
        Least (sx.get dim) (fun j => f (cset c dim j) b) (F c b) k := by
  obtain ⟨s, hs, -⟩ := C21_sum hx hd p m
  obtain ⟨h1, h2, -, -⟩ := resize1 hx.wf hd hs
  obtain ⟨r, e, h3, h4⟩ := argext_holds (fun v t => Flt.gt t v) hx hs p
  refine ⟨s, _, r, hs, TF.call1 (op := .min dim) hx h1 (h2.trans hx.small) trivial p m, ?_, h3, fun c b hv => ⟨_, h4 c b hv,
    least_scan (hx.wf.get_pos dim) fun j => f (cset c dim j) b⟩⟩
  unfold TF.argmin Tensor.dev; rw [hx.device]; exact e

open scoped Classical in
/-- C71: the gradient of `max`: on every fibre the element at the position of `argmax` receives the gradient of the result and no other element
receives anything; if the fibre starts with NaN, no element receives anything: the gradient is lost. -/
theorem C71_max_gradient (hx : x.Holds d sx f) {dim : Nat} (hd : dim < 8) (hs : s.Is (cset sx.get dim 1) sx.batch) (hy : y.Holds d s fy)
    (k : (Nat → Nat) → Nat → Nat)
    (hk : ∀ c b, s.Valid c b → Greatest (sx.get dim) (fun j => f (cset c dim j) b) (fy c b) (k c b))
    (hgy : gy.Holds d s fgy) (hgx : gx.Holds d sx fg) (p : Profile) (m : Mem (Fl f32)) :
    ∃ F, Yields (Dev.bw (.max dim) p d m [x] [y] gy gx) d sx F ∧ ∀ c b, sx.Valid c b →
      F c b = if f (cset c dim 0) b ≠ .nan ∧ c dim = k (cset c dim 0) b then fg c b + fgy (cset c dim 0) b else fg c b := by
  refine ⟨_, (C29_max_min hx hd hs hy hgy hgx p m).1, fun c b hv => ?_⟩
  have hv0 := Valid.reduced hs hv
  have hg := hk _ b hv0
  simp only [cset_cset] at hg
  have hfeq : ∀ j, Flt.feq (f (cset c dim j) b) (fy (cset c dim 0) b) = true ↔
      f (cset c dim j) b ≠ .nan ∧ fy (cset c dim 0) b ≠ .nan ∧ (f (cset c dim j) b).rank = (fy (cset c dim 0) b).rank := fun j => Fl.feq_iff
  refine if_congr ?_ rfl rfl
  rw [firstIdx_iff]
  constructor
  · rintro ⟨h1, h2, h3⟩
    have h4 := (hfeq _).mp h2
    have h0 : f (cset c dim 0) b ≠ .nan := fun e => h4.2.1 (hg.nan e).1
    refine ⟨h0, ?_⟩
    rcases lt_trichotomy (c dim) (k (cset c dim 0) b) with h | h | h
    · have := hg.first h0 _ h h4.1
      rw [h4.2.2] at this
      exact absurd this (lt_irrefl _)
    · exact h
    · have h5 := h3 _ h
      have h6 : Flt.feq (f (cset c dim (k (cset c dim 0) b)) b) (fy (cset c dim 0) b) = true := by
        rw [hfeq, ← hg.at_]; exact ⟨hg.num h0, hg.num h0, rfl⟩
      rw [h5] at h6; exact absurd h6 (by simp)
  · rintro ⟨h0, h1⟩
    rw [h1]
    refine ⟨hg.lt, (hfeq _).mpr ?_, fun j hj => ?_⟩
    · rw [← hg.at_]; exact ⟨hg.num h0, hg.num h0, rfl⟩
    · by_contra hn
      have h4 := (hfeq j).mp (by simpa using hn)
      have := hg.first h0 _ hj h4.1
      rw [h4.2.2] at this
      exact absurd this (lt_irrefl _)

open scoped Classical in
/-- C71: the gradient of `min`. -/
theorem C71_min_gradient (hx : x.Holds d sx f) {dim : Nat} (hd : dim < 8) (hs : s.Is (cset sx.get dim 1) sx.batch) (hy : y.Holds d s fy)
    (k : (Nat → Nat) → Nat → Nat)
    (hk : ∀ c b, s.Valid c b → Least (sx.get dim) (fun j => f (cset c dim j) b) (fy c b) (k c b))
    (hgy : gy.Holds d s fgy) (hgx : gx.Holds d sx fg) (p : Profile) (m : Mem (Fl f32)) :
    ∃ F, Yields (Dev.bw (.min dim) p d m [x] [y] gy gx) d sx F ∧ ∀ c b, sx.Valid c b →
      F c b = if f (cset c dim 0) b ≠ .nan ∧ c dim = k (cset c dim 0) b then fg c b + fgy (cset c dim 0) b else fg c b := by
  refine ⟨_, (C29_max_min hx hd hs hy hgy hgx p m).2, fun c b hv => ?_⟩
  have hv0 := Valid.reduced hs hv
  have hg := hk _ b hv0
  simp only [cset_cset] at hg
  have hfeq : ∀ j, Flt.feq (f (cset c dim j) b) (fy (cset c dim 0) b) = true ↔
      f (cset c dim j) b ≠ .nan ∧ fy (cset c dim 0) b ≠ .nan ∧ (f (cset c dim j) b).rank = (fy (cset c dim 0) b).rank := fun j => Fl.feq_iff
  refine if_congr ?_ rfl rfl
  rw [firstIdx_iff]
  constructor
  · rintro ⟨h1, h2, h3⟩
    have h4 := (hfeq _).mp h2
    have h0 : f (cset c dim 0) b ≠ .nan := fun e => h4.2.1 (hg.nan e).1
    refine ⟨h0, ?_⟩
    rcases lt_trichotomy (c dim) (k (cset c dim 0) b) with h | h | h
    · have := hg.first h0 _ h h4.1
      rw [h4.2.2] at this
      exact absurd this (lt_irrefl _)
    · exact h
    · have h5 := h3 _ h
      have h6 : Flt.feq (f (cset c dim (k (cset c dim 0) b)) b) (fy (cset c dim 0) b) = true := by
        rw [hfeq, ← hg.at_]; exact ⟨hg.num h0, hg.num h0, rfl⟩
      rw [h5] at h6; exact absurd h6 (by simp)
  · rintro ⟨h0, h1⟩
    rw [h1]
    refine ⟨hg.lt, (hfeq _).mpr ?_, fun j hj => ?_⟩
    · rw [← hg.at_]; exact ⟨hg.num h0, hg.num h0, rfl⟩
    · by_contra hn
      have h4 := (hfeq j).mp (by simpa using hn)
      have := hg.first h0 _ hj h4.1
      rw [h4.2.2] at this
      exact absurd this (lt_irrefl _)

/-- C71: `argsort(dim)` of floats without NaN (or along an axis of extent 1): along every fibre the flat positions of its elements, each once, in ascending
order of the values. -/
theorem C71_argsort {srt : (Nat → Nat → Bool) → List Nat → List Nat} (hs : SortSpec srt) (hx : x.Holds d sx f) (dim : Nat)
    (hf : 1 < sx.get dim → ∀ c b, sx.Valid c b → f c b ≠ .nan) (p : Profile) :
    ∃ r, TF.argsort srt p x dim = ok r ∧ r.length = sx.size ∧
      ∀ c b, sx.Valid c b → ∃ σ τ : Nat → Nat,
        (∀ i, i < sx.get dim → σ i < sx.get dim ∧ τ i < sx.get dim ∧ τ (σ i) = i ∧ σ (τ i) = i) ∧
        (∀ i, i < sx.get dim → r[sx.offset (cset c dim i) b]? = some (sx.offset (cset c dim (σ i)) b)) ∧
        ∀ i j, i < j → j < sx.get dim → (f (cset c dim (σ i)) b).rank ≤ (f (cset c dim (σ j)) b).rank :=
  argsort_key hs hx dim p Fl.rank (fun c b c' b' h1 h2 hn => by
    have e : Flt.gt (f c b) (f c' b') = true ↔ _ := Fl.gt_iff
    rw [Bool.eq_iff_iff, e, decide_eq_true_eq]
    exact ⟨fun h => h.2.2, fun h => ⟨hf hn _ _ h1, hf hn _ _ h2, h⟩⟩) (fun c b c' b' h1 h2 hn => by
    have e : Flt.feq (f c b) (f c' b') = true ↔ _ := Fl.feq_iff
    rw [Bool.eq_iff_iff, e, decide_eq_true_eq]
    exact ⟨fun h => h.2.2, fun h => ⟨hf hn _ _ h1, hf hn _ _ h2, h⟩⟩)

/-- C71: one NaN anywhere makes `argsort` along an axis of extent 2 or more panic, whatever the sorting algorithm. -/
theorem C71_argsort_nan {srt : (Nat → Nat → Bool) → List Nat → List Nat} (hs : SortSpec srt) (hx : x.Holds d sx f) {dim : Nat}
    (hn : 1 < sx.get dim) {c : Nat → Nat} {b : Nat} (hv : sx.Valid c b) (hnan : f c b = .nan) (p : Profile) :
    TF.argsort srt p x dim = panic := by
  obtain ⟨q, hq, hpos⟩ := fibre_of hx.wf (dim := dim) hv
  have hc : c dim < sx.get dim := hv.1 dim
  have hflat : Arr.flat sx f (K.fibPos (sx.lowerVolume dim) (sx.get dim) q (c dim)) = .nan := by
    rw [hpos _ hc, cset_self]
    exact (Arr.flat_offset hx.wf f hv).trans hnan
  have e := K.argsort_panics (p := p) (dim := dim) hs (rest := []) (u := []) (ys := List.replicate sx.size 0) hx.flat hn hq hc hc (by
    rw [hflat]
    show ¬ (Fl.gt .nan .nan = true ∨ Fl.gt .nan .nan = true ∨ Fl.feq .nan .nan = true)
    rw [Fl.gt_nan_left, Fl.feq_nan_left]
    simp)
  unfold TF.argsort Tensor.dev Dev.argsort
  rw [hx.device]
  simp only [unwrap, ok_bind]
  rw [(Tensor.onDev_eq_ok (u := ())).mpr hx.device, ok_bind, hx.shape, Shape.sizeU_eq hx.small, ok_bind]
  exact e

end

theorem Greatest.congr {n k : Nat} {r r' : Nat → Fl f32} {v : Fl f32} (h : Greatest n r v k) (he : ∀ j, j < n → r j = r' j) : Greatest n r' v k := by
  have h0 := he 0 (by have := h.lt; omega)
  exact ⟨h.lt, h.at_.trans (he k h.lt), fun e => h.nan (h0.trans e), fun e => h.num (by rwa [h0]), fun e j hj => by rw [← he j hj]; exact h.le (by rwa [h0]) j hj,
    fun e j hj => by rw [← he j (hj.trans h.lt)]; exact h.first (by rwa [h0]) j hj⟩

open scoped Classical in
/-- Every vector meets the premises of C71 for `max`, and so do the result and gradients of ones and zeros. -/
theorem max_vector [Ieee] {n : Nat} (h0 : 0 < n) (h1 : n ≤ 2 ^ 31) (t : Nat → Fl f32) :
    ∃ (x y gy gx : Tensor (Fl f32)) (s sx : Shape) (F : Arr (Fl f32)) (v : Fl f32) (k : Nat), sx.Is (fun i => if i = 0 then n else 1) 1 ∧
      Greatest n t v k ∧ TF.argmax .debug x 0 = ok [k] ∧ TF.max .debug (fun _ => 0) x 0 = ok y ∧ y.Holds 0 s (fun _ _ => v) ∧
      Yields (Dev.bw (.max 0) .debug 0 (fun _ _ => .nan) [x] [y] gy gx) 0 sx F ∧
      ∀ c b, sx.Valid c b → F c b = if t 0 ≠ .nan ∧ c 0 = k then (0 : Fl f32) + 1 else 0 := by
  obtain ⟨sx, x, f, hsx, hx, hv⟩ := vector_exists h0 h1 t
  obtain ⟨s, F, r, hs, ⟨y, e, hy⟩, hr, hl, hg⟩ := C71_max hx (dim := 0) (by omega) .debug (fun _ => 0)
  have hvol : s.size = 1 := by
    unfold Shape.size
    rw [hs.1.vol, hs.2.2, hsx.2.2, volN_congr (g := fun _ => 1) (fun i _ => by
      rw [hs.2.1]; unfold cset; split
      · rfl
      · rename_i hi; exact (hsx.2.1 i).trans (if_neg hi))]
    simp [volN]
  have hz : s.Valid (fun _ => 0) 0 := ⟨fun i => hs.1.get_pos i, by rw [hs.2.2, hsx.2.2]; omega⟩
  have hone : ∀ c b, s.Valid c b → c = (fun _ => 0) ∧ b = 0 := fun c b h => by
    refine ⟨funext fun i => ?_, ?_⟩
    · have h2 := h.1 i
      rw [hs.2.1] at h2; unfold cset at h2; split at h2
      · omega
      · rename_i hi; rw [(hsx.2.1 i).trans (if_neg hi)] at h2; omega
    · have h2 := h.2
      rw [hs.2.2, hsx.2.2] at h2; omega
  obtain ⟨k, hk, hG⟩ := hg _ _ hz
  have hsn : sx.get 0 = n := hsx.2.1 0
  have hr1 : r = [k] := by
    rw [hvol] at hl
    obtain ⟨a, rfl⟩ := List.length_eq_one_iff.mp hl
    have : s.offset (fun _ => 0) 0 < 1 := hvol ▸ hs.1.offset_lt hz
    rw [show s.offset (fun _ => 0) 0 = 0 by omega] at hk
    simpa using hk
  have hfib : ∀ j, j < n → f (cset (fun _ => 0) 0 j) 0 = t j := fun j hj =>
    (hv _ _ ⟨fun i => by
      rw [hsx.2.1]; unfold cset
      by_cases hi : i = 0
      · simp only [hi, if_true]; exact hj
      · simp [hi], by rw [hsx.2.2]; omega⟩).2
  have hy' : y.Holds 0 s (fun _ _ => F (fun _ => 0) 0) := hy.congr fun c b h => by obtain ⟨rfl, rfl⟩ := hone c b h; rfl
  obtain ⟨gy, hgy⟩ := exists_holds hs.1 (by rw [hvol]; norm_num) 0 (fun _ => (1 : Fl f32))
  obtain ⟨gx, hgx⟩ := exists_holds hx.wf hx.small 0 (fun _ => (0 : Fl f32))
  obtain ⟨G, hG1, hG2⟩ := C71_max_gradient hx (dim := 0) (by omega) hs hy' (fun _ _ => k) (fun c b h => by
    obtain ⟨rfl, rfl⟩ := hone c b h; exact hG) hgy hgx .debug (fun _ _ => .nan)
  refine ⟨x, y, gy, gx, s, sx, G, F (fun _ => 0) 0, k, hsx, (hsn ▸ hG).congr hfib, hr1 ▸ hr, e, hy', hG1, fun c b h => ?_⟩
  rw [hG2 c b h]
  have h2 : f (cset c 0 0) b = t 0 := (hv _ _ (Valid.cset h (by rw [hsn]; exact h0))).2
  rw [h2]

/-- What the maximum and its position are of 1, NaN, ∞, ∞. -/
theorem greatest_example {r : Nat → Fl f32} {v : Fl f32} {k : Nat} (hr : ∀ i, i < 4 → r i = if i = 0 then fl1 else if i = 1 then .nan else .inf false)
    (h : Greatest 4 r v k) : v = .inf false ∧ k = 2 := by
  have h0 : r 0 ≠ .nan := by rw [hr 0 (by omega)]; exact fun e => (by cases e)
  have r2 : r 2 = .inf false := hr 2 (by omega)
  have hn : r 2 ≠ .nan := by rw [r2]; exact fun e => (by cases e)
  have h2 := h.le h0 2 (by omega) hn
  have hk := h.lt
  have hv := h.at_
  rw [r2] at h2
  have hk2 : k = 2 := by
    interval_cases k
    · rw [hv, hr 0 (by omega), if_pos rfl] at h2
      exact absurd h2 (not_le.mpr (EReal.coe_lt_top _))
    · exact absurd (hv.trans (by rw [hr 1 (by omega)]; rfl)) (h.num h0)
    · rfl
    · have h3 := h.first h0 2 (by omega) hn
      rw [hv, r2, hr 3 (by omega)] at h3
      exact absurd h3 (lt_irrefl _)
  exact ⟨by rw [hv, hk2, r2], hk2⟩

/-- The vector 1, NaN, ∞, ∞: the maximum is ∞, found at position 2, and the gradient goes to that element only. -/
example [Ieee] : ∃ (x y gy gx : Tensor (Fl f32)) (s sx : Shape) (F : Arr (Fl f32)), sx.get 0 = 4 ∧ TF.argmax .debug x 0 = ok [2] ∧
    TF.max .debug (fun _ => 0) x 0 = ok y ∧ y.Holds 0 s (fun _ _ => .inf false) ∧
    Yields (Dev.bw (.max 0) .debug 0 (fun _ _ => .nan) [x] [y] gy gx) 0 sx F ∧
    ∀ c b, sx.Valid c b → F c b = if c 0 = 2 then (0 : Fl f32) + 1 else 0 := by
  obtain ⟨x, y, gy, gx, s, sx, F, v, k, h1, h2, h3, h4, h5, h6, h7⟩ := max_vector (n := 4) (by omega) (by norm_num)
    (fun i => if i = 0 then fl1 else if i = 1 then .nan else .inf false)
  obtain ⟨rfl, rfl⟩ := greatest_example (fun _ _ => rfl) h2
  refine ⟨x, y, gy, gx, s, sx, F, h1.2.1 0, h3, h4, h5, h6, fun c b h => ?_⟩
  refine (h7 c b h).trans ?_
  by_cases hc : c 0 = 2
  · rw [if_pos hc, if_pos ⟨fun e => (by cases e), hc⟩]
  · rw [if_neg hc, if_neg fun h => hc h.2]

/-- The vector NaN, 1: the maximum is NaN, at position 0, and the gradient is lost. -/
example [Ieee] : ∃ (x y gy gx : Tensor (Fl f32)) (s sx : Shape) (F : Arr (Fl f32)), sx.get 0 = 2 ∧ TF.argmax .debug x 0 = ok [0] ∧
    TF.max .debug (fun _ => 0) x 0 = ok y ∧ y.Holds 0 s (fun _ _ => .nan) ∧
    Yields (Dev.bw (.max 0) .debug 0 (fun _ _ => .nan) [x] [y] gy gx) 0 sx F ∧ ∀ c b, sx.Valid c b → F c b = 0 := by
  obtain ⟨x, y, gy, gx, s, sx, F, v, k, h1, h2, h3, h4, h5, h6, h7⟩ := max_vector (n := 2) (by omega) (by norm_num)
    (fun i => if i = 0 then .nan else fl1)
  obtain ⟨rfl, rfl⟩ := h2.nan rfl
  refine ⟨x, y, gy, gx, s, sx, F, h1.2.1 0, h3, h4, h5, h6, fun c b h => ?_⟩
  rw [h7 c b h, if_neg]
  exact fun h => h.1 rfl

/-- The premises of C71 for `min`: the pair 1, NaN; the minimum is 1, at position 0. -/
example [Ieee] (p : Profile) : ∃ (x y gy gx : Tensor (Fl f32)) (s : Shape) (F G : Arr (Fl f32)), Yields (TF.min p (fun _ => 0) x 0) 0 s F ∧ y.Holds 0 s F ∧
    (∀ c b, s.Valid c b → F c b = fl1) ∧ Yields (Dev.bw (.min 0) p 0 (fun _ _ => .nan) [x] [y] gy gx) 0 (vecShape 2 1) G ∧
    ∀ c b, (vecShape 2 1).Valid c b → c 0 = 0 → G c b = (0 : Fl f32) + 1 := by
  obtain ⟨x, f, hx, hf⟩ := pair_exists fl1 .nan
  obtain ⟨s, F, r, hs, hy, hr, hl, hg⟩ := C71_min hx (dim := 0) (by omega) p (fun _ => 0)
  obtain ⟨y, e, hy'⟩ := hy
  have hsz := (resize1 hx.wf (by omega) hs).2.1
  have hfib : ∀ c b, s.Valid c b → ∀ j, j < 2 → f (cset c 0 j) b = if j = 0 then fl1 else .nan := fun c b h j hj => by
    rw [hf _ _ (Valid.cset (Valid.unreduced hs hx.wf h) hj)]; rfl
  have hk : ∀ c b, s.Valid c b → Least 2 (fun j => f (cset c 0 j) b) (F c b) 0 := fun c b h => by
    obtain ⟨k, -, hL⟩ := hg c b h
    have h0 : f (cset c 0 0) b ≠ .nan := by rw [hfib c b h 0 (by omega), if_pos rfl]; exact fun e => (by cases e)
    have hk0 : k = 0 := by
      have h1 : k < 2 := hL.lt
      interval_cases k
      · rfl
      · exact absurd (hL.at_.trans (hfib c b h 1 (by omega))) (hL.num h0)
    subst hk0; exact hL
  obtain ⟨gy, hgy⟩ := exists_holds hs.1 (hsz.trans hx.small) 0 (fun _ => (1 : Fl f32))
  obtain ⟨gx, hgx⟩ := exists_holds hx.wf hx.small 0 (fun _ => (0 : Fl f32))
  obtain ⟨G, hG1, hG2⟩ := C71_min_gradient hx (dim := 0) (by omega) hs hy' (fun _ _ => 0) hk hgy hgx p (fun _ _ => .nan)
  refine ⟨x, y, gy, gx, s, F, G, ⟨y, e, hy'⟩, hy', fun c b h => (hk c b h).at_.trans (hfib c b h 0 (by omega)), hG1, fun c b h hc => ?_⟩
  rw [hG2 c b h, if_pos]
  refine ⟨?_, hc⟩
  have := hfib _ b (Valid.reduced hs h) 0 (by omega)
  simp only [cset_cset] at this
  rw [this]; exact fun e => (by cases e)

/-- `argsort` of ∞, 1 succeeds and that of 1, NaN panics. -/
example [Ieee] : (∃ (x : Tensor (Fl f32)) (r : List Nat), x.shape.size = 2 ∧ TF.argsort (fun le l => l.mergeSort le) .debug x 0 = ok r) ∧
    ∃ x : Tensor (Fl f32), x.shape.size = 2 ∧ TF.argsort (fun le l => l.mergeSort le) .debug x 0 = .panic := by
  constructor
  · obtain ⟨x, f, hx, hf⟩ := pair_exists (.inf false) fl1
    obtain ⟨r, h, -⟩ := C71_argsort sortSpec_mergeSort hx 0 (fun _ c b hv => by
      rw [hf c b hv]; split <;> exact fun e => (by cases e)) .debug
    exact ⟨x, r, by rw [hx.shape]; rfl, h⟩
  · obtain ⟨x, f, hx, hf⟩ := pair_exists fl1 .nan
    have hv : (vecShape 2 1).Valid (fun i => if i = 0 then 1 else 0) 0 := ⟨fun i => by
      by_cases h : i = 0
      · simp only [h, if_true]; decide
      · simp only [h, if_false]; exact (vecShape_wf (n := 2) (b := 1) rfl).get_pos i, by decide⟩
    exact ⟨x, by rw [hx.shape]; rfl, C71_argsort_nan sortSpec_mergeSort hx (dim := 0) (by decide) hv (by rw [hf _ _ hv]; rfl) .debug⟩

end Verif
