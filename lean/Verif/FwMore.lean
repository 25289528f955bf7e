import Verif.TFLemmas
import Verif.FwLemmas5
import Verif.FwLemmas6

/-!
# Lemmas for the properties of axis functions
-/

set_option linter.unusedSectionVars false

namespace Verif
open Res
variable {α : Type} [Flt α] {d : Nat}

theorem resize1 {s sx : Shape} (hx : sx.WF) {dim : Nat} (hd : dim < 8) (hs : s.Is (cset sx.get dim 1) sx.batch) :
    sx.resizeDim .debug dim 1 = ok s ∧ s.size ≤ sx.size ∧ (∀ i, i ≠ dim → sx.get i = s.get i) ∧ s.get dim = 1 := by
  have hne : ∀ i, i ≠ dim → sx.get i = s.get i := fun i hi => by
    have := hs.2.1 i; unfold cset at this; rw [if_neg hi] at this; exact this.symm
  have h1 : s.get dim = 1 := by have := hs.2.1 dim; unfold cset at this; rw [if_pos rfl] at this; exact this
  have hle : ∀ i, s.get i ≤ sx.get i := fun i => by
    by_cases hi : i = dim
    · subst hi; rw [h1]; exact hx.get_pos i
    · exact (hne i hi).ge
  refine ⟨hx.resizeDim_iff.mpr ⟨hd, by omega, ?_, hs⟩, size_le_of_dims hs.1 hx hle hs.2.2.le, hne, h1⟩
  have e : (fun i => if i = dim then 1 else sx.get i) = cset sx.get dim 1 := rfl
  rw [e, ← volN_congr (fun i _ => hs.2.1 i), ← hs.1.vol]
  exact hs.1.vol_lt

/-- Scan results: attained, and at least as good as all. -/
theorem scanTo_max {α : Type} [LinearOrder α] {n : Nat} (hn : 1 ≤ n) (t : Nat → α) (better : α → α → Bool) (hb : ∀ a b, better a b = decide (b < a)) :
    (∃ j, j < n ∧ scanTo better n t = t j) ∧ ∀ j, j < n → t j ≤ scanTo better n t := by
  unfold scanTo
  have key : ∀ n, (∃ j, j < max n 1 ∧ foldN n (fun j a => if better (t j) a then t j else a) (t 0) = t j) ∧
      ∀ j, j < max n 1 → t j ≤ foldN n (fun j a => if better (t j) a then t j else a) (t 0) := by
    intro n
    induction n with
    | zero => exact ⟨⟨0, by omega, rfl⟩, fun j hj => by rw [show j = 0 by omega]; exact le_refl _⟩
    | succ n ih =>
      rw [foldN_succ]
      obtain ⟨⟨i, hi, e⟩, h2⟩ := ih
      rw [hb]
      by_cases hlt : foldN n (fun j a => if better (t j) a then t j else a) (t 0) < t n
      · rw [decide_eq_true hlt, if_pos rfl]
        refine ⟨⟨n, by omega, rfl⟩, fun j hj => ?_⟩
        by_cases hjn : j = n
        · rw [hjn]
        · exact (h2 j (by omega)).trans hlt.le
      · rw [decide_eq_false hlt, if_neg (by simp)]
        refine ⟨⟨i, by omega, e⟩, fun j hj => ?_⟩
        by_cases hjn : j = n
        · rw [hjn]; exact not_lt.mp hlt
        · exact h2 j (by omega)
  have := key n
  rwa [show max n 1 = n by omega] at this

theorem scanTo_min {α : Type} [LinearOrder α] {n : Nat} (hn : 1 ≤ n) (t : Nat → α) (better : α → α → Bool) (hb : ∀ a b, better a b = decide (a < b)) :
    (∃ j, j < n ∧ scanTo better n t = t j) ∧ ∀ j, j < n → scanTo better n t ≤ t j := by
  have h := scanTo_max (α := αᵒᵈ) hn t better hb
  exact h

/-- The index scan returns the first position of the greatest element. -/
theorem argScan_max {α : Type} [LinearOrder α] (r : Nat → α) (better : α → α → Bool) (hb : ∀ a b, better a b = decide (b < a)) (m : Nat) :
    (K.argScan better r m).2 ≤ m ∧ (K.argScan better r m).1 = r (K.argScan better r m).2 ∧
      (∀ i, i ≤ m → r i ≤ r (K.argScan better r m).2) ∧ ∀ i, i < (K.argScan better r m).2 → r i < r (K.argScan better r m).2 := by
  induction m with
  | zero => exact ⟨le_refl _, rfl, fun i hi => by rw [show i = 0 by omega]; exact le_refl _, fun i hi => absurd hi (Nat.not_lt_zero i)⟩
  | succ m ih =>
    have e : K.argScan better r (m + 1) = if better (r (m + 1)) (K.argScan better r m).1 then (r (m + 1), m + 1) else K.argScan better r m := rfl
    obtain ⟨h1, h2, h3, h4⟩ := ih
    rw [e, hb]
    by_cases hlt : (K.argScan better r m).1 < r (m + 1)
    · rw [decide_eq_true hlt, if_pos rfl]
      rw [h2] at hlt
      refine ⟨le_refl _, rfl, fun i hi => ?_, fun i hi => ?_⟩
      · by_cases him : i = m + 1
        · rw [him]
        · exact (h3 i (by omega)).trans hlt.le
      · exact (h3 i (by simp only at hi; omega)).trans_lt hlt
    · rw [decide_eq_false hlt, if_neg (by simp)]
      rw [h2] at hlt
      refine ⟨by omega, h2, fun i hi => ?_, h4⟩
      by_cases him : i = m + 1
      · rw [him]; exact not_lt.mp hlt
      · exact h3 i (by omega)

theorem argScan_min {α : Type} [LinearOrder α] (r : Nat → α) (better : α → α → Bool) (hb : ∀ a b, better a b = decide (a < b)) (m : Nat) :
    (K.argScan better r m).2 ≤ m ∧ (K.argScan better r m).1 = r (K.argScan better r m).2 ∧
      (∀ i, i ≤ m → r (K.argScan better r m).2 ≤ r i) ∧ ∀ i, i < (K.argScan better r m).2 → r (K.argScan better r m).2 < r i :=
  argScan_max (α := αᵒᵈ) r better hb m

/-- The list that `argmax`/`argmin` return. -/
theorem argext_holds (better : α → α → Bool) {x : Tensor α} {s sx : Shape} {f : Arr α} {dim : Nat} (hx : x.Holds d sx f)
    (hs : s.Is (cset sx.get dim 1) sx.batch) (p : Profile) :
    ∃ r, (do x.onDev d
             let size ← x.shape.sizeU p
             let n ← Dev.divU size (x.shape.get dim)
             K.argext better p [x] [dim] (List.replicate n 0) : Res (List Nat)) = ok r ∧ r.length = s.size ∧
      ∀ c b, s.Valid c b → r[s.offset c b]? = some (K.argScan better (fun j => f (cset c dim j) b) (sx.get dim - 1)).2 := by
  have hne : ∀ i, i ≠ dim → sx.get i = s.get i := fun i hi => by
    have := hs.2.1 i; unfold cset at this; rw [if_neg hi] at this; exact this.symm
  have h1 : s.get dim = 1 := by have := hs.2.1 dim; unfold cset at this; rw [if_pos rfl] at this; exact this
  have hlv := Shape.lowerVolume_congr hx.wf hs.1 hne
  have hn1 := hx.wf.get_pos dim
  have hsz : sx.size / sx.get dim = s.size := by
    have e1 := size_axis hx.wf hx.wf (dim := dim) (fun _ _ => rfl) rfl
    have e2 := size_axis hs.1 hx.wf (dim := dim) (fun i hi => (hne i hi).symm) hs.2.2
    rw [h1, Nat.mul_one] at e2
    rw [e1, e2, Nat.mul_right_comm, Nat.mul_div_cancel _ hn1]
  have e := K.argext_ok (p := p) (dim := dim) better (rest := []) (u := []) (ys := List.replicate (sx.size / sx.get dim) 0) hx.flat (by simp)
  refine ⟨_, Eq.trans ?_ e, ?_, ?_⟩
  · rw [(Tensor.onDev_eq_ok (u := ())).mpr hx.device, ok_bind, hx.shape, Shape.sizeU_eq hx.small, ok_bind]
    unfold Dev.divU
    rw [check_true _ (by omega : sx.get dim ≠ 0), ok_bind, ok_bind]
  · simp [hsz]
  · intro c b hv
    have hlt := hs.1.offset_lt hv
    rw [List.getElem?_map, hsz, List.getElem?_range hlt, Option.map_some]
    congr 2
    unfold K.argScan
    have hg : ∀ j, j < sx.get dim → Arr.flat sx f (K.fibPos (sx.lowerVolume dim) (sx.get dim) (s.offset c b) j) = f (cset c dim j) b := by
      intro j hj
      rw [hlv, fibPos_offset hx.wf hs.1 hne h1 hj hs.2.2.symm hv, Arr.flat_offset hx.wf f (valid_cset hne hj hs.2.2.symm hv)]
    simp only []
    rw [hg 0 hn1]
    refine foldN_congr fun i hi t => ?_
    rw [hg (i + 1) (by omega)]

end Verif
