import Verif.FwMore
import Verif.FwLemmas7

/-!
# Lemmas for `argsort`
-/

set_option linter.unusedSectionVars false

namespace Verif
open Res
variable {α : Type} [Flt α] {d : Nat}

/-- The fibre number of an element. -/
theorem fibre_of {s : Shape} (hs : s.WF) {dim : Nat} {c : Nat → Nat} {b : Nat} (hv : s.Valid c b) :
    ∃ q, q < s.size / s.get dim ∧ ∀ j, j < s.get dim →
      K.fibPos (s.lowerVolume dim) (s.get dim) q j = s.offset (cset c dim j) b := by
  have hlo := hs.lo_lt hv dim
  have hn1 := hs.get_pos dim
  have hsz := size_axis hs hs (dim := dim) (fun _ _ => rfl) rfl
  have ho : ∀ j, j < s.get dim → s.offset (cset c dim j) b = s.lo dim c + s.lowerVolume dim * (j + s.get dim * s.hi dim c b) :=
    fun j hj => offset_axis hs hs (fun _ _ => rfl) hj rfl hv
  refine ⟨s.lo dim c + s.lowerVolume dim * s.hi dim c b, ?_, fun j hj => ?_⟩
  · rw [hsz, Nat.mul_right_comm, Nat.mul_div_cancel _ hn1]
    have h0 := hs.offset_lt (valid_cset (sx := s) (fun _ _ => rfl) hn1 rfl hv)
    rw [ho 0 hn1, hsz] at h0
    have h1 : s.hi dim c b < s.up dim * s.batch := by
      by_contra hc
      have h2 : s.lowerVolume dim * s.get dim * (s.up dim * s.batch) ≤ s.lowerVolume dim * s.get dim * s.hi dim c b :=
        Nat.mul_le_mul_left _ (by omega)
      have h3 : s.lowerVolume dim * (0 + s.get dim * s.hi dim c b) = s.lowerVolume dim * s.get dim * s.hi dim c b := by ring
      omega
    calc s.lo dim c + s.lowerVolume dim * s.hi dim c b < s.lowerVolume dim + s.lowerVolume dim * s.hi dim c b := by omega
      _ = s.lowerVolume dim * (s.hi dim c b + 1) := by ring
      _ ≤ _ := Nat.mul_le_mul_left _ h1
  · rw [ho j hj, fibPos_eq, (flat_div hlo).1, (flat_div hlo).2]

/-- argsort when the comparison of the elements is that of their keys. -/
theorem argsort_key {β : Type} [LinearOrder β] {srt : (Nat → Nat → Bool) → List Nat → List Nat} (hs : SortSpec srt)
    {x : Tensor α} {sx : Shape} {f : Arr α} (hx : x.Holds d sx f) (dim : Nat) (p : Profile) (key : α → β)
    (hgt : ∀ c b c' b', sx.Valid c b → sx.Valid c' b' → 1 < sx.get dim → Flt.gt (f c b) (f c' b') = decide (key (f c' b') < key (f c b)))
    (hfeq : ∀ c b c' b', sx.Valid c b → sx.Valid c' b' → 1 < sx.get dim → Flt.feq (f c b) (f c' b') = decide (key (f c b) = key (f c' b'))) :
    ∃ r, TF.argsort srt p x dim = ok r ∧ r.length = sx.size ∧
      ∀ c b, sx.Valid c b → ∃ σ τ : Nat → Nat,
        (∀ i, i < sx.get dim → σ i < sx.get dim ∧ τ i < sx.get dim ∧ τ (σ i) = i ∧ σ (τ i) = i) ∧
        (∀ i, i < sx.get dim → r[sx.offset (cset c dim i) b]? = some (sx.offset (cset c dim (σ i)) b)) ∧
        ∀ i j, i < j → j < sx.get dim → key (f (cset c dim (σ i)) b) ≤ key (f (cset c dim (σ j)) b) := by
  obtain ⟨r, lx, e, hbuf, hlen, hr⟩ := K.argsort_ok (p := p) (dim := dim) hs (rest := []) (u := []) (ys := List.replicate sx.size 0) hx.flat (by simp)
    (fun q hq i j hi hj h1 => by
      have hsz := size_axis hx.wf hx.wf (dim := dim) (fun _ _ => rfl) rfl
      have hq' : q < sx.lowerVolume dim * (sx.up dim * sx.batch) := by
        rw [hsz, Nat.mul_right_comm, Nat.mul_div_cancel _ (hx.wf.get_pos dim)] at hq; exact hq
      have hv : ∀ i, i < sx.get dim → sx.Valid (sx.coord (K.fibPos (sx.lowerVolume dim) (sx.get dim) q i % sx.volume))
          (K.fibPos (sx.lowerVolume dim) (sx.get dim) q i / sx.volume) := fun i hi =>
        (hx.wf.offset_coord (by rw [hsz]; exact K.fibPos_lt hq' hi)).1
      show Flt.gt (f _ _) (f _ _) = true ∨ Flt.gt (f _ _) (f _ _) = true ∨ Flt.feq (f _ _) (f _ _) = true
      rw [hgt _ _ _ _ (hv i hi) (hv j hj) h1, hgt _ _ _ _ (hv j hj) (hv i hi) h1, hfeq _ _ _ _ (hv i hi) (hv j hj) h1]
      simp only [decide_eq_true_eq]
      rcases lt_trichotomy (key (Arr.flat sx f (K.fibPos (sx.lowerVolume dim) (sx.get dim) q i)))
        (key (Arr.flat sx f (K.fibPos (sx.lowerVolume dim) (sx.get dim) q j))) with h | h | h
      · exact .inr (.inl h)
      · exact .inr (.inr h)
      · exact .inl h)
  refine ⟨r, ?_, hlen, fun c b hv => ?_⟩
  · unfold TF.argsort Tensor.dev Dev.argsort
    rw [hx.device]
    simp only [unwrap, ok_bind]
    rw [(Tensor.onDev_eq_ok (u := ())).mpr hx.device, ok_bind, hx.shape, Shape.sizeU_eq hx.small, ok_bind]
    exact e
  obtain ⟨q, hq, hpos⟩ := fibre_of hx.wf (dim := dim) hv
  have hlv := hx.wf.lowerVolume_pos dim
  have hn1 := hx.wf.get_pos dim
  obtain ⟨lx', hlx', _, hval⟩ := hx.buf
  rw [hbuf] at hlx'; cases hlx'
  have hrq := hr q hq
  have hidx : ∀ i, i < sx.get dim → K.fibPos (sx.lowerVolume dim) (sx.get dim) q i / sx.lowerVolume dim % sx.get dim = i :=
    fun i hi => fibPos_idx hlv hi
  obtain ⟨hperm, hsort⟩ := hs (K.cmpAt lx) (K.fibre (sx.lowerVolume dim) (sx.get dim) q)
  generalize hl' : srt (K.cmpAt lx) (K.fibre (sx.lowerVolume dim) (sx.get dim) q) = l' at *
  generalize hlvv : sx.lowerVolume dim = lv at *
  generalize hnn : sx.get dim = n at *
  have hv' : ∀ i, i < n → sx.Valid (cset c dim i) b := fun i hi => valid_cset (fun _ _ => rfl) (by omega) rfl hv
  have hat : ∀ i, i < n → lx[K.fibPos lv n q i]? = some (f (cset c dim i) b) := fun i hi => by
    rw [hpos i hi]; exact hval _ _ (hv' i hi)
  have hcmp : ∀ i j, i < n → j < n → 1 < n → K.cmpAt lx (K.fibPos lv n q i) (K.fibPos lv n q j) =
      decide (key (f (cset c dim i) b) ≤ key (f (cset c dim j) b)) := by
    intro i j hi hj h1
    unfold K.cmpAt
    rw [hat i hi, hat j hj]
    simp only [hgt _ _ _ _ (hv' i hi) (hv' j hj) h1]
    by_cases h : key (f (cset c dim j) b) < key (f (cset c dim i) b)
    · rw [decide_eq_true h, decide_eq_false (not_le.mpr h)]; rfl
    · rw [decide_eq_false h, decide_eq_true (not_lt.mp h)]; rfl
  have hmem : ∀ k, k ∈ K.fibre lv n q → ∃ i, i < n ∧ K.fibPos lv n q i = k := by
    intro k hk
    unfold K.fibre at hk
    obtain ⟨i, hi, e⟩ := List.mem_map.mp hk
    exact ⟨i, List.mem_range.mp hi, e⟩
  have hpw := fun h1 : 1 < n => hsort (by
      intro a ha b' hb' c' hc'
      obtain ⟨i, hi, rfl⟩ := hmem a ha
      obtain ⟨j, hj, rfl⟩ := hmem b' hb'
      obtain ⟨k, hk, rfl⟩ := hmem c' hc'
      rw [hcmp i j hi hj h1, hcmp j k hj hk h1, hcmp i k hi hk h1]
      simp only [decide_eq_true_eq]
      exact le_trans) (by
      intro a ha b' hb'
      obtain ⟨i, hi, rfl⟩ := hmem a ha
      obtain ⟨j, hj, rfl⟩ := hmem b' hb'
      rw [hcmp i j hi hj h1, hcmp j i hj hi h1]
      simp only [decide_eq_true_eq]
      exact le_total _ _)
  have hP : (l'.map (fun k => k / lv % n)).Perm (List.range n) := by
    refine (hperm.map _).trans ?_
    unfold K.fibre
    rw [List.map_map]
    have : (List.range n).map ((fun k => k / lv % n) ∘ fun i => K.fibPos lv n q i) = List.range n := by
      conv_rhs => rw [← List.map_id (List.range n)]
      exact List.map_congr_left fun i hi => hidx i (List.mem_range.mp hi)
    rw [this]
  have ip := IsPerm.of_perm hP
  generalize hσ : (fun i => (l'.map (fun k => k / lv % n)).getD i 0) = σ at *
  generalize hτ : (fun a => (l'.map (fun k => k / lv % n)).idxOf a) = τ at *
  have hlen' : l'.length = n := by have := ip.len; rwa [List.length_map] at this
  have hget : ∀ i, i < n → l'[i]? = some (K.fibPos lv n q (σ i)) := by
    intro i hi
    have h1 := ip.get i hi
    rw [List.getElem?_map, List.getElem?_eq_getElem (by omega), Option.map_some] at h1
    rw [List.getElem?_eq_getElem (by omega)]
    obtain ⟨j, hj, ej⟩ := hmem _ (hperm.mem_iff.mp (List.getElem_mem (l := l') (n := i) (by omega)))
    rw [← ej] at h1 ⊢
    rw [hidx j hj] at h1
    cases h1; rfl
  refine ⟨σ, τ, fun i hi => ⟨ip.lt i hi, ip.lt' i hi, ip.left i hi, ip.right i hi⟩, fun i hi => ?_, fun i j hij hj => ?_⟩
  · rw [← hpos i hi, hrq i hi, hget i hi, hpos _ (ip.lt i hi)]
  · have h1 := List.pairwise_iff_getElem.mp (hpw (by omega)) i j (by omega) (by omega) hij
    have e1 : l'[i]'(by omega) = K.fibPos lv n q (σ i) := by
      have := hget i (by omega); rw [List.getElem?_eq_getElem (by omega)] at this; exact Option.some.inj this
    have e2 : l'[j]'(by omega) = K.fibPos lv n q (σ j) := by
      have := hget j (by omega); rw [List.getElem?_eq_getElem (by omega)] at this; exact Option.some.inj this
    rw [e1, e2, hcmp _ _ (ip.lt i (by omega)) (ip.lt j hj) (by omega), decide_eq_true_eq] at h1
    exact h1

theorem argsort_holds [LinearOrder α] (hgt : ∀ a b : α, Flt.gt a b = decide (b < a)) (hfeq : ∀ a b : α, Flt.feq a b = decide (a = b))
    {srt : (Nat → Nat → Bool) → List Nat → List Nat} (hs : SortSpec srt)
    {x : Tensor α} {sx : Shape} {f : Arr α} (hx : x.Holds d sx f) (dim : Nat) (p : Profile) :
    ∃ r, TF.argsort srt p x dim = ok r ∧ r.length = sx.size ∧
      ∀ c b, sx.Valid c b → ∃ σ τ : Nat → Nat,
        (∀ i, i < sx.get dim → σ i < sx.get dim ∧ τ i < sx.get dim ∧ τ (σ i) = i ∧ σ (τ i) = i) ∧
        (∀ i, i < sx.get dim → r[sx.offset (cset c dim i) b]? = some (sx.offset (cset c dim (σ i)) b)) ∧
        ∀ i j, i < j → j < sx.get dim → f (cset c dim (σ i)) b ≤ f (cset c dim (σ j)) b :=
  argsort_key hs hx dim p id (fun _ _ _ _ _ _ _ => hgt _ _) (fun _ _ _ _ _ _ _ => hfeq _ _)

end Verif
