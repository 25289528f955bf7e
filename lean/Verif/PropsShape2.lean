import Verif.PropsShape

/-!
# C01 for builds without overflow checks
-/

namespace Verif
open Res Shape ShapeOps

theorem Shape.new_release {dims : List Nat} {b : Nat} (h8 : dims.length ≤ 8) (hb : 1 ≤ b) (hnz : ∀ i, i < dims.length → raw dims i ≠ 0) :
    ∃ s, Shape.new .release dims b = ok s ∧ s.batch = b ∧ (∀ i, s.get i = raw dims i) ∧ s.volume = volN (raw dims) dims.length % U32 ∧
      (∀ i, s.depth ≤ i → raw dims i = 1) ∧ (∀ e, s.depth = e + 1 → raw dims e ≠ 1) ∧
      (∀ i, s.dimsSlice[i]? = if i < s.depth then some (raw dims i) else none) := by
  unfold Shape.new
  rw [check_true _ h8, ok_bind, check_true _ hb, ok_bind]
  obtain ⟨st, hst, hlen, hraw, hdep, hvol⟩ := loop_inv (n := dims.length)
    (f := fun i (st : List Nat × Nat × Nat) => do
      let d ← ix dims i
      check (d ≠ 0)
      let v ← umul .release st.2.2 d
      ok (st.1.set i d, if d ≠ 1 then i + 1 else st.2.1, v))
    (s := (List.replicate 8 1, 0, 1))
    (P := fun i st => st.1.length = 8 ∧ (∀ j, raw st.1 j = if j < i then raw dims j else 1) ∧
      (st.2.1 ≤ i ∧ IsDepth (fun j => if j < i then raw dims j else 1) st.2.1) ∧ st.2.2 = volN (raw dims) i % U32)
    ⟨by simp, fun j => by rw [raw_replicate]; simp, ⟨by simp, fun i _ => by simp, fun e he => by simp at he⟩, rfl⟩
    (by
      rintro i ⟨l, dep, v⟩ hi ⟨h1, h2, ⟨h3a, h3b, h3c⟩, h4⟩
      simp only at h1 h2 h3a h3b h3c h4
      have hmul : umul .release v (raw dims i) = ok (v * raw dims i % U32) := by
        unfold umul u32; split
        · rename_i hlt; rw [Nat.mod_eq_of_lt hlt]
        · rfl
      refine ⟨(l.set i (raw dims i), if raw dims i ≠ 1 then i + 1 else dep, v * raw dims i % U32), ?_, ?_⟩
      · rw [ix_eq_raw hi, ok_bind, check_true _ (hnz i hi), ok_bind, hmul, ok_bind]
      · refine ⟨by simp [h1], ?_, ?_, by simp [h4, volN, Nat.mod_mul_mod]⟩
        · intro j
          simp only [raw_set, h1, h2]
          by_cases e : i = j
          · subst e; simp [show i < 8 by omega]
          · simp only [e, false_and, if_false]
            by_cases e2 : j < i
            · simp [e2, show j < i + 1 by omega]
            · simp [e2, show ¬ j < i + 1 by omega]
        · by_cases e1 : raw dims i = 1
          · simp only [e1, ne_eq, not_true, if_false]
            refine ⟨by omega, ?_, ?_⟩
            · intro j hj
              have := h3b j hj
              by_cases e2 : j = i
              · subst e2; simp [e1]
              · by_cases e3 : j < i
                · simp [e3] at this; simp [this]
                · simp [show ¬ j < i + 1 by omega]
            · intro e he
              have := h3c e he
              have hei : e < i := by omega
              simp only [hei, if_true] at this
              simp [show e < i + 1 by omega, this]
          · simp only [ne_eq, e1, not_false_eq_true, if_true]
            refine ⟨by omega, ?_, ?_⟩
            · intro j hj
              simp [show ¬ j < i + 1 by omega]
            · intro e he
              have : e = i := by omega
              subst this
              simp [e1])
  rw [hst, ok_bind]
  have hraw' : ∀ j, raw st.1 j = raw dims j := by
    intro j
    rw [hraw]
    split
    · rfl
    · exact (raw_of_length_le (by omega)).symm
  have hfun : (fun j => if j < dims.length then raw dims j else 1) = raw dims := by
    funext j; rw [← hraw, hraw']
  rw [hfun] at hdep
  refine ⟨_, rfl, rfl, fun i => ?_, hvol, fun i hi => hdep.2.1 i hi, fun e he => hdep.2.2 e he, fun i => ?_⟩
  · unfold get
    simp only
    split
    · exact hraw' i
    · exact (hdep.2.1 i (by omega)).symm
  · unfold dimsSlice
    rw [List.getElem?_take]
    simp only
    split
    · rename_i hi
      have hil : i < st.1.length := by omega
      rw [← hraw' i, List.getElem?_eq_getElem hil]
      simp [raw, List.getD_eq_getElem?_getD, hil]
    · rfl

/-- C01, without overflow checks: `Shape::new` panics exactly when there are more than 8 dims, the batch is 0 or some dim is 0. -/
theorem C01_new_panics_iff_release (dims : List Nat) (batch : Nat) :
    Shape.new .release dims batch = panic ↔ 8 < dims.length ∨ batch = 0 ∨ 0 ∈ dims := by
  have hz : (∀ i, i < dims.length → raw dims i ≠ 0) ↔ ¬ 0 ∈ dims := by
    constructor
    · intro h h0
      obtain ⟨i, hi, he⟩ := List.mem_iff_getElem.mp h0
      exact h i hi (by simp [raw, List.getD_eq_getElem?_getD, hi, he])
    · intro h i hi h0
      apply h
      have : dims[i] = 0 := by simpa [raw, List.getD_eq_getElem?_getD, hi] using h0
      exact this ▸ List.getElem_mem hi
  constructor
  · intro hp
    by_contra hn
    push Not at hn
    obtain ⟨h1, h2, h3⟩ := hn
    obtain ⟨s, hs, -⟩ := Shape.new_release h1 (by omega : 1 ≤ batch) (hz.mpr h3)
    rw [hp] at hs; cases hs
  · intro h
    rw [panic_iff_of_safe (new_safe _ _ _)]
    rintro ⟨s, hs⟩
    unfold Shape.new at hs
    rw [check_bind_ok] at hs
    obtain ⟨h8, hs⟩ := hs
    rw [check_bind_ok] at hs
    obtain ⟨hb, hs⟩ := hs
    rw [Res.bind_eq_ok] at hs
    obtain ⟨st, hst, -⟩ := hs
    obtain ⟨tr, -, -, hstep⟩ := loop_trace hst
    rcases h with h | h | h
    · omega
    · omega
    · refine (not_not.mpr h) (hz.mp fun i hi => ?_)
      have := hstep i hi
      simp only [ix_eq_raw hi, ok_bind, check_eq_ok, exists_and_left, exists_const, Res.bind_eq_ok] at this
      exact this.1

/-- C01, without overflow checks: the shape is the same as with them, only `volume()` is the product modulo `2^32`. -/
theorem C01_new_canonical_release {dims : List Nat} {batch : Nat} {s : Shape} (h : Shape.new .release dims batch = ok s) :
    (∀ i, s.get i = raw dims i) ∧ s.batch = batch ∧ s.volume = volN (raw dims) dims.length % U32 ∧
    (∀ d, s.depth ≤ d ↔ ∀ i, d ≤ i → raw dims i = 1) ∧
    (∀ i, s.dimsSlice[i]? = if i < s.depth then some (raw dims i) else none) := by
  have hn : ¬ (8 < dims.length ∨ batch = 0 ∨ 0 ∈ dims) := fun hp => by
    rw [(C01_new_panics_iff_release dims batch).mpr hp] at h; cases h
  push Not at hn
  obtain ⟨h1, h2, h3⟩ := hn
  obtain ⟨s', hs', q1, q2, q3, q4, q5, q6⟩ := Shape.new_release h1 (by omega : 1 ≤ batch) (fun i hi h0 => h3 (by
    have : dims[i] = 0 := by simpa [raw, List.getD_eq_getElem?_getD, hi] using h0
    exact this ▸ List.getElem_mem hi))
  rw [h] at hs'; cases hs'
  refine ⟨q2, q1, q3, fun d => ⟨fun hd i hi => q4 i (by omega), fun hd => ?_⟩, q6⟩
  by_contra hlt
  exact q5 (s.depth - 1) (by omega) (hd _ (by omega))

/-- Non-vacuity: without overflow checks `[65536, 65537]` is a shape with volume 65536. -/
example : ∃ s, Shape.new .release [65536, 65537] 3 = ok s ∧ s.volume = 65536 ∧ s.get 1 = 65537 ∧ s.batch = 3 :=
  ⟨⟨[65536, 65537, 1, 1, 1, 1, 1, 1], 3, 2, 65536⟩, by decide, by decide⟩

/-- C04: the queries of a shape say what its entries are: `depth()` is the least number of leading entries after which all are 1, `dims()` lists
them, `volume()` is their product and `size()` that times the batch (with overflow checks); `is_scalar`, `is_column_vector` and `is_matrix` hold
iff all entries but the first 0, 1, 2 are 1; `has_batch` iff the batch is not 1; `has_compatible_batch` iff the batches are equal or one is 1. -/
theorem C04_queries {s : Shape} (hs : s.Reachable) (t : Shape) :
    (∀ d, s.depth ≤ d ↔ ∀ i, d ≤ i → s.get i = 1) ∧
    (∀ i, s.dimsSlice[i]? = if i < s.depth then some (s.get i) else none) ∧
    s.volume = volN s.get 8 ∧
    (s.sizeU .debug = if s.batch * volN s.get 8 < U32 then ok (s.batch * volN s.get 8) else panic) ∧
    (s.isScalar = true ↔ ∀ i, s.get i = 1) ∧
    (s.isColumnVector = true ↔ ∀ i, 1 ≤ i → s.get i = 1) ∧
    (s.isMatrix = true ↔ ∀ i, 2 ≤ i → s.get i = 1) ∧
    (s.hasBatch = true ↔ s.batch ≠ 1) ∧
    (s.hasCompatibleBatch t = true ↔ s.batch = t.batch ∨ s.batch = 1 ∨ t.batch = 1) := by
  have hw := hs.wf
  have hv : s.volume = volN s.get 8 := (hw.volN_get_eq hw.depth_le).symm
  refine ⟨hw.depth_le_iff, fun i => ?_, hv, ?_, hw.isScalar_iff, ?_, hw.isMatrix_iff, by simp [hasBatch], ?_⟩
  · unfold dimsSlice
    rw [List.getElem?_take]
    have hl := hw.len
    have hd := hw.depth_le
    by_cases h : i < s.depth
    · rw [if_pos h, if_pos h, hw.get_eq_raw, raw, List.getD_eq_getElem?_getD, List.getElem?_eq_getElem (by omega)]
      rfl
    · rw [if_neg h, if_neg h]
  · rw [sizeU, umul, ← hv, u32]
  · unfold isColumnVector
    rw [decide_eq_true_iff]; exact hw.depth_le_iff 1
  · simp [hasCompatibleBatch, or_assoc]

/-- Non-vacuity: a matrix with batch 7 that is no column vector, and a column vector. -/
example : ∃ s t, Shape.new .debug [3, 4, 1] 7 = ok s ∧ Shape.new .debug [5] 1 = ok t ∧ s.depth = 2 ∧ s.dimsSlice = [3, 4] ∧ s.isMatrix = true ∧
    s.isColumnVector = false ∧ s.hasBatch = true ∧ t.isColumnVector = true ∧ t.isScalar = false ∧ s.hasCompatibleBatch t = true ∧
    s.sizeU .debug = ok 84 :=
  ⟨⟨[3, 4, 1, 1, 1, 1, 1, 1], 7, 2, 12⟩, ⟨[5, 1, 1, 1, 1, 1, 1, 1], 1, 1, 5⟩, by decide, by decide, by decide, by decide, by decide, by decide,
    by decide, by decide, by decide, by decide, by decide⟩

end Verif
