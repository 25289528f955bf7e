import Verif.Error

/-!
# Whole numbers in f32: the operations on magnitudes are right
-/

set_option linter.unusedSectionVars false

namespace Verif
open Res

attribute [local instance] realFlt wholeFlt

/-- `x` is the whole number `v`, of magnitude at most `a`, if there is a bound. -/
def IsWhole (x : Fl f32) (v : ℝ) (a : Option ℕ) : Prop := ∀ A, a = some A → ∃ z : ℤ, x.Is z ∧ v = z ∧ z.natAbs ≤ A

section
variable [E : Ieee] {x x' : Fl f32} {v v' : ℝ} {a b : Option ℕ}

theorem natAbs_le_two {z : ℤ} {n : ℕ} (h : z.natAbs ≤ n) (hn : n ≤ 2 ^ 24) : |z| ≤ 2 ^ 24 := by
  rw [Int.abs_eq_natAbs]; omega

theorem whole_some {n A : ℕ} (h : whole n = some A) : n = A ∧ n ≤ 2 ^ 24 := by
  unfold whole at h
  split at h
  next hn => cases h; exact ⟨rfl, hn⟩
  · cases h

theorem wholes_some {f : ℕ → ℕ → ℕ} {A : ℕ} (h : wholes f a b = some A) : ∃ s t, a = some s ∧ b = some t ∧ f s t = A ∧ f s t ≤ 2 ^ 24 := by
  cases a with
  | none => cases h
  | some s =>
    cases b with
    | none => cases h
    | some t => exact ⟨s, t, rfl, rfl, whole_some h⟩

theorem whole_zero : IsWhole (0 : Fl f32) 0 (some 0) := by
  intro A h; cases h; exact ⟨0, by rw [Int.cast_zero]; exact lit0_is, by simp, le_rfl⟩

theorem whole_add (hx : IsWhole x v a) (hy : IsWhole x' v' b) : IsWhole (Fl.add E.near32 x x') (v + v') (wholes (· + ·) a b) := by
  intro A h
  obtain ⟨s, t, rfl, rfl, e, hl⟩ := wholes_some h
  obtain ⟨y, h1, rfl, h3⟩ := hx s rfl
  obtain ⟨z, h4, rfl, h6⟩ := hy t rfl
  have hm : (y + z).natAbs ≤ A := by omega
  obtain ⟨q, e'⟩ := Fl.add_eq (N := E.near32) h1 h4
  refine ⟨y + z, ?_, by push_cast; rfl, hm⟩
  rw [e']
  have := Fl.IsInt.round_int (N := E.near32) (z := y + z) q (natAbs_le_two hm (by omega))
  rwa [Int.cast_add] at this ⊢

theorem whole_neg (hx : IsWhole x v a) : IsWhole (Fl.neg x) (-v) a := by
  intro A h
  obtain ⟨z, h1, rfl, h3⟩ := hx A h
  exact ⟨-z, by rw [Int.cast_neg]; exact Fl.neg_in h1, by push_cast; rfl, by omega⟩

theorem whole_abs (hx : IsWhole x v a) : IsWhole (Fl.abs x) |v| a := by
  intro A h
  obtain ⟨z, h1, rfl, h3⟩ := hx A h
  exact ⟨|z|, by rw [Int.cast_abs]; exact Fl.Appr.abs_is h1, by push_cast; rfl, by rw [Int.abs_eq_natAbs]; omega⟩

theorem whole_mul (hx : IsWhole x v a) (hy : IsWhole x' v' b) : IsWhole (Fl.mul E.near32 x x') (v * v') (wholes (· * ·) a b) := by
  intro A h
  obtain ⟨s, t, rfl, rfl, e, hl⟩ := wholes_some h
  obtain ⟨y, h1, rfl, h3⟩ := hx s rfl
  obtain ⟨z, h4, rfl, h6⟩ := hy t rfl
  have hm : (y * z).natAbs ≤ A := by rw [Int.natAbs_mul, ← e]; exact Nat.mul_le_mul h3 h6
  obtain ⟨q, e'⟩ := Fl.mul_eq (N := E.near32) h1 h4
  refine ⟨y * z, ?_, by push_cast; rfl, hm⟩
  rw [e']
  have := Fl.IsInt.round_int (N := E.near32) (z := y * z) q (natAbs_le_two hm (by omega))
  rwa [Int.cast_mul] at this ⊢

theorem whole_ofInt (n : ℤ) : IsWhole (Fl.round E.near32 false n) n (whole n.natAbs) := by
  intro A h
  obtain ⟨e, hl⟩ := whole_some h
  exact ⟨n, Fl.IsInt.round_int false (natAbs_le_two le_rfl hl), rfl, e.le⟩

theorem whole_prelu {κ : ℝ} {k : Fl f32} (hx : IsWhole x v a) (hk : IsWhole k κ b) :
    IsWhole (Scalar.preluFw x k) (Scalar.preluFw v κ) (Scalar.preluFw a b) := by
  intro A h
  have e : Scalar.preluFw a b = wholes (· * ·) a (wholes (· + ·) (if Flt.gt a (some 0) = true then some 1 else some 0) (wholes (· * ·) (some 1) b)) := rfl
  rw [e] at h
  obtain ⟨s, t, rfl, ht, e1, hl⟩ := wholes_some h
  obtain ⟨g, r, hg, hr, e2, -⟩ := wholes_some ht
  obtain ⟨o, r', ho, rfl, e3, -⟩ := wholes_some hr
  cases ho
  rw [Nat.one_mul] at e3
  subst e3
  have hg' : g = if 0 < s then 1 else 0 := by
    change (if (decide (0 < s)) = true then some 1 else some 0) = some g at hg
    by_cases h0 : 0 < s <;> simp [h0] at hg ⊢ <;> exact hg.symm
  obtain ⟨y, h1, rfl, h3⟩ := hx s rfl
  obtain ⟨z, h4, rfl, h6⟩ := hk r' rfl
  rw [prelu_real]
  rcases prelu_float h1 h4 with ⟨h0, e4⟩ | ⟨h0, q, e4⟩
  · rw [e4, if_pos h0]
    refine ⟨y, h1, rfl, h3.trans ?_⟩
    have : 0 < y := by exact_mod_cast h0
    have hs : 0 < s := by omega
    rw [if_pos hs] at hg'
    rw [← e1]
    exact Nat.le_mul_of_pos_right s (by omega)
  · rw [e4, if_neg (not_lt.mpr h0)]
    have hm : (y * z).natAbs ≤ A := by
      rw [Int.natAbs_mul, ← e1]
      exact Nat.mul_le_mul h3 (by omega)
    refine ⟨y * z, ?_, by push_cast; rfl, hm⟩
    have := Fl.IsInt.round_int (N := E.near32) (z := y * z) q (natAbs_le_two hm (by omega))
    rwa [Int.cast_mul] at this ⊢

theorem gt_whole {y z : ℤ} (h1 : x.Is y) (h2 : x'.Is z) : Fl.gt x x' = decide (z < y) := by
  cases x with
  | inf s => exact h1.elim
  | nan => exact h1.elim
  | fin s u hu =>
    cases x' with
    | inf s => exact h2.elim
    | nan => exact h2.elim
    | fin s' u' hu' =>
      obtain rfl : u = y := le_antisymm h1.2 h1.1
      obtain rfl : u' = z := le_antisymm h2.2 h2.1
      show decide ((z : ℝ) < y) = _
      rw [decide_eq_decide]
      exact Int.cast_lt

theorem whole_scan : Scans IsWhole := by
  intro n t t' t'' h
  unfold scanTo
  induction n with
  | zero => exact h 0
  | succ n ih =>
    simp only [foldN_succ]
    generalize foldN n (fun j a => if Flt.gt (t j) a = true then t j else a) (t 0) = p at *
    generalize foldN n (fun j a => if Flt.gt (t' j) a = true then t' j else a) (t' 0) = p' at *
    generalize foldN n (fun j a => if Flt.gt (t'' j) a = true then t'' j else a) (t'' 0) = p'' at *
    have hn := h n
    generalize t n = q at *
    generalize t' n = q' at *
    generalize t'' n = q'' at *
    intro A hA
    cases q'' with
    | none => cases p'' <;> cases hA
    | some c =>
      cases p'' with
      | none => cases hA
      | some e =>
        obtain ⟨y, h1, rfl, h3⟩ := hn c rfl
        obtain ⟨z, h4, rfl, h6⟩ := ih e rfl
        change (if decide (e < c) = true then some c else some e) = some A at hA
        have g1 : (Flt.gt q p : Bool) = decide (z < y) := gt_whole h1 h4
        have g2 : (Flt.gt (y : ℝ) (z : ℝ) : Bool) = decide (z < y) := by
          show decide ((z : ℝ) < y) = _
          rw [decide_eq_decide]
          exact Int.cast_lt
        simp only [g1, g2]
        by_cases hlt : z < y <;> by_cases he : e < c <;> simp [hlt, he] at hA ⊢ <;> subst hA
        exacts [⟨h1, h3⟩, ⟨h1, by omega⟩, ⟨h4, by omega⟩, ⟨h4, h6⟩]

/-- The operations on magnitudes are right. -/
theorem wholes_right : Par IsWhole where
  zero := whole_zero
  add := fun _ _ _ _ _ _ h h' => whole_add h h'
  mul := fun _ _ _ _ _ _ h h' => whole_mul h h'
  sub := fun x y z x' y' z' h h' => by
    rw [show y - y' = y + -y' from sub_eq_add_neg y y']
    exact whole_add h (whole_neg h')
  div := fun _ _ _ _ _ _ _ _ A hA => by cases hA
  neg := fun _ _ _ h => whole_neg h
  abs := fun _ _ _ h => whole_abs h
  tanh := fun _ _ _ _ A hA => by cases hA
  half := fun A hA => by cases hA
  cent := fun A hA => by cases hA
  ofInt := fun n => whole_ofInt n
  prelu := fun _ _ _ _ _ _ h h' => whole_prelu h h'

theorem whole_float (k : Fl f32) : IsWhole k k.val (wholeOf k) := by
  intro A h
  cases k with
  | fin s u hu =>
    by_cases he : (⌊u⌋ : ℝ) = u
    · rw [show wholeOf (.fin s u hu) = some ⌊u⌋.natAbs from if_pos he] at h
      cases h
      exact ⟨⌊u⌋, by rw [he]; exact ⟨le_rfl, le_rfl⟩, he.symm, le_rfl⟩
    · rw [show wholeOf (.fin s u hu) = none from if_neg he] at h
      cases h
  | inf s => cases h
  | nan => cases h

end
end Verif
