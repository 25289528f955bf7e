import Verif.FloatSpec
import Verif.FwMore2
import Mathlib.Data.EReal.Basic

/-!
# Comparing floats

`Fl.rank` is the place of a value on the extended real line; the comparisons of the kernels are those of the ranks, except that every comparison with NaN is
false.
-/

set_option linter.unusedSectionVars false

namespace Verif
open Fmt Res

/-- The place of a value on the extended real line (`-0` and `+0` have the same; that of NaN is of no importance). -/
noncomputable def Fl.rank {F : Fmt} : Fl F → EReal
  | .fin _ x _ => (x : EReal)
  | .inf s => if s then ⊥ else ⊤
  | .nan => 0

namespace Fl
variable {F : Fmt} {x y : Fl F}

theorem gt_nan_left (y : Fl F) : gt nan y = false := by cases y <;> rfl
theorem gt_nan_right (x : Fl F) : gt x nan = false := by cases x <;> rfl
theorem feq_nan_left (y : Fl F) : feq nan y = false := by cases y <;> rfl
theorem feq_nan_right (x : Fl F) : feq x nan = false := by cases x <;> rfl

theorem gt_iff : gt x y = true ↔ x ≠ nan ∧ y ≠ nan ∧ rank y < rank x := by
  cases x with
  | nan => simp [gt_nan_left]
  | fin s a ha =>
    cases y with
    | nan => simp [gt_nan_right]
    | fin t b hb => simp [gt, rank]
    | inf t => cases t <;> simp [gt, rank]
  | inf s =>
    cases y with
    | nan => simp [gt_nan_right]
    | fin t b hb => cases s <;> simp [gt, rank, EReal.coe_lt_top]
    | inf t => cases s <;> cases t <;> simp [gt, rank]

theorem feq_iff : feq x y = true ↔ x ≠ nan ∧ y ≠ nan ∧ rank x = rank y := by
  cases x with
  | nan => simp [feq_nan_left]
  | fin s a ha =>
    cases y with
    | nan => simp [feq_nan_right]
    | fin t b hb => simp [feq, rank]
    | inf t => cases t <;> simp [feq, rank]
  | inf s =>
    cases y with
    | nan => simp [feq_nan_right]
    | fin t b hb => cases s <;> simp [feq, rank]
    | inf t => cases s <;> cases t <;> simp [feq, rank]

end Fl

section
variable {α β : Type} [LinearOrder β] {better : α → α → Bool} {good : α → Prop} {key : α → β}

/-- The scan for the best element, when some elements (NaN) cannot be compared with any. -/
theorem argScan_good (hb : ∀ a b, better a b = true ↔ good a ∧ good b ∧ key b < key a) (r : Nat → α) (m : Nat) :
    (¬ good (r 0) → K.argScan better r m = (r 0, 0)) ∧
    (good (r 0) → (K.argScan better r m).2 ≤ m ∧ (K.argScan better r m).1 = r (K.argScan better r m).2 ∧ good (r (K.argScan better r m).2) ∧
      (∀ i, i ≤ m → good (r i) → key (r i) ≤ key (r (K.argScan better r m).2)) ∧
      ∀ i, i < (K.argScan better r m).2 → good (r i) → key (r i) < key (r (K.argScan better r m).2)) := by
  induction m with
  | zero =>
    refine ⟨fun _ => rfl, fun h => ⟨le_refl _, rfl, h, fun i hi _ => ?_, fun i hi => absurd hi (Nat.not_lt_zero i)⟩⟩
    rw [show i = 0 by omega]; exact le_refl _
  | succ m ih =>
    have e : K.argScan better r (m + 1) = if better (r (m + 1)) (K.argScan better r m).1 then (r (m + 1), m + 1) else K.argScan better r m := rfl
    refine ⟨fun h => ?_, fun h => ?_⟩
    · rw [e, ih.1 h, if_neg]
      rw [hb]; exact fun h' => h h'.2.1
    · obtain ⟨h1, h2, h3, h4, h5⟩ := ih.2 h
      rw [e]
      by_cases hlt : better (r (m + 1)) (K.argScan better r m).1 = true
      · rw [if_pos hlt]
        rw [h2] at hlt
        obtain ⟨g1, -, g2⟩ := (hb _ _).mp hlt
        refine ⟨le_refl _, rfl, g1, fun i hi hg => ?_, fun i hi hg => ?_⟩
        · by_cases him : i = m + 1
          · rw [him]
          · exact (h4 i (by omega) hg).trans g2.le
        · exact (h4 i (by simp only at hi; omega) hg).trans_lt g2
      · rw [if_neg hlt]
        rw [h2] at hlt
        refine ⟨by omega, h2, h3, fun i hi hg => ?_, h5⟩
        by_cases him : i = m + 1
        · subst him
          by_contra hn
          exact hlt ((hb _ _).mpr ⟨hg, h3, not_le.mp hn⟩)
        · exact h4 i (by omega) hg

/-- The scan that keeps only the value finds the value of that position. -/
theorem scanTo_argScan (better : α → α → Bool) (r : Nat → α) (m : Nat) : scanTo better (m + 1) r = (K.argScan better r m).1 := by
  have key : ∀ m, foldN (m + 1) (fun j a => if better (r j) a then r j else a) (r 0) = (K.argScan better r m).1 := by
    intro m
    induction m with
    | zero => rw [foldN_succ]; show (if better (r 0) (r 0) = true then r 0 else r 0) = r 0; rw [ite_self]
    | succ m ih =>
      rw [foldN_succ, ih]
      have e : K.argScan better r (m + 1) = if better (r (m + 1)) (K.argScan better r m).1 then (r (m + 1), m + 1) else K.argScan better r m := rfl
      rw [e]
      split <;> rfl
  exact key m

end
end Verif
