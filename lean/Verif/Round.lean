import Mathlib.Data.Real.Basic
import Mathlib.Analysis.Real.Sqrt
import Mathlib.Data.Set.Finite.Lattice
import Mathlib.Data.Finset.Image
import Mathlib.Data.Finset.Max
import Mathlib.Order.Interval.Finset.Defs
import Mathlib.Data.Int.Interval
import Mathlib.Algebra.Order.Group.Unbundled.Abs
import Mathlib.Tactic.Linarith
import Mathlib.Tactic.NormNum
import Mathlib.Tactic.Positivity
import Mathlib.Tactic.Ring

/-!
# Binary floating-point formats and rounding to nearest (IEEE 754)

The Rust types `f32` and `f64`: a finite number is `m * 2^e`; the result of an operation is the number of the format nearest to the
exact result; if that is `±2^prec * 2^emax` (the first number that is too large), it is an infinity.  Nothing is assumed about which of
two equally near numbers is taken, so ties-to-even is one case.  The two
zeros are distinguished by their sign; NaN payloads are not distinguished.
-/

namespace Verif

/-- A format: precision and exponent range of the unit in the last place. -/
structure Fmt where
  prec : Nat
  emin : Int
  emax : Int

/-- Rust `f32` (IEEE binary32). -/
def f32 : Fmt := ⟨24, -149, 104⟩
/-- Rust `f64` (IEEE binary64). -/
def f64 : Fmt := ⟨53, -1074, 971⟩

namespace Fmt

/-- The finite numbers of the format, and the first number in each direction that is too large. -/
def grid (F : Fmt) : Set ℝ := {x | ∃ m e : ℤ, |m| ≤ 2 ^ F.prec ∧ F.emin ≤ e ∧ e ≤ F.emax ∧ x = m * (2 : ℝ) ^ e}

/-- The first positive number that is too large: 2^128, 2^1024. -/
noncomputable def top (F : Fmt) : ℝ := 2 ^ F.prec * (2 : ℝ) ^ F.emax

variable {F : Fmt}

theorem top_pos : 0 < F.top := mul_pos (by positivity) (zpow_pos (by norm_num) _)

theorem grid_le {x : ℝ} (h : x ∈ F.grid) : |x| ≤ F.top := by
  obtain ⟨m, e, h1, _, h3, rfl⟩ := h
  rw [abs_mul, abs_of_pos (zpow_pos (by norm_num : (0 : ℝ) < 2) e)]
  unfold top
  refine mul_le_mul ?_ (zpow_le_zpow_right₀ (by norm_num) h3) (zpow_pos (by norm_num) _).le (by positivity)
  rw [← Int.cast_abs]
  exact_mod_cast h1

theorem grid_neg {x : ℝ} (h : x ∈ F.grid) : -x ∈ F.grid := by
  obtain ⟨m, e, h1, h2, h3, rfl⟩ := h
  exact ⟨-m, e, by rwa [abs_neg], h2, h3, by push_cast; ring⟩

theorem grid_finite : F.grid.Finite := by
  have : F.grid ⊆ (fun q : ℤ × ℤ => (q.1 : ℝ) * (2 : ℝ) ^ q.2) '' (↑(Finset.Icc (-(2 ^ F.prec) : ℤ) (2 ^ F.prec) ×ˢ Finset.Icc F.emin F.emax) : Set (ℤ × ℤ)) := by
    rintro x ⟨m, e, h1, h2, h3, rfl⟩
    refine ⟨(m, e), ?_, rfl⟩
    obtain ⟨h4, h5⟩ := abs_le.mp h1
    simp [h2, h3, h4, h5]
  exact ((Finset.finite_toSet _).image _).subset this

end Fmt

/-- Rounding to nearest, with any choice between two nearest numbers. -/
structure Near (F : Fmt) where
  near : ℝ → ℝ
  mem : ∀ x, near x ∈ F.grid
  best : ∀ x g, g ∈ F.grid → |x - near x| ≤ |x - g|

namespace Near
variable {F : Fmt} (N : Near F)

theorem near_mono {x y : ℝ} (h : x ≤ y) : N.near x ≤ N.near y := by
  rcases h.eq_or_lt with rfl | h
  · exact le_refl _
  by_contra hc
  have hc := not_le.mp hc
  have h1 := N.best x _ (N.mem y)
  have h2 := N.best y _ (N.mem x)
  generalize N.near x = f at *
  generalize N.near y = g at *
  have h3 : (x - f) * (x - f) ≤ (x - g) * (x - g) := by
    have := mul_self_le_mul_self (abs_nonneg _) h1
    rwa [abs_mul_abs_self, abs_mul_abs_self] at this
  have h4 : (y - g) * (y - g) ≤ (y - f) * (y - f) := by
    have := mul_self_le_mul_self (abs_nonneg _) h2
    rwa [abs_mul_abs_self, abs_mul_abs_self] at this
  nlinarith [mul_pos (sub_pos.mpr h) (sub_pos.mpr hc)]

theorem near_grid {g : ℝ} (h : g ∈ F.grid) : N.near g = g := by
  have := N.best g g h
  rw [sub_self, abs_zero] at this
  exact (sub_eq_zero.mp (abs_eq_zero.mp (le_antisymm this (abs_nonneg _)))).symm

theorem near_le {x g : ℝ} (hg : g ∈ F.grid) (h : x ≤ g) : N.near x ≤ g := N.near_grid hg ▸ N.near_mono h
theorem le_near {x g : ℝ} (hg : g ∈ F.grid) (h : g ≤ x) : g ≤ N.near x := N.near_grid hg ▸ N.near_mono h

/-- Rounding exists. -/
theorem exists_near (h0 : F.emin ≤ F.emax) : Nonempty (Near F) := by
  have hne : F.grid.Nonempty := ⟨_, 0, F.emin, by simp, le_refl _, h0, rfl⟩
  have h : ∀ x : ℝ, ∃ g ∈ F.grid, ∀ g' ∈ F.grid, |x - g| ≤ |x - g'| := fun x => by
    obtain ⟨g, hg, hm⟩ := Finset.exists_min_image Fmt.grid_finite.toFinset (fun g => |x - g|) (by simpa using hne)
    exact ⟨g, by simpa using hg, fun g' hg' => hm g' (by simpa using hg')⟩
  choose f h1 h2 using h
  exact ⟨⟨f, h1, fun x g hg => h2 x g hg⟩⟩

end Near

/-- A value of the format; `s` is the sign bit. -/
inductive Fl (F : Fmt) where
  | fin (s : Bool) (x : ℝ) (h : x ∈ F.grid ∧ |x| < F.top ∧ (s = true → x ≤ 0) ∧ (s = false → 0 ≤ x))
  | inf (s : Bool)
  | nan

namespace Fl
variable {F : Fmt}

/-- A finite value between `a` and `b`. -/
def In (a b : ℝ) : Fl F → Prop
  | fin _ x _ => a ≤ x ∧ x ≤ b
  | _ => False

/-- A finite value: neither an infinity nor NaN. -/
def Finite (x : Fl F) : Prop := match x with
  | fin _ _ _ => True
  | _ => False

open Classical in
/-- The result of an operation whose exact result is `x`; `z` is the sign if the result is zero. -/
noncomputable def round (N : Near F) (z : Bool) (x : ℝ) : Fl F :=
  if h : |N.near x| < F.top then
    if h0 : N.near x = 0 then fin z (N.near x) ⟨N.mem x, h, fun _ => h0.le, fun _ => h0.ge⟩
    else fin (decide (N.near x < 0)) (N.near x) ⟨N.mem x, h, fun h => (of_decide_eq_true h).le, fun h => not_lt.mp (of_decide_eq_false h)⟩
  else inf (decide (N.near x < 0))

/-- `-x`. -/
def neg : Fl F → Fl F
  | fin s x h => fin (!s) (-x) ⟨Fmt.grid_neg h.1, by rw [abs_neg]; exact h.2.1, fun e => by have := h.2.2.2 (by simpa using e); linarith,
      fun e => by have := h.2.2.1 (by simpa using e); linarith⟩
  | inf s => inf (!s)
  | nan => nan

/-- `x.abs()`. -/
noncomputable def abs : Fl F → Fl F
  | fin _ x h => fin false |x| ⟨by rcases abs_choice x with e | e <;> rw [e]; exacts [h.1, Fmt.grid_neg h.1], by rw [abs_abs]; exact h.2.1,
      fun e => (by cases e), fun _ => abs_nonneg x⟩
  | inf _ => inf false
  | nan => nan

/-- `x + y`. -/
noncomputable def add (N : Near F) : Fl F → Fl F → Fl F
  | nan, _ => nan
  | _, nan => nan
  | fin s x _, fin t y _ => round N (s && t) (x + y)
  | inf s, inf t => if s = t then inf s else nan
  | inf s, fin _ _ _ => inf s
  | fin _ _ _, inf t => inf t

/-- `x - y`. -/
noncomputable def sub (N : Near F) (x y : Fl F) : Fl F := add N x (neg y)

open Classical in
/-- `x * y`. -/
noncomputable def mul (N : Near F) : Fl F → Fl F → Fl F
  | nan, _ => nan
  | _, nan => nan
  | fin s x _, fin t y _ => round N (s ^^ t) (x * y)
  | inf s, inf t => inf (s ^^ t)
  | inf s, fin t y _ => if y = 0 then nan else inf (s ^^ t)
  | fin s x _, inf t => if x = 0 then nan else inf (s ^^ t)

open Classical in
/-- `x / y`. -/
noncomputable def div (N : Near F) : Fl F → Fl F → Fl F
  | nan, _ => nan
  | _, nan => nan
  | fin s x _, fin t y _ => if y = 0 then (if x = 0 then nan else inf (s ^^ t)) else round N (s ^^ t) (x / y)
  | inf _, inf _ => nan
  | inf s, fin t _ _ => inf (s ^^ t)
  | fin s _ _, inf t => round N (s ^^ t) 0

open Classical in
/-- `x.sqrt()`. -/
noncomputable def sqrt (N : Near F) : Fl F → Fl F
  | nan => nan
  | inf s => if s then nan else inf false
  | fin s x _ => if x < 0 then nan else round N s (Real.sqrt x)

open Classical in
/-- `x > y`; false if one of them is NaN. -/
noncomputable def gt : Fl F → Fl F → Bool
  | nan, _ => false
  | _, nan => false
  | fin _ x _, fin _ y _ => decide (y < x)
  | inf s, inf t => !s && t
  | inf s, fin _ _ _ => !s
  | fin _ _ _, inf t => t

open Classical in
/-- `x == y`. -/
noncomputable def feq : Fl F → Fl F → Bool
  | fin _ x _, fin _ y _ => decide (x = y)
  | inf s, inf t => s == t
  | _, _ => false

/-- `x <= y`. -/
noncomputable def le (x y : Fl F) : Bool := gt y x || feq x y

end Fl

end Verif
