import Verif.Scalar
import Verif.Round

/-!
# `f32` and `f64` as elements

`Fl f32` with rounding to nearest, infinities, NaN and signed zeros.  The functions of the mathematical library (`exp`, `ln`, `tanh`, …)
are arbitrary; what is assumed of them is `Libm.Sane`.
-/

set_option linter.unusedSectionVars false

namespace Verif

/-- The functions of the mathematical library on one format. -/
structure Libm (F : Fmt) where
  exp : Fl F → Fl F
  ln : Fl F → Fl F
  sin : Fl F → Fl F
  cos : Fl F → Fl F
  tan : Fl F → Fl F
  tanh : Fl F → Fl F
  powf : Fl F → Fl F → Fl F
  powi : Fl F → Int → Fl F

/-- `x ≤ 0`, including `-∞`. -/
def Fl.NonPos {F : Fmt} : Fl F → Prop
  | .fin _ x _ => x ≤ 0
  | .inf s => s = true
  | _ => False

/-- What is assumed of the library: `exp` of a number that is not positive is in [0, 1], `ln` of a number in [1, 2] is in [0, 1], and
`tanh` of anything but NaN is in [-1, 1]. -/
structure Libm.Sane {F : Fmt} (L : Libm F) : Prop where
  exp : ∀ x : Fl F, x.NonPos → (L.exp x).In 0 1
  ln : ∀ x : Fl F, x.In 1 2 → (L.ln x).In 0 1
  tanh : ∀ x : Fl F, x ≠ .nan → (L.tanh x).In (-1) 1

namespace Fmt
theorem grid_mk {F : Fmt} (m e : ℤ) (h1 : |m| ≤ 2 ^ F.prec) (h2 : F.emin ≤ e) (h3 : e ≤ F.emax) : (m : ℝ) * (2 : ℝ) ^ e ∈ F.grid :=
  ⟨m, e, h1, h2, h3, rfl⟩

theorem grid_up {x : ℝ} (h : x ∈ f32.grid) : x ∈ f64.grid := by
  obtain ⟨m, e, h1, h2, h3, rfl⟩ := h
  refine ⟨m, e, h1.trans ?_, ?_, ?_, rfl⟩
  · show (2 : ℤ) ^ 24 ≤ 2 ^ 53; norm_num
  · exact le_trans (by show (-1074 : ℤ) ≤ -149; norm_num) h2
  · exact h3.trans (by show (104 : ℤ) ≤ 971; norm_num)

theorem top32 : f32.top = 2 ^ 128 := by
  show (2 : ℝ) ^ (24 : ℕ) * (2 : ℝ) ^ (104 : ℤ) = _
  rw [show (104 : ℤ) = ((104 : ℕ) : ℤ) by norm_num, zpow_natCast, ← pow_add]

theorem top64 : f64.top = 2 ^ 1024 := by
  show (2 : ℝ) ^ (53 : ℕ) * (2 : ℝ) ^ (971 : ℤ) = _
  rw [show (971 : ℤ) = ((971 : ℕ) : ℤ) by norm_num, zpow_natCast, ← pow_add]

theorem top_lt : f32.top < f64.top := by rw [top32, top64]; exact pow_lt_pow_right₀ (by norm_num) (by norm_num)

/-- A whole multiple of a power of two with few digits. -/
theorem grid_nat {F : Fmt} {x : ℝ} (m : ℤ) (e : ℕ) (hx : x = m * 2 ^ e) (h1 : |m| ≤ 2 ^ F.prec) (h2 : F.emin ≤ e) (h3 : e ≤ F.emax) : x ∈ F.grid :=
  ⟨m, e, h1, h2, h3, by rw [hx, zpow_natCast]⟩

end Fmt

namespace Fl
variable {F : Fmt}

/-- A positive literal. -/
noncomputable def lit (x : ℝ) (h : x ∈ F.grid ∧ |x| < F.top) (h0 : 0 ≤ x) : Fl F := fin false x ⟨h.1, h.2, fun e => (by cases e), fun _ => h0⟩

theorem zero_ok : (0 : ℝ) ∈ f32.grid ∧ |(0 : ℝ)| < f32.top :=
  ⟨Fmt.grid_nat 0 0 (by norm_num) (by norm_num) (by norm_num [f32]) (by norm_num [f32]), by rw [abs_zero]; exact Fmt.top_pos⟩
theorem one_grid : (1 : ℝ) ∈ f32.grid := Fmt.grid_nat 1 0 (by norm_num) (by norm_num [f32]) (by norm_num [f32]) (by norm_num [f32])
theorem one_ok : (1 : ℝ) ∈ f32.grid ∧ |(1 : ℝ)| < f32.top := ⟨one_grid, by rw [Fmt.top32]; norm_num⟩
theorem one_ok64 : (1 : ℝ) ∈ f64.grid ∧ |(1 : ℝ)| < f64.top := ⟨Fmt.grid_up one_grid, one_ok.2.trans Fmt.top_lt⟩
theorem half_ok : (1 / 2 : ℝ) ∈ f32.grid ∧ |(1 / 2 : ℝ)| < f32.top :=
  ⟨⟨1, -1, by norm_num [f32], by norm_num [f32], by norm_num [f32], by norm_num⟩, by rw [Fmt.top32]; norm_num [abs_of_pos]⟩

/-- `x as f64`. -/
def widen : Fl f32 → Fl f64
  | fin s x h => fin s x ⟨Fmt.grid_up h.1, h.2.1.trans Fmt.top_lt, h.2.2⟩
  | inf s => inf s
  | nan => nan

/-- `x as f32`. -/
noncomputable def narrow (N : Near f32) : Fl f64 → Fl f32
  | fin s x _ => round N s x
  | inf s => inf s
  | nan => nan

end Fl

/-- IEEE arithmetic in place of f32 and f64: rounding to nearest (`N`, `M`) and a mathematical library (`L`, `W`). -/
@[reducible] noncomputable def floatFlt (N : Near f32) (M : Near f64) (L : Libm f32) (W : Libm f64) : Flt (Fl f32) where
  Wide := Fl f64
  up := Fl.widen
  down := Fl.narrow N
  wone := Fl.lit 1 Fl.one_ok64 zero_le_one
  wadd := Fl.add M
  wsub := Fl.sub M
  wexp := W.exp
  wln := W.ln
  wgt := Fl.gt
  zero := Fl.lit 0 Fl.zero_ok le_rfl
  one := Fl.lit 1 Fl.one_ok zero_le_one
  add := Fl.add N
  sub := Fl.sub N
  mul := Fl.mul N
  div := Fl.div N
  neg := Fl.neg
  half := Fl.lit (1 / 2) Fl.half_ok (by norm_num)
  cent := Fl.round N false (1 / 100)
  exp := L.exp
  ln := L.ln
  sin := L.sin
  cos := L.cos
  tan := L.tan
  tanh := L.tanh
  sqrt := Fl.sqrt N
  abs := Fl.abs
  powf := L.powf
  powi := L.powi
  gt := Fl.gt
  le := Fl.le
  feq := Fl.feq
  ofInt := fun n => Fl.round N false n

end Verif
