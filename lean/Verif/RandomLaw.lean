import Mathlib.Probability.Moments.Variance
import Mathlib.Probability.Independence.Basic
import Mathlib.Probability.Distributions.Uniform
import Mathlib.Probability.Distributions.Gaussian.Real
import Mathlib.Probability.HasLawExists
import Mathlib.Analysis.SpecialFunctions.Integrals.Basic

/-!
# Samplers that follow their distributions

The model leaves the generators of `rand` and `rand_distr` open.  Here is what their documentation promises, as laws of sequences of random
variables: independent coins, independent uniform numbers, independent normal numbers.  Property C79 derives the distribution of the results of
the library from it.
-/

namespace Verif
open MeasureTheory ProbabilityTheory
variable {Ω : Type} [MeasurableSpace Ω] {μ : Measure Ω}

/-- Independent coins, each `true` with probability `q`. -/
structure CoinLaw (μ : Measure Ω) (X : Nat → Ω → Bool) (q : ℝ) : Prop where
  meas : ∀ i, Measurable (X i)
  prob : ∀ i, μ.real {ω | X i ω = true} = q
  indep : iIndepFun X μ

/-- Independent numbers, each uniform on `[a, b)`. -/
structure UniformLaw (μ : Measure Ω) (X : Nat → Ω → ℝ) (a b : ℝ) : Prop where
  meas : ∀ i, Measurable (X i)
  law : ∀ i, pdf.IsUniform (X i) (Set.Ico a b) μ
  indep : iIndepFun X μ

/-- Independent numbers, each normal with this mean and standard deviation. -/
structure NormalLaw (μ : Measure Ω) (X : Nat → Ω → ℝ) (mean sd : ℝ) : Prop where
  meas : ∀ i, Measurable (X i)
  law : ∀ i, μ.map (X i) = gaussianReal mean (Real.toNNReal (sd ^ 2))
  indep : iIndepFun X μ

/-! ### Moments of these laws -/

omit [MeasurableSpace Ω] in
theorem coin_indicator {X : Ω → Bool} (k : ℝ) :
    (fun ω => k * (if X ω = true then (1 : ℝ) else 0)) = Set.indicator {ω | X ω = true} (fun _ => k) := by
  funext ω
  by_cases h : X ω = true
  · rw [if_pos h, Set.indicator_of_mem (show ω ∈ {ω | X ω = true} from h), mul_one]
  · rw [if_neg h, Set.indicator_of_notMem (show ω ∉ {ω | X ω = true} from h), mul_zero]

theorem coin_set {X : Ω → Bool} (h : Measurable X) : MeasurableSet {ω | X ω = true} :=
  h (MeasurableSet.singleton true)

theorem coin_mean {X : Ω → Bool} (h : Measurable X) (k : ℝ) :
    ∫ ω, k * (if X ω = true then (1 : ℝ) else 0) ∂μ = k * μ.real {ω | X ω = true} := by
  rw [coin_indicator k, integral_indicator_const _ (coin_set h), smul_eq_mul, mul_comm]

theorem coin_memLp [IsProbabilityMeasure μ] {X : Ω → Bool} (h : Measurable X) (k : ℝ) :
    MemLp (fun ω => k * (if X ω = true then (1 : ℝ) else 0)) 2 μ := by
  rw [coin_indicator k]
  exact memLp_indicator_const 2 (coin_set h) k (Or.inr (measure_ne_top _ _))

theorem coin_variance [IsProbabilityMeasure μ] {X : Ω → Bool} (h : Measurable X) (k : ℝ) :
    Var[fun ω => k * (if X ω = true then (1 : ℝ) else 0); μ] = k ^ 2 * (μ.real {ω | X ω = true} * (1 - μ.real {ω | X ω = true})) := by
  rw [variance_eq_sub (coin_memLp h k), coin_mean h k]
  have : (∫ ω, ((fun ω => k * (if X ω = true then (1 : ℝ) else 0)) ^ 2) ω ∂μ) = k ^ 2 * μ.real {ω | X ω = true} := by
    rw [← coin_mean h]
    congr 1
    funext ω
    simp only [Pi.pow_apply]
    split_ifs <;> ring
  rw [this]
  ring

theorem uniform_map {X : Ω → ℝ} (hX : Measurable X) {a b : ℝ} (hab : a < b) (h : pdf.IsUniform X (Set.Ico a b) μ) (g : ℝ → ℝ)
    (hg : Continuous g) : ∫ ω, g (X ω) ∂μ = (b - a)⁻¹ * ∫ x in a..b, g x := by
  rw [← integral_map (φ := X) hX.aemeasurable (f := g) hg.aestronglyMeasurable, show μ.map X = _ from h, ProbabilityTheory.cond,
    integral_smul_measure, intervalIntegral.integral_of_le hab.le, integral_Ico_eq_integral_Ioc, Real.volume_Ico, ENNReal.toReal_inv,
    ENNReal.toReal_ofReal (by linarith), smul_eq_mul]

theorem uniform_bounded {X : Ω → ℝ} {a b : ℝ} (hab : a < b) (h : pdf.IsUniform X (Set.Ico a b) μ) :
    ∀ᵐ ω ∂μ, X ω ∈ Set.Ico a b := by
  have hv : volume (Set.Ico a b) ≠ 0 := by rw [Real.volume_Ico]; simpa using hab
  have hv' : volume (Set.Ico a b) ≠ ⊤ := by rw [Real.volume_Ico]; exact ENNReal.ofReal_ne_top
  have := h.measure_preimage hv hv' (A := (Set.Ico a b)ᶜ) measurableSet_Ico.compl
  rw [Set.inter_compl_self, measure_empty, ENNReal.zero_div] at this
  exact this

theorem uniform_memLp [IsProbabilityMeasure μ] {X : Ω → ℝ} (hX : Measurable X) {a b : ℝ} (hab : a < b)
    (h : pdf.IsUniform X (Set.Ico a b) μ) : MemLp X 2 μ :=
  MemLp.of_bound hX.aestronglyMeasurable (max |a| |b|) ((uniform_bounded hab h).mono fun ω hω => by
    rw [Real.norm_eq_abs]
    exact abs_le_max_abs_abs hω.1 hω.2.le)

theorem uniform_mean {X : Ω → ℝ} (hX : Measurable X) {a b : ℝ} (hab : a < b) (h : pdf.IsUniform X (Set.Ico a b) μ) :
    ∫ ω, X ω ∂μ = (a + b) / 2 := by
  rw [uniform_map hX hab h (fun x => x) continuous_id, integral_id]
  have : b - a ≠ 0 := by linarith
  field_simp
  ring

theorem uniform_variance [IsProbabilityMeasure μ] {X : Ω → ℝ} (hX : Measurable X) {a b : ℝ} (hab : a < b)
    (h : pdf.IsUniform X (Set.Ico a b) μ) : Var[X; μ] = (b - a) ^ 2 / 12 := by
  rw [variance_eq_sub (uniform_memLp hX hab h), uniform_mean hX hab h]
  have : (∫ ω, (X ^ 2) ω ∂μ) = (b - a)⁻¹ * ((b ^ 3 - a ^ 3) / 3) := by
    have := uniform_map hX hab h (fun x => x ^ 2) (continuous_pow 2)
    rw [integral_pow] at this
    norm_num at this
    simpa using this
  rw [this]
  have : b - a ≠ 0 := by linarith
  field_simp
  ring

theorem normal_memLp {X : Ω → ℝ} (hX : Measurable X) {mean sd : ℝ} (h : μ.map X = gaussianReal mean (Real.toNNReal (sd ^ 2))) : MemLp X 2 μ := by
  have := memLp_id_gaussianReal (μ := mean) (v := Real.toNNReal (sd ^ 2)) 2
  rw [← h, memLp_map_measure_iff aestronglyMeasurable_id hX.aemeasurable] at this
  simpa using this

theorem normal_mean {X : Ω → ℝ} (hX : Measurable X) {mean sd : ℝ} (h : μ.map X = gaussianReal mean (Real.toNNReal (sd ^ 2))) :
    ∫ ω, X ω ∂μ = mean := by
  rw [← integral_id_gaussianReal (μ := mean) (v := Real.toNNReal (sd ^ 2)), ← h, integral_map hX.aemeasurable]
  exact aestronglyMeasurable_id

theorem normal_variance {X : Ω → ℝ} (hX : Measurable X) {mean sd : ℝ} (h : μ.map X = gaussianReal mean (Real.toNNReal (sd ^ 2))) :
    Var[X; μ] = sd ^ 2 := by
  have := variance_id_gaussianReal (μ := mean) (v := Real.toNNReal (sd ^ 2))
  rw [← h, variance_map aemeasurable_id hX.aemeasurable, Real.coe_toNNReal _ (sq_nonneg _)] at this
  simpa using this

/-! ### Such samplers exist -/

theorem exists_uniformLaw {a b : ℝ} (hab : a < b) :
    ∃ (Ω : Type) (_ : MeasurableSpace Ω) (μ : Measure Ω) (X : Nat → Ω → ℝ), IsProbabilityMeasure μ ∧ UniformLaw μ X a b := by
  have hv : volume (Set.Ico a b) ≠ 0 := by rw [Real.volume_Ico]; simpa using hab
  have hv' : volume (Set.Ico a b) ≠ ⊤ := by rw [Real.volume_Ico]; exact ENNReal.ofReal_ne_top
  have : IsProbabilityMeasure (ProbabilityTheory.cond (volume : Measure ℝ) (Set.Ico a b)) := cond_isProbabilityMeasure_of_finite hv hv'
  obtain ⟨Ω, i, P, X, h1, h2, h3, h4⟩ := exists_iid Nat (ProbabilityTheory.cond (volume : Measure ℝ) (Set.Ico a b))
  exact ⟨Ω, i, P, X, h4, h1, fun i => (h2 i).map_eq, h3⟩

theorem exists_normalLaw (mean sd : ℝ) :
    ∃ (Ω : Type) (_ : MeasurableSpace Ω) (μ : Measure Ω) (X : Nat → Ω → ℝ), IsProbabilityMeasure μ ∧ NormalLaw μ X mean sd := by
  obtain ⟨Ω, i, P, X, h1, h2, h3, h4⟩ := exists_iid Nat (gaussianReal mean (Real.toNNReal (sd ^ 2)))
  exact ⟨Ω, i, P, X, h4, h1, fun i => (h2 i).map_eq, h3⟩

/-- Coins from uniform numbers: `true` when the number is below `q`. -/
theorem exists_coinLaw {q : ℝ} (h0 : 0 ≤ q) (h1 : q ≤ 1) :
    ∃ (Ω : Type) (_ : MeasurableSpace Ω) (μ : Measure Ω) (X : Nat → Ω → Bool), IsProbabilityMeasure μ ∧ CoinLaw μ X q := by
  obtain ⟨Ω, i, μ, U, hp, hU⟩ := exists_uniformLaw (a := 0) (b := 1) one_pos
  have hm : Measurable (fun u : ℝ => decide (u < q)) := by
    refine measurable_to_bool ?_
    have : (fun u : ℝ => decide (u < q)) ⁻¹' {true} = Set.Iio q := by ext u; simp
    rw [this]
    exact measurableSet_Iio
  refine ⟨Ω, i, μ, fun i ω => decide (U i ω < q), hp, fun i => hm.comp (hU.meas i), fun i => ?_, hU.indep.comp (fun _ u => decide (u < q)) fun _ => hm⟩
  have := (hU.law i).measure_preimage (by simp) (by simp) (A := Set.Iio q) measurableSet_Iio
  have e : {ω | decide (U i ω < q) = true} = U i ⁻¹' Set.Iio q := by ext ω; simp
  rw [e, Measure.real, this]
  have e2 : Set.Ico (0 : ℝ) 1 ∩ Set.Iio q = Set.Ico 0 q := by
    ext u
    simp only [Set.mem_inter_iff, Set.mem_Ico, Set.mem_Iio]
    constructor
    · rintro ⟨⟨a, _⟩, b⟩; exact ⟨a, b⟩
    · rintro ⟨a, b⟩; exact ⟨⟨a, by linarith⟩, b⟩
  rw [e2, Real.volume_Ico, Real.volume_Ico]
  simp [h0]

end Verif
