import Verif.RandomLaw
import Verif.PropsContrib
import Verif.PropsInit
import Verif.PropsFw2
import Verif.PropsSerde

/-!
# Property C79: the distributions of dropout, of random tensors and of initializers

`R ω` are the samples of one call when chance takes the course `ω`.  If the sampler follows its law (`RandomLaw.lean`) the results have these
expectations, variances and dependences, whatever the memory contained.  Arithmetic is exact here; C75 bounds the rounding errors of dropout.
-/

set_option linter.unusedSectionVars false

namespace Verif
open Res MeasureTheory ProbabilityTheory
attribute [local instance] realFlt
variable {Ω : Type} [MeasurableSpace Ω] {μ : Measure Ω} [IsProbabilityMeasure μ] {x : Tensor ℝ} {d : Nat} {s : Shape} {f : Arr ℝ}

/-- Every element of the random array is a random variable with this mean and variance. -/
def HasMoments (μ : Measure Ω) (s : Shape) (out : Ω → Arr ℝ) (mean var : Arr ℝ) : Prop :=
  ∀ c b, s.Valid c b → Measurable (fun ω => out ω c b) ∧ MemLp (fun ω => out ω c b) 2 μ ∧
    ∫ ω, out ω c b ∂μ = mean c b ∧ Var[fun ω => out ω c b; μ] = var c b

/-- All the elements of the random array are independent. -/
def AllIndep (μ : Measure Ω) (s : Shape) (out : Ω → Arr ℝ) : Prop :=
  iIndepFun (fun (q : {q : (Nat → Nat) × Nat // s.Valid q.1 q.2}) ω => out ω q.1.1 q.1.2) μ

/-- Different positions have different offsets. -/
theorem offset_injective (hs : s.WF) : Function.Injective (fun q : {q : (Nat → Nat) × Nat // s.Valid q.1 q.2} => s.offset q.1.1 q.1.2) := by
  rintro ⟨⟨c, b⟩, h⟩ ⟨⟨c', b'⟩, h'⟩ e
  obtain ⟨e1, e2⟩ := hs.offset_inj h h' e
  exact Subtype.ext (Prod.ext (funext e2) e1)

theorem keep_measurable (k : ℝ) : Measurable (fun u : Bool => k * (if u = true then (1 : ℝ) else 0)) := measurable_of_countable _

/-- The three comparisons of `dropout` for a rate in `[0, 1)`. -/
theorem rate_ok {rate : ℝ} (h0 : 0 ≤ rate) (h1 : rate < 1) :
    Flt.le 1 rate = false ∧ Flt.le 0 (1 - rate) = true ∧ Flt.le (1 - rate) 1 = true :=
  ⟨decide_eq_false (not_le.mpr h1), decide_eq_true (show (0 : ℝ) ≤ 1 - rate by linarith), decide_eq_true (show (1 : ℝ) - rate ≤ 1 by linarith)⟩

theorem dropout_moments {X : Ω → Bool} {rate : ℝ} (hX : Measurable X) (hp : μ.real {ω | X ω = true} = 1 - rate) (h1 : rate < 1) (a : ℝ) :
    Measurable (fun ω => a * (1 / (1 - rate)) * (if X ω = true then (1 : ℝ) else 0)) ∧
    MemLp (fun ω => a * (1 / (1 - rate)) * (if X ω = true then (1 : ℝ) else 0)) 2 μ ∧
    ∫ ω, a * (1 / (1 - rate)) * (if X ω = true then (1 : ℝ) else 0) ∂μ = a ∧
    Var[fun ω => a * (1 / (1 - rate)) * (if X ω = true then (1 : ℝ) else 0); μ] = a ^ 2 * (rate / (1 - rate)) := by
  have hne : 1 - rate ≠ 0 := by linarith
  refine ⟨(keep_measurable _).comp hX, coin_memLp hX _, ?_, ?_⟩
  · rw [coin_mean hX, hp]
    field_simp
  · rw [coin_variance hX, hp]
    field_simp
    ring

/-- C79: `dropout` with a rate in `[0, 1)` does not change the expectation: every element is 0 with probability `rate` and `x / (1 - rate)`
otherwise, its mean is `x` (what a dropout that is not enabled returns), its variance `x² · rate / (1 - rate)`, and all elements are dropped
independently of each other. -/
theorem C79_dropout (hx : x.Holds d s f) (p : Profile) (m : Ω → Mem ℝ) {rate : ℝ} (h0 : 0 ≤ rate) (h1 : rate < 1) (R : Ω → Rng ℝ)
    (hR : CoinLaw μ (fun i ω => (R ω).coin (1 - rate) i) (1 - rate)) :
    ∃ out : Ω → Arr ℝ, (∀ ω, Yields (TF.dropout p (m ω) (R ω) x rate true) d s (out ω)) ∧
      (∀ ω, Yields (TF.dropout p (m ω) (R ω) x rate false) d s f) ∧
      (∀ c b, s.Valid c b → (∀ ω, out ω c b = 0 ∨ out ω c b = f c b / (1 - rate)) ∧
        (f c b ≠ 0 → μ.real {ω | out ω c b = 0} = rate)) ∧
      HasMoments μ s out f (fun c b => f c b ^ 2 * (rate / (1 - rate))) ∧ AllIndep μ s out := by
  obtain ⟨r1, r2, r3⟩ := rate_ok h0 h1
  have hne : 1 - rate ≠ 0 := by linarith
  refine ⟨fun ω c b => f c b * (1 / (1 - rate)) * (if (R ω).coin (1 - rate) (s.offset c b) = true then (1 : ℝ) else 0),
    fun ω => C46_dropout (fun u v => mul_comm (G := ℝ) u v) hx p (m ω) (R ω) r1 r2 r3,
    fun ω => (C46_dropout_identity (fun u => mul_one (M := ℝ) u) hx p (m ω) (R ω) rate 0).1,
    fun c b _ => ⟨fun ω => ?_, fun hf => ?_⟩, fun c b _ => dropout_moments (hR.meas _) (hR.prob _) h1 _, ?_⟩
  · show f c b * (1 / (1 - rate)) * (if (R ω).coin (1 - rate) (s.offset c b) = true then (1 : ℝ) else 0) = 0 ∨ _
    by_cases e : (R ω).coin (1 - rate) (s.offset c b) = true
    · right
      show f c b * (1 / (1 - rate)) * (if (R ω).coin (1 - rate) (s.offset c b) = true then (1 : ℝ) else 0) = _
      rw [if_pos e]; ring
    · left; rw [if_neg e]; ring
  · have e : {ω | f c b * (1 / (1 - rate)) * (if (R ω).coin (1 - rate) (s.offset c b) = true then (1 : ℝ) else 0) = 0} =
        {ω | (R ω).coin (1 - rate) (s.offset c b) = true}ᶜ := by
      ext ω
      simp only [Set.mem_ofPred_eq, Set.mem_compl_iff]
      split_ifs with h
      · simp [hf, hne, h]
      · simp [h]
    rw [e, probReal_compl_eq_one_sub (coin_set (hR.meas (s.offset c b))), hR.prob]
    ring
  · exact (hR.indep.precomp (offset_injective hx.wf)).comp (fun q u => f q.1.1 q.1.2 * (1 / (1 - rate)) * (if u = true then (1 : ℝ) else 0))
      fun q => keep_measurable _

/-- C79: `dropout_dim` has the same means and variances.  The elements that differ only in their position on the axis are kept or dropped together;
positions that pairwise differ elsewhere are independent. -/
theorem C79_dropout_dim (hx : x.Holds d s f) {dim : Nat} (hd : dim < 8) (p : Profile) (m : Ω → Mem ℝ) {rate : ℝ} (h0 : 0 ≤ rate) (h1 : rate < 1)
    (R : Ω → Rng ℝ) (hR : CoinLaw μ (fun i ω => (R ω).coin (1 - rate) i) (1 - rate)) :
    ∃ out : Ω → Arr ℝ, (∀ ω, Yields (TF.dropoutDim p (m ω) (R ω) x dim rate true) d s (out ω)) ∧
      (∀ ω c b, s.Valid c b → (∀ j, j < s.get dim → out ω (cset c dim j) b = 0) ∨
        ∀ j, j < s.get dim → out ω (cset c dim j) b = f (cset c dim j) b / (1 - rate)) ∧
      (∀ c b, s.Valid c b → f c b ≠ 0 → μ.real {ω | out ω c b = 0} = rate) ∧
      HasMoments μ s out f (fun c b => f c b ^ 2 * (rate / (1 - rate))) ∧
      ∀ (ι : Type) (c : ι → Nat → Nat) (b : ι → Nat), (∀ i, s.Valid (c i) (b i)) →
        (∀ i j, b i = b j → (∀ k, k ≠ dim → c i k = c j k) → i = j) → iIndepFun (fun i ω => out ω (c i) (b i)) μ := by
  obtain ⟨r1, r2, r3⟩ := rate_ok h0 h1
  have hne : 1 - rate ≠ 0 := by linarith
  obtain ⟨s1, hs1⟩ := Shape.exists_is_cset hx.wf hd (le_refl 1) (lt_of_le_of_lt (volN_le (g := s.get) fun i _ => by
    unfold cset; split
    · exact hx.wf.get_pos i
    · exact le_refl _) (by rw [← hx.wf.vol]; exact hx.wf.vol_lt))
  have hval : ∀ c b, s.Valid c b → s1.Valid (cset c dim 0) b := fun c b h => by
    refine ⟨fun k => ?_, by rw [hs1.2.2]; exact h.2⟩
    rw [hs1.2.1]
    unfold cset
    split
    · exact Nat.one_pos
    · exact h.1 k
  have hy : ∀ ω, Yields (TF.dropoutDim p (m ω) (R ω) x dim rate true) d s (fun c b => f c b * (1 / (1 - rate)) *
      (if (R ω).coin (1 - rate) (s1.offset (cset c dim 0) b) = true then (1 : ℝ) else 0)) := fun ω => by
    obtain ⟨coin, -, ⟨s2, hs2, hc⟩, hy⟩ := C46_dropout_dim (fun u v => mul_comm (G := ℝ) u v) hx hd p (m ω) (R ω) r1 r2 r3
    have : s2 = s1 := hs2.unique hs1
    subst this
    exact hy.congr fun c b _ => by rw [hc c b]
  refine ⟨_, hy, fun ω c b _ => ?_, fun c b _ hf => ?_, fun c b _ => dropout_moments (hR.meas _) (hR.prob _) h1 _, fun ι c b hv hinj => ?_⟩
  · cases e : (R ω).coin (1 - rate) (s1.offset (cset c dim 0) b) with
    | false => left; intro j _; simp [cset_cset, e]
    | true => right; intro j _; simp only [cset_cset, e, if_true]; ring
  · have e : {ω | f c b * (1 / (1 - rate)) * (if (R ω).coin (1 - rate) (s1.offset (cset c dim 0) b) = true then (1 : ℝ) else 0) = 0} =
        {ω | (R ω).coin (1 - rate) (s1.offset (cset c dim 0) b) = true}ᶜ := by
      ext ω
      simp only [Set.mem_ofPred_eq, Set.mem_compl_iff]
      split_ifs with h
      · simp [hf, hne, h]
      · simp [h]
    rw [e, probReal_compl_eq_one_sub (coin_set (hR.meas _)), hR.prob]
    ring
  · have hi : Function.Injective (fun i => s1.offset (cset (c i) dim 0) (b i)) := fun i j e => by
      obtain ⟨e1, e2⟩ := hs1.1.offset_inj (hval _ _ (hv i)) (hval _ _ (hv j)) e
      refine hinj i j e1 fun k hk => ?_
      have := e2 k
      simpa [cset, hk] using this
    exact (hR.indep.precomp hi).comp (fun i u => f (c i) (b i) * (1 / (1 - rate)) * (if u = true then (1 : ℝ) else 0)) fun i => keep_measurable _

/-- C79: the elements of a random tensor are independent and each has the distribution that was asked for. -/
theorem C79_random (hs : s.WF) (hsz : s.size ≤ 2 ^ 31) (p : Profile) (d : Nat) (m : Ω → Nat → ℝ) (R : Ω → Rng ℝ) :
    (∀ q, 0 ≤ q → q ≤ 1 → CoinLaw μ (fun i ω => (R ω).coin q i) q →
      ∃ out : Ω → Arr ℝ, (∀ ω, Yields (Dev.randomBernoulli p d (m ω) (R ω) s q) d s (out ω)) ∧
        (∀ c b, s.Valid c b → (∀ ω, out ω c b = 0 ∨ out ω c b = 1) ∧ μ.real {ω | out ω c b = 1} = q) ∧
        HasMoments μ s out (fun _ _ => q) (fun _ _ => q * (1 - q)) ∧ AllIndep μ s out) ∧
    (∀ lo hi, lo < hi → UniformLaw μ (fun i ω => (R ω).uniform lo hi i) lo hi →
      ∃ out : Ω → Arr ℝ, (∀ ω, Yields (Dev.randomUniform p d (m ω) (R ω) s lo hi) d s (out ω)) ∧
        (∀ c b, s.Valid c b → pdf.IsUniform (fun ω => out ω c b) (Set.Ico lo hi) μ) ∧
        HasMoments μ s out (fun _ _ => (lo + hi) / 2) (fun _ _ => (hi - lo) ^ 2 / 12) ∧ AllIndep μ s out) ∧
    (∀ mean sd, 0 ≤ sd → NormalLaw μ (fun i ω => (R ω).normal mean sd i) mean sd →
      ∃ out : Ω → Arr ℝ, (∀ ω, Yields (Dev.randomNormal p d (m ω) (R ω) s mean sd) d s (out ω)) ∧
        (∀ c b, s.Valid c b → μ.map (fun ω => out ω c b) = gaussianReal mean (Real.toNNReal (sd ^ 2))) ∧
        HasMoments μ s out (fun _ _ => mean) (fun _ _ => sd ^ 2) ∧ AllIndep μ s out) := by
  refine ⟨fun q h0 h1 hR => ?_, fun lo hi h hR => ?_, fun mean sd h hR => ?_⟩
  · refine ⟨fun ω c b => if (R ω).coin q (s.offset c b) = true then 1 else 0,
      fun ω => (C52_random hs hsz p d (m ω) (R ω) 0 q).1 ⟨decide_eq_true h0, decide_eq_true h1⟩, fun c b _ => ⟨fun ω => ?_, ?_⟩,
      fun c b _ => ?_, ?_⟩
    · show (if (R ω).coin q (s.offset c b) = true then (1 : ℝ) else 0) = 0 ∨ _
      split_ifs with e
      · right; show (if (R ω).coin q (s.offset c b) = true then (1 : ℝ) else 0) = 1; rw [if_pos e]
      · left; rfl
    · refine Eq.trans (congrArg μ.real ?_) (hR.prob (s.offset c b))
      ext ω
      show (if (R ω).coin q (s.offset c b) = true then (1 : ℝ) else 0) = 1 ↔ (R ω).coin q (s.offset c b) = true
      split_ifs with e <;> simp [e]
    · have e : (fun ω => (1 : ℝ) * (if (R ω).coin q (s.offset c b) = true then (1 : ℝ) else 0)) =
          fun ω => if (R ω).coin q (s.offset c b) = true then (1 : ℝ) else 0 := by funext ω; rw [one_mul]
      have a1 := (keep_measurable 1).comp (hR.meas (s.offset c b))
      have a2 := coin_memLp (μ := μ) (hR.meas (s.offset c b)) 1
      have a3 := coin_mean (μ := μ) (hR.meas (s.offset c b)) 1
      have a4 := coin_variance (μ := μ) (hR.meas (s.offset c b)) 1
      simp only [Function.comp_def] at a1
      rw [e] at a1 a2 a3 a4
      rw [hR.prob, one_mul] at a3
      rw [hR.prob, one_pow, one_mul] at a4
      exact ⟨a1, a2, a3, a4⟩
    · exact (hR.indep.precomp (offset_injective hs)).comp (fun q u => if u = true then (1 : ℝ) else 0) fun q => measurable_of_countable _
  · exact ⟨fun ω c b => (R ω).uniform lo hi (s.offset c b), fun ω => (C52_random hs hsz p d (m ω) (R ω) lo hi).2.1 (decide_eq_true h),
      fun c b _ => hR.law _, fun c b _ => ⟨hR.meas _, uniform_memLp (hR.meas _) h (hR.law _), uniform_mean (hR.meas _) h (hR.law _),
        uniform_variance (hR.meas _) h (hR.law _)⟩, hR.indep.precomp (offset_injective hs)⟩
  · exact ⟨fun ω c b => (R ω).normal mean sd (s.offset c b), fun ω => (C52_random hs hsz p d (m ω) (R ω) mean sd).2.2 (decide_eq_true h),
      fun c b _ => hR.law _, fun c b _ => ⟨hR.meas _, normal_memLp (hR.meas _) (hR.law _), normal_mean (hR.meas _) (hR.law _),
        normal_variance (hR.meas _) (hR.law _)⟩, hR.indep.precomp (offset_injective hs)⟩

/-- The bound of Xavier initialization of a `rows × columns` matrix. -/
noncomputable def xavierLimit (scale : ℝ) (s : Shape) : ℝ := scale * Real.sqrt (6 / ((s.get 0 : ℝ) + s.get 1))

theorem xavierBound_eq (scale : ℝ) (s : Shape) : xavierBound scale s = xavierLimit scale s := by
  show scale * Real.sqrt (((6 : Int) : ℝ) / (((s.get 0 + s.get 1 : Nat) : Int) : ℝ)) = _
  push_cast; rfl

theorem xavierLimit_pos (hs : s.WF) {scale : ℝ} (h : 0 < scale) : 0 < xavierLimit scale s := by
  have h0 : (0 : ℝ) < s.get 0 := Nat.cast_pos.mpr (hs.get_pos 0)
  have h1 : (0 : ℝ) < s.get 1 := Nat.cast_pos.mpr (hs.get_pos 1)
  exact mul_pos h (Real.sqrt_pos.mpr (by positivity))

/-- C79: what initializers give: `Uniform`, `Normal`, and for `XavierUniform(scale)` of a matrix independent elements that are uniform between
`∓ scale · √(6 / (rows + columns))`, with mean 0 and variance `2 · scale² / (rows + columns)`. -/
theorem C79_initializer (hs : s.WF) (hsz : s.size ≤ 2 ^ 31) (p : Profile) (d : Nat) (m : Ω → Nat → ℝ) (R : Ω → Rng ℝ) :
    (∀ lo hi, lo < hi → UniformLaw μ (fun i ω => (R ω).uniform lo hi i) lo hi →
      ∃ out : Ω → Arr ℝ, (∀ ω, Yields ((Init.uniform lo hi).apply p (m ω) (R ω) (Tensor.new d s)) d s (out ω)) ∧
        (∀ c b, s.Valid c b → pdf.IsUniform (fun ω => out ω c b) (Set.Ico lo hi) μ) ∧
        HasMoments μ s out (fun _ _ => (lo + hi) / 2) (fun _ _ => (hi - lo) ^ 2 / 12) ∧ AllIndep μ s out) ∧
    (∀ mean sd, 0 ≤ sd → NormalLaw μ (fun i ω => (R ω).normal mean sd i) mean sd →
      ∃ out : Ω → Arr ℝ, (∀ ω, Yields ((Init.normal mean sd).apply p (m ω) (R ω) (Tensor.new d s)) d s (out ω)) ∧
        (∀ c b, s.Valid c b → μ.map (fun ω => out ω c b) = gaussianReal mean (Real.toNNReal (sd ^ 2))) ∧
        HasMoments μ s out (fun _ _ => mean) (fun _ _ => sd ^ 2) ∧ AllIndep μ s out) ∧
    (∀ scale, 0 < scale → (∀ i, 2 ≤ i → s.get i = 1) →
      UniformLaw μ (fun i ω => (R ω).uniform (-xavierLimit scale s) (xavierLimit scale s) i) (-xavierLimit scale s) (xavierLimit scale s) →
      ∃ out : Ω → Arr ℝ, (∀ ω, Yields ((Init.xavierUniform scale).apply p (m ω) (R ω) (Tensor.new d s)) d s (out ω)) ∧
        (∀ c b, s.Valid c b → pdf.IsUniform (fun ω => out ω c b) (Set.Ico (-xavierLimit scale s) (xavierLimit scale s)) μ) ∧
        HasMoments μ s out (fun _ _ => 0) (fun _ _ => 2 * scale ^ 2 / ((s.get 0 : ℝ) + s.get 1)) ∧ AllIndep μ s out) := by
  refine ⟨fun lo hi h hR => ?_, fun mean sd h hR => ?_, fun scale h hm hR => ?_⟩
  · exact ⟨fun ω c b => (R ω).uniform lo hi (s.offset c b),
      fun ω => C52_initializer hs hsz p d (m ω) (R ω) (.uniform lo hi) (decide_eq_true h),
      fun c b _ => hR.law _, fun c b _ => ⟨hR.meas _, uniform_memLp (hR.meas _) h (hR.law _), uniform_mean (hR.meas _) h (hR.law _),
        uniform_variance (hR.meas _) h (hR.law _)⟩, hR.indep.precomp (offset_injective hs)⟩
  · exact ⟨fun ω c b => (R ω).normal mean sd (s.offset c b),
      fun ω => C52_initializer hs hsz p d (m ω) (R ω) (.normal mean sd) (decide_eq_true h),
      fun c b _ => hR.law _, fun c b _ => ⟨hR.meas _, normal_memLp (hR.meas _) (hR.law _), normal_mean (hR.meas _) (hR.law _),
        normal_variance (hR.meas _) (hR.law _)⟩, hR.indep.precomp (offset_injective hs)⟩
  · have hb := xavierLimit_pos hs h
    have hlt : -xavierLimit scale s < xavierLimit scale s := by linarith
    refine ⟨fun ω c b => (R ω).uniform (-xavierLimit scale s) (xavierLimit scale s) (s.offset c b), fun ω => ?_,
      fun c b _ => hR.law _, fun c b _ => ⟨hR.meas _, uniform_memLp (hR.meas _) hlt (hR.law _), ?_, ?_⟩, hR.indep.precomp (offset_injective hs)⟩
    · refine (C52_initializer hs hsz p d (m ω) (R ω) (.xavierUniform scale) ((C52_xavier hs hm scale).1.mpr h)).congr fun c b _ => ?_
      show _ = (R ω).uniform (-xavierBound scale s) (xavierBound scale s) (s.offset c b)
      rw [xavierBound_eq]
    · rw [uniform_mean (hR.meas _) hlt (hR.law _)]
      ring
    · rw [uniform_variance (hR.meas _) hlt (hR.law _)]
      have h0 : (0 : ℝ) < s.get 0 := Nat.cast_pos.mpr (hs.get_pos 0)
      have h1 : (0 : ℝ) < s.get 1 := Nat.cast_pos.mpr (hs.get_pos 1)
      have : (xavierLimit scale s - -xavierLimit scale s) ^ 2 = 4 * scale ^ 2 * (6 / ((s.get 0 : ℝ) + s.get 1)) := by
        have := Real.sq_sqrt (show (0 : ℝ) ≤ 6 / ((s.get 0 : ℝ) + s.get 1) by positivity)
        unfold xavierLimit
        linear_combination 4 * scale ^ 2 * this
      rw [this]
      field_simp
      norm_num

/-- C79: a linear layer `W x` with `W` by `XavierUniform(scale)`: whatever the input, every element of the result has mean 0 and the variance
`2 · scale² / (rows + columns)` times the sum of the squares of the inputs. -/
theorem C79_linear_layer {sy : Shape} (hs : s.WF) (hsz : s.size ≤ 2 ^ 31) (p : Profile) (m m' : Ω → Nat → ℝ) (R : Ω → Rng ℝ) {scale : ℝ} (h : 0 < scale)
    (hR : UniformLaw μ (fun i ω => (R ω).uniform (-xavierLimit scale s) (xavierLimit scale s) i) (-xavierLimit scale s) (xavierLimit scale s))
    (hx : x.Holds d sy f) (hfit : MatFits s sy) (hb : s.batch = 1) (hv : s.get 0 * sy.get 1 < U32) (hz : s.get 0 * sy.get 1 * sy.batch ≤ 2 ^ 31) :
    ∃ (so : Shape) (out : Ω → Arr ℝ), so.Is (fun i => if i = 0 then s.get 0 else if i = 1 then sy.get 1 else 1) sy.batch ∧
      (∀ ω, Yields (do let w ← (Init.xavierUniform scale).apply p (m ω) (R ω) (Tensor.new d s); TF.matmul p (m' ω) w x) d so (out ω)) ∧
      HasMoments μ so out (fun _ _ => 0)
        (fun c b => 2 * scale ^ 2 / ((s.get 0 : ℝ) + s.get 1) * ∑ j ∈ Finset.range (s.get 1), f (mat j (c 1)) b ^ 2) := by
  obtain ⟨W, hW, -, hmom, hind⟩ := (C79_initializer (μ := μ) hs hsz p d m R).2.2 scale h hfit.1 hR
  have hmax : max s.batch sy.batch = sy.batch := by rw [hb]; exact max_eq_right hx.wf.batch_pos
  have hall : ∀ ω, ∃ so : Shape, so.Is (fun i => if i = 0 then s.get 0 else if i = 1 then sy.get 1 else 1) sy.batch ∧
      Yields (do let w ← (Init.xavierUniform scale).apply p (m ω) (R ω) (Tensor.new d s); TF.matmul p (m' ω) w x) d so
        (fun c b => ∑ j ∈ Finset.range (s.get 1), W ω (mat (c 0) j) 0 * f (mat j (c 1)) (bb sy b)) := fun ω => by
    obtain ⟨w, e, hw⟩ := hW ω
    obtain ⟨so, h1, h2⟩ := C24_matmul_sum (α := ℝ) (fun u v w => add_assoc (G := ℝ) u v w) (fun u => add_zero (M := ℝ) u) (fun u => zero_add (M := ℝ) u) hw hx hfit hv
      (by rw [hmax]; exact hz) p (m' ω)
    rw [hmax] at h1
    refine ⟨so, h1, ?_⟩
    rw [e, ok_bind]
    refine h2.congr fun c b _ => ?_
    rw [sumTo_real]
    refine Finset.sum_congr rfl fun j _ => ?_
    rw [show bb s b = 0 from if_pos hb]
  obtain ⟨ω0⟩ : Nonempty Ω := nonempty_of_isProbabilityMeasure μ
  obtain ⟨so, hso, -⟩ := hall ω0
  refine ⟨so, fun ω c b => ∑ j ∈ Finset.range (s.get 1), W ω (mat (c 0) j) 0 * f (mat j (c 1)) b, hso, fun ω => ?_, fun c b hcb => ?_⟩
  · obtain ⟨so', h1, h2⟩ := hall ω
    have : so' = so := h1.unique hso
    subst this
    refine h2.congr fun c b hcb => ?_
    have : bb sy b = b := by
      unfold bb
      split
      · have := hcb.2
        rw [h1.2.2] at this
        omega
      · rfl
    rw [this]
  · have hval : ∀ j, j < s.get 1 → s.Valid (mat (c 0) j) 0 := fun j hj => by
      refine ⟨fun k => ?_, by rw [hb]; exact Nat.one_pos⟩
      have hc := hcb.1 0
      rw [hso.2.1] at hc
      unfold mat
      split_ifs with k0 k1
      · subst k0; simpa using hc
      · subst k1; exact hj
      · exact hs.get_pos k
    have hterm : ∀ j ∈ Finset.range (s.get 1), MemLp (fun ω => W ω (mat (c 0) j) 0 * f (mat j (c 1)) b) 2 μ := fun j hj =>
      (hmom _ _ (hval j (Finset.mem_range.mp hj))).2.1.mul_const _
    have hsum : (fun ω => ∑ j ∈ Finset.range (s.get 1), W ω (mat (c 0) j) 0 * f (mat j (c 1)) b) =
        ∑ j ∈ Finset.range (s.get 1), fun ω => W ω (mat (c 0) j) 0 * f (mat j (c 1)) b := by
      funext ω
      rw [Finset.sum_apply]
    refine ⟨Finset.measurable_sum _ fun j hj => (hmom _ _ (hval j (Finset.mem_range.mp hj))).1.mul_const _, ?_, ?_, ?_⟩
    · exact memLp_finsetSum _ hterm
    · rw [integral_finsetSum _ fun j hj => (hterm j hj).integrable (by norm_num)]
      refine Finset.sum_eq_zero fun j hj => ?_
      rw [integral_mul_const, (hmom _ _ (hval j (Finset.mem_range.mp hj))).2.2.1, zero_mul]
    · rw [hsum, IndepFun.variance_sum hterm]
      · refine Eq.trans ?_ (Finset.mul_sum _ _ _).symm
        refine Finset.sum_congr rfl fun j hj => ?_
        rw [variance_mul_const, (hmom _ _ (hval j (Finset.mem_range.mp hj))).2.2.2]
      · intro i hi j hj hij
        have hne : (⟨(mat (c 0) i, 0), hval i (Finset.mem_range.mp hi)⟩ : {q : (Nat → Nat) × Nat // s.Valid q.1 q.2}) ≠
            ⟨(mat (c 0) j, 0), hval j (Finset.mem_range.mp hj)⟩ := fun e => hij (by
          have := congrFun (congrArg (fun q => q.1.1) e) 1
          simpa [mat] using this)
        exact (iIndepFun.indepFun hind hne).comp (measurable_mul_const (f (mat i (c 1)) b)) (measurable_mul_const (f (mat j (c 1)) b))

/-! ### Concrete cases -/

/-- Beside C79_dropout and C79_dropout_dim: fair coins exist; a 2×3 matrix of the value 3 in a minibatch of 4 loses half of its elements, has
expectation 3 and variance 9. -/
example (m : Mem ℝ) : ∃ (Ω : Type) (_ : MeasurableSpace Ω) (μ : Measure Ω) (R : Ω → Rng ℝ) (x : Tensor ℝ) (out : Ω → Arr ℝ),
    x.Holds 0 (matShape 2 3 4) (fun _ _ => 3) ∧ (∀ ω, Yields (TF.dropout .release m (R ω) x (1 / 2) true) 0 (matShape 2 3 4) (out ω)) ∧
    (∀ ω, ∃ out', Yields (TF.dropoutDim .release m (R ω) x 1 (1 / 2) true) 0 (matShape 2 3 4) out') ∧
    μ.real {ω | out ω (mat 1 2) 3 = 0} = 1 / 2 ∧ ∫ ω, out ω (mat 1 2) 3 ∂μ = 3 ∧ Var[fun ω => out ω (mat 1 2) 3; μ] = 9 := by
  obtain ⟨Ω, i, μ, X, hp, hX⟩ := exists_coinLaw (q := 1 - 1 / 2) (by norm_num) (by norm_num)
  have w : (matShape 2 3 4).WF := matShape_wf (n := 2) (m := 3) (b := 4) rfl
  obtain ⟨x, hx⟩ := exists_holds w (by decide) 0 (fun _ => (3 : ℝ))
  have hr0 : (0 : ℝ) ≤ 1 / 2 := by norm_num
  have hr1 : (1 : ℝ) / 2 < 1 := by norm_num
  obtain ⟨out, h1, -, h2, h3, -⟩ := C79_dropout (μ := μ) hx .release (fun _ => m) hr0 hr1 (fun ω => ⟨fun _ i => X i ω, fun _ _ _ => 0, fun _ _ _ => 0⟩) hX
  obtain ⟨out', h1', -⟩ := C79_dropout_dim (μ := μ) hx (dim := 1) (by decide) .release (fun _ => m) hr0 hr1
    (fun ω => ⟨fun _ i => X i ω, fun _ _ _ => 0, fun _ _ _ => 0⟩) hX
  have hv : (matShape 2 3 4).Valid (mat 1 2) 3 := by
    refine ⟨fun k => ?_, by decide⟩
    match k with
    | 0 => decide
    | 1 => decide
    | k + 2 => exact w.get_pos (k + 2)
  obtain ⟨-, -, e1, e2⟩ := h3 _ _ hv
  refine ⟨Ω, i, μ, _, x, out, hx, h1, fun ω => ⟨_, h1' ω⟩, (h2 _ _ hv).2 (by norm_num), e1, ?_⟩
  rw [e2]
  norm_num

/-- Beside C79_random, C79_initializer and C79_linear_layer: a standard normal 2×3 tensor, and a layer with a 2×3 matrix by `XavierUniform(1)`
applied to a minibatch of 4 vectors with all elements 1: the variance of every result is `2 / 5 · 3`. -/
example (m : Nat → ℝ) : ∃ (Ω Ω' : Type) (_ : MeasurableSpace Ω) (_ : MeasurableSpace Ω') (μ : Measure Ω) (μ' : Measure Ω') (R : Ω → Rng ℝ) (R' : Ω' → Rng ℝ)
    (out : Ω → Arr ℝ) (x : Tensor ℝ) (so : Shape) (out' : Ω' → Arr ℝ),
    (∀ ω, Yields (Dev.randomNormal .release 0 m (R ω) (matShape 2 3 4) 0 1) 0 (matShape 2 3 4) (out ω)) ∧
    Var[fun ω => out ω (mat 1 2) 3; μ] = 1 ∧ AllIndep μ (matShape 2 3 4) out ∧
    x.Holds 0 (matShape 3 1 4) (fun _ _ => 1) ∧
    (∀ ω, Yields (do let w ← (Init.xavierUniform 1).apply .release m (R' ω) (Tensor.new 0 (matShape 2 3 1)); TF.matmul .release m w x) 0 so (out' ω)) ∧
    so.Valid (mat 1 0) 3 ∧ ∫ ω, out' ω (mat 1 0) 3 ∂μ' = 0 ∧ Var[fun ω => out' ω (mat 1 0) 3; μ'] = 6 / 5 := by
  have w4 : (matShape 2 3 4).WF := matShape_wf (n := 2) (m := 3) (b := 4) rfl
  have w1 : (matShape 2 3 1).WF := matShape_wf (n := 2) (m := 3) (b := 1) rfl
  have wx : (matShape 3 1 4).WF := matShape_wf (n := 3) (m := 1) (b := 4) rfl
  obtain ⟨Ω, i, μ, X, hp, hX⟩ := exists_normalLaw 0 1
  obtain ⟨out, a1, -, a3, a4⟩ := (C79_random (μ := μ) w4 (by decide) .release 0 (fun _ => m)
    (fun ω => ⟨fun _ _ => true, fun _ _ _ => 0, fun _ _ i => X i ω⟩)).2.2 0 1 zero_le_one hX
  have hL := xavierLimit_pos w1 (scale := 1) one_pos
  obtain ⟨Ω', i', μ', X', hp', hX'⟩ := exists_uniformLaw (a := -xavierLimit 1 (matShape 2 3 1)) (b := xavierLimit 1 (matShape 2 3 1)) (by linarith)
  obtain ⟨x, hx⟩ := exists_holds wx (by decide) 0 (fun _ => (1 : ℝ))
  have hfit : MatFits (matShape 2 3 1) (matShape 3 1 4) := ⟨w1.isMatrix_iff.mp rfl, wx.isMatrix_iff.mp rfl, rfl, by unfold BatchCompat; decide⟩
  obtain ⟨so, out', b0, b1, b2⟩ := C79_linear_layer (μ := μ') w1 (by decide) .release (fun _ => m) (fun _ => m)
    (fun ω => ⟨fun _ _ => true, fun _ _ i => X' i ω, fun _ _ _ => 0⟩) one_pos hX' hx hfit rfl (by decide) (by decide)
  have hv : (matShape 2 3 4).Valid (mat 1 2) 3 := by
    refine ⟨fun k => ?_, by decide⟩
    match k with
    | 0 => decide
    | 1 => decide
    | k + 2 => exact w4.get_pos (k + 2)
  have hvo : so.Valid (mat 1 0) 3 := by
    refine ⟨fun k => ?_, by rw [b0.2.2]; decide⟩
    rw [b0.2.1]
    match k with
    | 0 => decide
    | 1 => decide
    | k + 2 => exact Nat.one_pos
  obtain ⟨-, -, -, e⟩ := a3 _ _ hv
  obtain ⟨-, -, e1, e2⟩ := b2 _ _ hvo
  refine ⟨Ω, Ω', i, i', μ, μ', _, _, out, x, so, out', a1, ?_, a4, hx, b1, hvo, e1, ?_⟩
  · rw [e]; norm_num
  · rw [e2, show (matShape 2 3 1).get 0 = 2 from rfl, show (matShape 2 3 1).get 1 = 3 from rfl]
    norm_num

end Verif
