import Verif.ContribLemmas
import Verif.PropsOpt2
import Verif.RealInst

/-!
# Property C52: random tensors, initializers and new parameters
-/

set_option linter.unusedSectionVars false

namespace Verif
open Res
variable {α : Type} [Flt α] {d : Nat} {s : Shape}

/-- The bound of `XavierUniform`. -/
def xavierBound (scale : α) (s : Shape) : α := scale * Flt.sqrt (Flt.ofInt 6 / Flt.ofInt ((s.get 0 + s.get 1 : Nat) : Int))

/-- What an initializer writes: the constant, or at every position the sample with the number of that position. -/
def Init.values (r : Rng α) (s : Shape) : Init α → Nat → α
  | .constant k => fun _ => k
  | .normal mean sd => fun i => r.normal mean sd i
  | .uniform lower upper => fun i => r.uniform lower upper i
  | .xavierUniform scale => fun i => r.uniform (-xavierBound scale s) (xavierBound scale s) i

/-- The arguments an initializer accepts. -/
def Init.Accepts (s : Shape) : Init α → Prop
  | .constant _ => True
  | .normal _ sd => Flt.le 0 sd = true
  | .uniform lower upper => Flt.gt upper lower = true
  | .xavierUniform scale => (∀ i, 2 ≤ i → s.get i = 1) ∧ Flt.gt (xavierBound scale s) (-xavierBound scale s) = true

/-- C52: the random tensor functions set every element to its own sample, whatever the memory contained. -/
theorem C52_random (hs : s.WF) (hsz : s.size ≤ 2 ^ 31) (p : Profile) (d : Nat) (m : Nat → α) (r : Rng α) (a k : α) :
    (Flt.le 0 k = true ∧ Flt.le k 1 = true → Yields (Dev.randomBernoulli p d m r s k) d s (fun c b => if r.coin k (s.offset c b) then 1 else 0)) ∧
    (Flt.gt k a = true → Yields (Dev.randomUniform p d m r s a k) d s (fun c b => r.uniform a k (s.offset c b))) ∧
    (Flt.le 0 k = true → Yields (Dev.randomNormal p d m r s a k) d s (fun c b => r.normal a k (s.offset c b))) :=
  ⟨fun h => Dev.randomBernoulli_ok hs hsz p d m r h.1 h.2, fun h => Dev.randomUniform_ok hs hsz p d m r h,
    fun h => Dev.randomNormal_ok hs hsz p d m r h⟩

/-- C52: … and panic on the arguments that the distributions refuse: a probability outside [0, 1], an empty range, a negative deviation. -/
theorem C52_random_panics (hs : s.WF) (hsz : s.size ≤ 2 ^ 31) (p : Profile) (d : Nat) (m : Nat → α) (r : Rng α) (a k : α) :
    (¬ (Flt.le 0 k = true ∧ Flt.le k 1 = true) → Dev.randomBernoulli p d m r s k = panic) ∧
    (Flt.gt k a = false → Dev.randomUniform p d m r s a k = panic) ∧
    (Flt.le 0 k = false → Dev.randomNormal p d m r s a k = panic) := Dev.random_panics hs hsz p d m r a k

/-- The two extents of a matrix can be added: only their sum is computed. -/
theorem fans_ok (hs : s.WF) (hsz : s.size ≤ 2 ^ 31) (p : Profile) (hm : ∀ i, 2 ≤ i → s.get i = 1) : fans p s = ok (s.get 0 + s.get 1) := by
  have hv : s.get 0 * s.get 1 ≤ s.size := by
    have h1 : s.volume = s.get 0 * s.get 1 := by
      rw [hs.vol]
      simp only [volN]
      simp [hm 2, hm 3, hm 4, hm 5, hm 6, hm 7]
    unfold Shape.size
    rw [h1]
    exact Nat.le_mul_of_pos_left _ hs.batch_pos
  have h0 := hs.get_pos 0
  have h1 := hs.get_pos 1
  have : s.get 0 + s.get 1 ≤ s.get 0 * s.get 1 + 1 := by
    obtain ⟨a, ha⟩ : ∃ a, s.get 0 = a + 1 := ⟨s.get 0 - 1, by omega⟩
    obtain ⟨b, hb⟩ : ∃ b, s.get 1 = b + 1 := ⟨s.get 1 - 1, by omega⟩
    rw [ha, hb]; nlinarith [Nat.zero_le (a * b)]
  have hlt : s.get 0 + s.get 1 < U32 := by unfold U32; omega
  exact Shape.u32_ok hlt

theorem mat_true (hs : s.WF) (hm : ∀ i, 2 ≤ i → s.get i = 1) : check (s.isMatrix = true) = ok () := by
  simp [check, hs.isMatrix_iff.mpr hm]

theorem mat_false (hs : s.WF) (hm : ¬ ∀ i, 2 ≤ i → s.get i = 1) : check (s.isMatrix = true) = panic := by
  have : ¬ s.isMatrix = true := fun h => hm (hs.isMatrix_iff.mp h)
  simp [check, this]

theorem xavier_new (p : Profile) (d : Nat) (m : Nat → α) (r : Rng α) (scale : α) : (Init.xavierUniform scale).apply p m r (Tensor.new d s) =
    (check (s.isMatrix = true) >>= fun _ => fans p s >>= fun n =>
      Dev.randomUniform p d m r s (-(scale * Flt.sqrt (Flt.ofInt 6 / Flt.ofInt n))) (scale * Flt.sqrt (Flt.ofInt 6 / Flt.ofInt n)) >>= fun t =>
      (Tensor.new d s).replace t) := rfl

theorem reset_new (hs : s.WF) (hsz : s.size ≤ 2 ^ 31) (p : Profile) (d : Nat) (m : Nat → α) (k : α) :
    Yields (do let x ← (Tensor.new d s : Tensor α).alloc p m; x.reset p k) d s (fun _ _ => k) := by
  obtain ⟨t, e, hr⟩ := Tensor.alloc_new hs hsz p d m
  obtain ⟨y, e2, hy⟩ := Dev.newByConstant_ok hs hsz p d m k
  refine ⟨y, ?_, hy⟩
  unfold Dev.newByConstant at e2
  rw [e, ok_bind] at e2 ⊢
  rw [← e2]
  simp only [Tensor.reset, Tensor.dev, hr.device, unwrap, ok_bind]

/-- C52: an initializer applied to a new tensor gives it the values of its distribution. -/
theorem C52_initializer (hs : s.WF) (hsz : s.size ≤ 2 ^ 31) (p : Profile) (d : Nat) (m : Nat → α) (r : Rng α) (i : Init α) (h : i.Accepts s) :
    Yields (i.apply p m r (Tensor.new d s)) d s (fun c b => i.values r s (s.offset c b)) := by
  cases i with
  | constant k => exact reset_new hs hsz p d m k
  | normal a b =>
    obtain ⟨t, e, ht⟩ := Dev.randomNormal_ok hs hsz p d m r (a := a) h
    refine ⟨_, ?_, (replace_new ht).2⟩
    simp only [Init.apply, Tensor.dev, Tensor.new, unwrap, ok_bind, e]
    exact (replace_new ht).1
  | uniform a b =>
    obtain ⟨t, e, ht⟩ := Dev.randomUniform_ok hs hsz p d m r h
    refine ⟨_, ?_, (replace_new ht).2⟩
    simp only [Init.apply, Tensor.dev, Tensor.new, unwrap, ok_bind, e]
    exact (replace_new ht).1
  | xavierUniform scale =>
    obtain ⟨t, e, ht⟩ := Dev.randomUniform_ok hs hsz p d m r h.2
    refine ⟨_, ?_, (replace_new ht).2⟩
    unfold xavierBound at e
    rw [xavier_new, mat_true hs h.1, ok_bind, fans_ok hs hsz p h.1, ok_bind, e, ok_bind]
    exact (replace_new ht).1

/-- C52: an initializer panics on arguments that it does not accept. -/
theorem C52_initializer_panics (hs : s.WF) (hsz : s.size ≤ 2 ^ 31) (p : Profile) (d : Nat) (m : Nat → α) (r : Rng α) (i : Init α)
    (h : ¬ i.Accepts s) : i.apply p m r (Tensor.new d s) = panic := by
  cases i with
  | constant k => exact absurd trivial h
  | normal a b =>
    have h' : Flt.le 0 b = false := by simpa [Init.Accepts] using h
    simp only [Init.apply, Tensor.dev, Tensor.new, unwrap, ok_bind, (Dev.random_panics hs hsz p d m r a b).2.2 h']
    rfl
  | uniform a b =>
    have h' : Flt.gt b a = false := by simpa [Init.Accepts] using h
    simp only [Init.apply, Tensor.dev, Tensor.new, unwrap, ok_bind, (Dev.random_panics hs hsz p d m r a b).2.1 h']
    rfl
  | xavierUniform scale =>
    by_cases hm : ∀ i, 2 ≤ i → s.get i = 1
    · have h' : Flt.gt (xavierBound scale s) (-xavierBound scale s) = false := by
        cases e : Flt.gt (xavierBound scale s) (-xavierBound scale s)
        · rfl
        · exact absurd ⟨hm, e⟩ h
      have e := (Dev.random_panics hs hsz p d m r (-xavierBound scale s) (xavierBound scale s)).2.1 h'
      unfold xavierBound at e
      rw [xavier_new, mat_true hs hm, ok_bind, fans_ok hs hsz p hm, ok_bind, e]
      rfl
    · rw [xavier_new, mat_false hs hm]
      rfl

/-- C52: initializers are for new tensors: applied to a tensor that has memory, all of them panic. -/
theorem C52_initializer_once {x : Tensor α} {f : Arr α} (hx : x.Holds d s f) (p : Profile) (m : Nat → α) (r : Rng α) (i : Init α) :
    i.apply p m r x = Res.panic := by
  have hv : x.valid = true := by
    obtain ⟨l, hl, _⟩ := hx.buf
    simp [Tensor.valid, hl]
  have hrep : ∀ t : Tensor α, x.replace t = Res.panic := fun t => by
    unfold Tensor.replace
    by_cases h : x.device = t.device
    · rw [check_true _ h, ok_bind, check_false _ (by rw [hv]; decide)]; rfl
    · rw [check_false _ h]; rfl
  have hrand : ∀ (fill : Res (Nat → α)) (_ : fill = Res.panic ∨ ∃ g, fill = ok g),
      (do let t ← (do let y ← (Tensor.new d s : Tensor α).alloc p m; K.random fill p y); x.replace t) = Res.panic := by
    intro fill hf
    rcases hf with rfl | ⟨g, rfl⟩
    · rw [random_new_panic hx.wf hx.small p d m]; rfl
    · obtain ⟨y, e, _⟩ := random_new hx.wf hx.small p d m g
      rw [e, ok_bind, hrep]
  have hck : ∀ (P : Prop) [Decidable P] (g : Nat → α), (check P >>= fun _ => ok g) = Res.panic ∨ ∃ g', (check P >>= fun _ => ok g) = ok g' := by
    intro P _ g
    by_cases h : P
    · rw [check_true _ h]; exact .inr ⟨g, rfl⟩
    · rw [check_false _ h]; exact .inl rfl
  cases i with
  | constant k =>
    unfold Init.apply Tensor.alloc
    rw [check_false _ (by rw [hv]; decide)]
    rfl
  | normal a b =>
    simp only [Init.apply, Tensor.dev, hx.device, unwrap, ok_bind, hx.shape]
    exact hrand _ (hck _ _)
  | uniform a b =>
    simp only [Init.apply, Tensor.dev, hx.device, unwrap, ok_bind, hx.shape]
    exact hrand _ (hck _ _)
  | xavierUniform scale =>
    by_cases hm : ∀ i, 2 ≤ i → s.get i = 1
    · simp only [Init.apply, Tensor.dev, hx.device, unwrap, ok_bind, hx.shape, fans_ok hx.wf hx.small p hm, mat_true hx.wf hm]
      exact hrand _ (hck _ _)
    · simp only [Init.apply, hx.shape, mat_false hx.wf hm]
      rfl

/-- C52: `Device::new_parameter` gives a parameter with the values of the initializer, zero gradients and no statistics. -/
theorem C52_new_parameter (hs : s.WF) (hsz : s.size ≤ 2 ^ 31) (hb : s.batch = 1) (p : Profile) (d : Nat) (m : Mem α) (r : Rng α) (i : Init α)
    (h : i.Accepts s) : ∃ q, Dev.newParameter p d m r s i = ok q ∧
      q.Is d ⟨s, fun c b => i.values r s (s.offset c b), fun _ _ => 0, fun _ => none⟩ := by
  obtain ⟨v, e, hv⟩ := C52_initializer hs hsz p d (m 0) r i h
  obtain ⟨g, e', hg⟩ := reset_new hs hsz p d (m 1) (0 : α)
  refine ⟨⟨v, g, []⟩, ?_, hb, hv, hg, fun _ _ => rfl, List.nodup_nil, fun _ _ _ h => by cases h⟩
  unfold Dev.newParameter
  simp only [e, ok_bind]
  rw [← Res.bind_assoc, e', ok_bind]
  unfold Param.new
  rw [hv.shape, hg.shape, check_true _ hb, ok_bind]
  rfl

/-- C52: parameters have no batch: `new_parameter` panics on every other shape. -/
theorem C52_new_parameter_batch (hs : s.WF) (hsz : s.size ≤ 2 ^ 31) (hb : s.batch ≠ 1) (p : Profile) (d : Nat) (m : Mem α) (r : Rng α) (i : Init α) :
    Dev.newParameter p d m r s i = panic := by
  by_cases h : i.Accepts s
  · obtain ⟨v, e, hv⟩ := C52_initializer hs hsz p d (m 0) r i h
    obtain ⟨g, e', hg⟩ := reset_new hs hsz p d (m 1) (0 : α)
    unfold Dev.newParameter
    simp only [e, ok_bind]
    rw [← Res.bind_assoc, e', ok_bind]
    unfold Param.new
    rw [hv.shape, check_false _ hb]
    rfl
  · unfold Dev.newParameter
    simp only [C52_initializer_panics hs hsz p d (m 0) r i h]
    rfl

section Real
attribute [local instance] realFlt

/-- C52 over the reals: for a matrix `XavierUniform` accepts exactly the positive scales (scale 0 panics), and if the sampler respects its range
all values lie within `scale · √(6 / (rows + columns))` of 0. -/
theorem C52_xavier (hs : s.WF) (hm : ∀ i, 2 ≤ i → s.get i = 1) (scale : ℝ) :
    ((Init.xavierUniform scale).Accepts s ↔ 0 < scale) ∧
    (∀ r : Rng ℝ, (∀ a b i, a < b → a ≤ r.uniform a b i ∧ r.uniform a b i < b) → 0 < scale →
      ∀ i, |(Init.xavierUniform scale).values r s i| ≤ scale * Real.sqrt (6 / (s.get 0 + s.get 1))) := by
  have hb : xavierBound scale s = scale * Real.sqrt (6 / (s.get 0 + s.get 1)) := by
    show scale * Real.sqrt (((6 : Int) : ℝ) / (((s.get 0 + s.get 1 : Nat) : Int) : ℝ)) = _
    push_cast; rfl
  have hq : 0 < Real.sqrt (6 / (s.get 0 + s.get 1)) := by
    apply Real.sqrt_pos.mpr
    have : (0 : ℝ) < s.get 0 := Nat.cast_pos.mpr (hs.get_pos 0)
    positivity
  constructor
  · show (_ ∧ decide (-xavierBound scale s < xavierBound scale s) = true) ↔ _
    rw [decide_eq_true_iff, hb]
    constructor
    · rintro ⟨_, h⟩
      by_contra hn
      have : scale * Real.sqrt (6 / (s.get 0 + s.get 1)) ≤ 0 := mul_nonpos_of_nonpos_of_nonneg (not_lt.mp hn) hq.le
      linarith
    · intro h
      have := mul_pos h hq
      exact ⟨hm, by linarith⟩
  · intro r hr h i
    have h0 := mul_pos h hq
    have := hr (-xavierBound scale s) (xavierBound scale s) i (by rw [hb]; linarith)
    rw [hb] at this
    show |r.uniform (-xavierBound scale s) (xavierBound scale s) i| ≤ _
    rw [hb]
    exact abs_le.mpr ⟨this.1, this.2.le⟩

/-- Beside the theorems: a 2×3 parameter by `XavierUniform(1)`, and a new optimizer statistic-free parameter of zeros. -/
example (r : Rng ℝ) (m : Mem ℝ) : ∃ q q' : Param ℝ, Dev.newParameter .debug 0 m r (matShape 2 3 1) (.xavierUniform 1) = ok q ∧
    Dev.newParameter .debug 0 m r (matShape 2 3 1) (.constant 0) = ok q' ∧
    Dev.newParameter .debug 0 m r (matShape 2 3 2) (.constant 0) = panic ∧
    Dev.newParameter .debug 0 m r (matShape 2 3 1) (.xavierUniform 0) = panic := by
  have w : (matShape 2 3 1).WF := matShape_wf (n := 2) (m := 3) (b := 1) rfl
  have w2 : (matShape 2 3 2).WF := matShape_wf (n := 2) (m := 3) (b := 2) rfl
  have hm : ∀ i, 2 ≤ i → (matShape 2 3 1).get i = 1 := w.isMatrix_iff.mp rfl
  obtain ⟨q, e, _⟩ := C52_new_parameter w (by decide) rfl .debug 0 m r (.xavierUniform 1) ((C52_xavier w hm 1).1.mpr one_pos)
  obtain ⟨q', e', _⟩ := C52_new_parameter w (by decide) rfl .debug 0 m r (.constant 0) trivial
  refine ⟨q, q', e, e', C52_new_parameter_batch w2 (by decide) (by decide) _ _ _ _ _, ?_⟩
  unfold Dev.newParameter
  simp only [C52_initializer_panics w (by decide) .debug 0 (m 0) r (.xavierUniform 0) (fun h => lt_irrefl _ ((C52_xavier w hm 0).1.mp h))]
  rfl

end Real
end Verif
