import Verif.Whole
import Verif.PropsSerde

/-!
# C85: rounding errors of whole programs; C86: whole numbers are computed exactly
-/

set_option linter.unusedSectionVars false

namespace Verif
open Res

attribute [local instance] realFlt

/-- The inputs of the three runs: an f32 tensor, its numbers, and what is known about them. -/
def Inputs {γ : Type} (d : Nat) (know : Fl f32 → γ) (x : Tensor (Fl f32)) (y : Tensor ℝ) (z : Tensor γ) : Prop :=
  ∃ (s : Shape) (f : Arr (Fl f32)), x.Holds d s f ∧ y.Holds d s (fun c b => (f c b).val) ∧ z.Holds d s (fun c b => know (f c b))

theorem Inputs.three {γ : Type} {d : Nat} {know : Fl f32 → γ} {R : Fl f32 → ℝ → γ → Prop} (hR : ∀ k, R k k.val (know k))
    {xs : List (Tensor (Fl f32))} {ys : List (Tensor ℝ)} {zs : List (Tensor γ)} (h : Forall₃ (Inputs d know) xs ys zs) :
    Forall₃ (Three R d) xs ys zs := by
  induction h with
  | nil => exact .nil
  | cons h _ ih =>
    obtain ⟨s, f, h1, h2, h3⟩ := h
    exact .cons ⟨s, f, _, _, h1, h2, h3, fun c b => hR _⟩ ih

theorem Forall₃.imp {A B C : Type} {R S : A → B → C → Prop} {l : List A} {m : List B} {n : List C} (h : Forall₃ R l m n)
    (hi : ∀ x y z, R x y z → S x y z) : Forall₃ S l m n := by
  induction h with
  | nil => exact .nil
  | cons h _ ih => exact .cons (hi _ _ _ h) ih

section
variable [E : Ieee] {d : Nat} {p p' : Profile}

/-- C85: rounding errors.  A program of calls of `+`, `-`, `*`, `/`, `neg`, `abs`, `tanh`, `sigmoid`, `relu`, `lrelu`, `prelu`, `matmul`,
`sum`, `mean`, `batch_sum`, `batch_mean`, `slice_sum` and the functions that move elements, run in f32 on any tensors.  If it returns, then
the same program run on the exact numbers returns, the same program run on bounds returns, and every element of every intermediate result and
result for which there is a bound is a finite number that deviates from the exact one by at most the bound. -/
theorem C85_error {ε : ℝ} (hL : E.libm32.Accurate ε) (prog : List (Calc (Fl f32))) (hp : ∀ c ∈ prog, c.NoMax) {xs : List (Tensor (Fl f32))}
    {ys : List (Tensor ℝ)} {zs : List (Tensor (Option Bound))} (h : Forall₃ (Inputs d Bound.float) xs ys zs) (m : Nat → Mem (Fl f32))
    (m' : Nat → Mem ℝ) (m'' : Nat → Mem (Option Bound)) {out : List (Tensor (Fl f32))} (hr : runCalc .debug id m prog xs = ok out) :
    ∃ exact bounds, runCalc p Fl.val m' prog ys = ok exact ∧ @runCalc _ _ (boundFlt ε) p' Bound.float m'' prog zs = ok bounds ∧
      Forall₃ (fun x y z => ∃ (s : Shape) (f : Arr (Fl f32)) (g : Arr ℝ) (h : Arr (Option Bound)), x.Holds d s f ∧ y.Holds d s g ∧ z.Holds d s h ∧
        ∀ c b, s.Valid c b → ∀ t, h c b = some t → t.Holds (f c b) (g c b)) out exact bounds := by
  let _ := boundFlt ε
  obtain ⟨ex, bo, h1, h2, h3⟩ := runCalc_three (p := p) (p' := p') (bounds_right hL) (ι := id) (ι' := Fl.val) (ι'' := Bound.float) close_float prog
    (fun c hc => .inl (hp c hc)) (Inputs.three close_float h) m m' m'' out hr
  refine ⟨ex, bo, h1, h2, h3.imp fun x y z ⟨s, f, g, h, q1, q2, q3, q4⟩ => ⟨s, f, g, h, q1, q2, q3, fun c b _ t ht => ?_⟩⟩
  obtain ⟨⟨w, e1, e2, _⟩, _⟩ := q4 c b t ht
  exact ⟨w, e1, e2⟩

/-- C86: whole numbers.  A program as in C85, with `max`, on tensors of whole numbers: as long as the magnitudes (the same program run on
magnitudes, with all subtractions turned into additions) do not exceed 2^24, f32 arithmetic gives exactly the numbers that exact arithmetic
gives: no rounding happens, and no result depends on the order of summation. -/
theorem C86_whole (prog : List (Calc (Fl f32))) {xs : List (Tensor (Fl f32))} {ys : List (Tensor ℝ)} {zs : List (Tensor (Option ℕ))}
    (h : Forall₃ (Inputs d wholeOf) xs ys zs) (m : Nat → Mem (Fl f32)) (m' : Nat → Mem ℝ) (m'' : Nat → Mem (Option ℕ))
    {out : List (Tensor (Fl f32))} (hr : runCalc .debug id m prog xs = ok out) :
    ∃ exact bounds, runCalc p Fl.val m' prog ys = ok exact ∧ @runCalc _ _ wholeFlt p' wholeOf m'' prog zs = ok bounds ∧
      Forall₃ (fun x y z => ∃ (s : Shape) (f : Arr (Fl f32)) (g : Arr ℝ) (h : Arr (Option ℕ)), x.Holds d s f ∧ y.Holds d s g ∧ z.Holds d s h ∧
        ∀ c b, s.Valid c b → ∀ n, h c b = some n → (f c b).Is (g c b) ∧ ∃ k : ℤ, g c b = k ∧ |k| ≤ n) out exact bounds := by
  let _ := wholeFlt
  obtain ⟨ex, bo, h1, h2, h3⟩ := runCalc_three (p := p) (p' := p') wholes_right (ι := id) (ι' := Fl.val) (ι'' := wholeOf) whole_float prog
    (fun c hc => .inr whole_scan) (Inputs.three whole_float h) m m' m'' out hr
  refine ⟨ex, bo, h1, h2, h3.imp fun x y z ⟨s, f, g, h, q1, q2, q3, q4⟩ => ⟨s, f, g, h, q1, q2, q3, fun c b _ n hn => ?_⟩⟩
  obtain ⟨k, e1, e2, e3⟩ := q4 c b n hn
  exact ⟨by rw [e2]; exact e1, k, e2, by rw [Int.abs_eq_natAbs]; exact_mod_cast e3⟩

end
end Verif
