import Verif.MaskSpec
import Verif.FloatAct
import Verif.FloatOrder

/-!
# logsumexp in f32 with infinite and NaN elements
-/

set_option linter.unusedSectionVars false
set_option linter.style.haveILetI false

namespace Verif
open Fmt Res Shape
open scoped List

namespace Fl
variable {F : Fmt} {N : Near F} {x y z : Fl F}

theorem Same.rfl' : Same x x := .inl rfl
theorem Same.symm (h : Same x y) : Same y x := by rcases h with h | ⟨h1, h2⟩; exacts [.inl h.symm, .inr ⟨h2, h1⟩]
theorem Same.trans (h : Same x y) (h' : Same y z) : Same x z := by
  rcases h with rfl | ⟨h1, h2⟩
  · exact h'
  · rcases h' with rfl | ⟨h3, h4⟩
    exacts [.inr ⟨h1, h2⟩, .inr ⟨h1, h4⟩]

theorem Same.isNum {v : ℝ} (h : Same x y) (hx : x.Is v) : y.Is v := by
  rcases h with rfl | ⟨h1, h2⟩
  · exact hx
  · rw [Is.unique hx h1]; exact h2

theorem same_of_is {v : ℝ} (hx : x.Is v) (hy : y.Is v) : Same x y := by
  by_cases h0 : v = 0
  · subst h0; exact .inr ⟨hx, hy⟩
  cases x with
  | inf s => exact hx.elim
  | nan => exact hx.elim
  | fin s a ha =>
    cases y with
    | inf s => exact hy.elim
    | nan => exact hy.elim
    | fin t b hb =>
      obtain rfl : v = a := le_antisymm hx.1 hx.2
      obtain rfl : v = b := le_antisymm hy.1 hy.2
      refine .inl ?_
      have : s = t := by
        rcases lt_or_gt_of_ne h0 with h | h
        · have e1 : s = true := by by_contra hs; have := ha.2.2.2 (by simpa using hs); linarith
          have e2 : t = true := by by_contra hs; have := hb.2.2.2 (by simpa using hs); linarith
          rw [e1, e2]
        · have e1 : s = false := by by_contra hs; have := ha.2.2.1 (by simpa using hs); linarith
          have e2 : t = false := by by_contra hs; have := hb.2.2.1 (by simpa using hs); linarith
          rw [e1, e2]
      subst this; rfl

/-- Rounding: the sign of a zero result does not matter. -/
theorem round_same (z z' : Bool) (v : ℝ) : Same (round N z v) (round N z' v) := by
  by_cases h : |N.near v| < F.top
  · exact same_of_is (round_eq z v h) (round_eq z' v h)
  · unfold round; rw [dif_neg h, dif_neg h]; exact .inl rfl

theorem neg_is {v : ℝ} (h : x.Is v) : (neg x).Is (-v) := neg_in h

theorem Same.add {x' y' : Fl F} (h : Same x x') (h' : Same y y') (hx : x.Finite) (hy : y.Finite) : Same (Fl.add N x y) (Fl.add N x' y') := by
  obtain ⟨u, -, hu⟩ := hx.exists_in
  obtain ⟨v, -, hv⟩ := hy.exists_in
  obtain ⟨z, e⟩ := add_eq (N := N) hu hv
  obtain ⟨z', e'⟩ := add_eq (N := N) (h.isNum hu) (h'.isNum hv)
  rw [e, e']
  exact round_same _ _ _

theorem Same.sub {x' y' : Fl F} (h : Same x x') (h' : Same y y') (hx : x.Finite) (hy : y.Finite) : Same (Fl.sub N x y) (Fl.sub N x' y') := by
  obtain ⟨u, -, hu⟩ := hx.exists_in
  obtain ⟨v, -, hv⟩ := hy.exists_in
  obtain ⟨z, e⟩ := sub_eq (N := N) hu hv
  obtain ⟨z', e'⟩ := sub_eq (N := N) (h.isNum hu) (h'.isNum hv)
  rw [e, e']
  exact round_same _ _ _

theorem add_zero_is {v : ℝ} (hx : x.Is v) (hz : z.Is 0) (hv : F.Has v) : (Fl.add N x z).Is v := by
  obtain ⟨s, e⟩ := add_eq (N := N) hx hz
  rw [e, add_zero]
  exact round_in hv hv le_rfl le_rfl

theorem Finite.has {v : ℝ} (h : x.Is v) : F.Has v := by
  obtain ⟨w, hw, h1, h2, h3⟩ := In.exists_in h
  rwa [le_antisymm h2 h3]

theorem Same.exp {L : Libm F} (hL : L.Special) (h : Same x y) : L.exp x = L.exp y := by
  rcases h with rfl | ⟨h1, h2⟩
  exacts [rfl, hL.exp_zero _ _ h1 h2]

end Fl

section
variable [E : Ieee]

/-- The step of the loop of logsumexp, in f64. -/
theorem lseStep_eq (t a : Fl f64) : Scalar.lseStep (α := Fl f32) t a =
    if Fl.gt t a then Fl.add E.near64 t (E.libm64.ln (Fl.add E.near64 (Fl.lit 1 Fl.one_ok64 zero_le_one) (E.libm64.exp (Fl.sub E.near64 a t))))
    else Fl.add E.near64 a (E.libm64.ln (Fl.add E.near64 (Fl.lit 1 Fl.one_ok64 zero_le_one) (E.libm64.exp (Fl.sub E.near64 t a)))) := rfl

variable (hW : E.libm64.Special)
include hW

theorem log1p_nan : E.libm64.ln (Fl.add E.near64 (Fl.lit 1 Fl.one_ok64 zero_le_one) (E.libm64.exp .nan)) = .nan := by
  rw [hW.exp_nan, Fl.add_nan, hW.ln_nan]

theorem log1p_zero : (E.libm64.ln (Fl.add E.near64 (Fl.lit 1 Fl.one_ok64 zero_le_one) (E.libm64.exp (.inf true)))).Is 0 :=
  hW.ln_one _ (Fl.add_zero_is ⟨le_rfl, le_rfl⟩ hW.exp_neg_inf has1.up)

theorem step_nan_left (a : Fl f64) : Scalar.lseStep (α := Fl f32) (.nan : Fl f64) a = .nan := by
  rw [lseStep_eq, Fl.gt_nan_left, if_neg (by decide), show Fl.sub E.near64 .nan a = .nan from rfl, log1p_nan hW, Fl.add_nan]

theorem step_nan_right (t : Fl f64) : Scalar.lseStep (α := Fl f32) t (.nan : Fl f64) = .nan := by
  rw [lseStep_eq, Fl.gt_nan_right, if_neg (by decide)]; rfl

theorem step_inf_inf (s : Bool) : Scalar.lseStep (α := Fl f32) (.inf s : Fl f64) (.inf s) = .nan := by
  have h1 : Fl.gt (.inf s : Fl f64) (.inf s) = false := by cases s <;> rfl
  have h2 : Fl.sub E.near64 (.inf s) (.inf s) = .nan := by cases s <;> rfl
  rw [lseStep_eq, h1, if_neg (by decide), h2, log1p_nan hW, Fl.add_nan]

theorem step_pinf_right {t : Fl f64} (h : t ≠ .nan) (h' : t ≠ .inf false) : Scalar.lseStep (α := Fl f32) t (.inf false : Fl f64) = .inf false := by
  have h0 := log1p_zero hW
  have hg : Fl.gt t (.inf false) = false := by
    cases t with
    | fin s v hv => rfl
    | inf s => cases s <;> rfl
    | nan => rfl
  have hs : Fl.sub E.near64 t (.inf false) = .inf true := by
    cases t with
    | fin s v hv => rfl
    | inf s => cases s <;> first | rfl | exact absurd rfl h'
    | nan => exact absurd rfl h
  rw [lseStep_eq, hg, if_neg (by decide), hs]
  revert h0
  cases E.libm64.ln (Fl.add E.near64 (Fl.lit 1 Fl.one_ok64 zero_le_one) (E.libm64.exp (.inf true))) with
  | fin s v hv => intro _; rfl
  | inf s => exact fun h => h.elim
  | nan => exact fun h => h.elim

theorem step_pinf_left {a : Fl f64} (h : a ≠ .nan) (h' : a ≠ .inf false) : Scalar.lseStep (α := Fl f32) (.inf false : Fl f64) a = .inf false := by
  have h0 := log1p_zero hW
  have hg : Fl.gt (.inf false) a = true := by
    cases a with
    | fin s v hv => rfl
    | inf s => cases s <;> first | rfl | exact absurd rfl h'
    | nan => exact absurd rfl h
  have hs : Fl.sub E.near64 a (.inf false) = .inf true := by
    cases a with
    | fin s v hv => rfl
    | inf s => cases s <;> first | rfl | exact absurd rfl h'
    | nan => exact absurd rfl h
  rw [lseStep_eq, hg, if_pos rfl, hs]
  revert h0
  cases E.libm64.ln (Fl.add E.near64 (Fl.lit 1 Fl.one_ok64 zero_le_one) (E.libm64.exp (.inf true))) with
  | fin s v hv => intro _; rfl
  | inf s => exact fun h => h.elim
  | nan => exact fun h => h.elim

/-- After a finite sum, a masked element changes nothing. -/
theorem step_masked_right {t : Fl f64} {v : ℝ} (h : t.Is v) : (Scalar.lseStep (α := Fl f32) t (.inf true : Fl f64)).Is v := by
  have hv := Fl.Finite.has h
  cases t with
  | fin s u hu =>
    have hg : Fl.gt (.fin s u hu) (.inf true) = true := rfl
    rw [lseStep_eq, hg, if_pos rfl]
    exact Fl.add_zero_is h (log1p_zero hW) hv
  | inf s => exact h.elim
  | nan => exact h.elim

/-- A single masked element before a finite one changes nothing. -/
theorem step_masked_left {a : Fl f64} {v : ℝ} (h : a.Is v) : (Scalar.lseStep (α := Fl f32) (.inf true : Fl f64) a).Is v := by
  have hv := Fl.Finite.has h
  cases a with
  | fin s u hu =>
    have hg : Fl.gt (.inf true) (.fin s u hu) = false := rfl
    rw [lseStep_eq, hg, if_neg (by decide)]
    exact Fl.add_zero_is h (log1p_zero hW) hv
  | inf s => exact h.elim
  | nan => exact h.elim

theorem step_same {B : ℝ} (hB : f64.Has (2 * B)) {t t' a : Fl f64} (h : t.Same t') (ht : t.In (-B) B) (ha : a.In (-B) B) :
    (Scalar.lseStep (α := Fl f32) t a).Same (Scalar.lseStep (α := Fl f32) t' a) := by
  obtain ⟨u, -, hu, hu1, hu2⟩ := ht.exists_in
  obtain ⟨v, -, hv, hv1, hv2⟩ := ha.exists_in
  have hu' := h.isNum hu
  have key : ∀ {q p q' p' : Fl f64} {r s : ℝ}, p.Same p' → q.Same q' → p.Is r → q.Is s → s ≤ r → r ≤ B → -B ≤ s →
      (Fl.add E.near64 p (E.libm64.ln (Fl.add E.near64 (Fl.lit 1 Fl.one_ok64 zero_le_one) (E.libm64.exp (Fl.sub E.near64 q p))))).Same
      (Fl.add E.near64 p' (E.libm64.ln (Fl.add E.near64 (Fl.lit 1 Fl.one_ok64 zero_le_one) (E.libm64.exp (Fl.sub E.near64 q' p'))))) := by
    intro q p q' p' r s hp hq hr hs h1 h2 h3
    have h5 : (Fl.sub E.near64 q p).In (-(2 * B)) 0 := Fl.sub_in hs hr hB.neg has0.up (by linarith) (by linarith)
    rw [← Fl.Same.exp hW (hq.sub (N := E.near64) hp (Fl.In.finite hs) (Fl.In.finite hr))]
    have h6 := log1p_in (N := E.near64) E.sane64 (o := Fl.lit 1 Fl.one_ok64 zero_le_one) ⟨le_rfl, le_rfl⟩ (h5.nonPos le_rfl) has1.up has2.up
    exact hp.add .rfl' (Fl.In.finite hr) h6.finite
  rw [lseStep_eq, lseStep_eq]
  by_cases hc : v < u
  · rw [if_pos ((Fl.gt_in hu hv).mpr hc), if_pos ((Fl.gt_in hu' hv).mpr hc)]
    exact key h .rfl' hu hv hc.le hu2 hv1
  · rw [if_neg (by rw [Fl.gt_in hu hv]; exact hc), if_neg (by rw [Fl.gt_in hu' hv]; exact hc)]
    exact key .rfl' h hv hu (not_lt.mp hc) hv2 hu1

end

section
variable [E : Ieee]

theorem max64_has : f64.Has maxF32 := maxF32_has.up
theorem twice64_has : f64.Has (2 * maxF32) := twice_has maxF32_has

theorem step_bounds {t a : Fl f64} (ht : t.In (-maxF32) maxF32) (ha : a.In (-maxF32) maxF32) :
    (Scalar.lseStep (α := Fl f32) t a).In (-maxF32) maxF32 := by
  obtain ⟨v, -, hv, hv1, hv2⟩ := ha.exists_in
  have := lseStep_in (N := E.near32) (L := E.libm32) E.sane64 max64_has twice64_has (near64_max E.near64) ht le_rfl hv (abs_le.mpr ⟨hv1, hv2⟩)
  exact Fl.In.mono this (le_max_left _ _) le_rfl

theorem widen_bounds {x : Fl f32} (h : x.Finite) : (Fl.widen x).In (-maxF32) maxF32 := Fl.widen_in.mpr (finite_in h)

theorem narrow_same {x y : Fl f64} (h : x.Same y) : (Fl.narrow E.near32 x).Same (Fl.narrow E.near32 y) := by
  rcases h with rfl | ⟨h1, h2⟩
  · exact .rfl'
  · exact .inr ⟨Fl.narrow_in h1 has0 has0, Fl.narrow_in h2 has0 has0⟩

/-- logsumexp of a list. -/
noncomputable def lseList : List (Fl f32) → Fl f32
  | [] => .nan
  | x :: l => Fl.narrow E.near32 (l.foldl (fun t a => Scalar.lseStep (α := Fl f32) t (Fl.widen a)) (Fl.widen x))

theorem foldN_lse (n : Nat) (r : Nat → Fl f32) :
    (foldN n (fun j a => Scalar.lseStep (α := Fl f32) a (Flt.up (r (j + 1)))) (Flt.up (r 0)) : Fl f64) =
      ((List.range n).map fun j => r (j + 1)).foldl (fun t a => Scalar.lseStep (α := Fl f32) t (Fl.widen a)) (Fl.widen (r 0)) := by
  induction n with
  | zero => rfl
  | succ n ih => rw [foldN_succ, ih, List.range_succ, List.map_append, List.foldl_append]; rfl

/-- The value computed by the kernel is `lseList` of the axis. -/
theorem down_lse {sx : Shape} (hw : sx.WF) (f : Arr (Fl f32)) (dim : Nat) (c : Nat → Nat) (b : Nat) :
    (Flt.down (foldN (sx.get dim - 1) (fun j a => Scalar.lseStep a (Flt.up (f (cset c dim (j + 1)) b))) (Flt.up (f (cset c dim 0) b))) : Fl f32) =
      lseList (axisOf sx f dim c b) := by
  obtain ⟨n, hn⟩ : ∃ n, sx.get dim = n + 1 := ⟨sx.get dim - 1, by have := hw.get_pos dim; omega⟩
  have := foldN_lse n (fun j => f (cset c dim j) b)
  unfold axisOf
  rw [hn, List.range_succ_eq_map, Nat.add_sub_cancel]
  refine congrArg (Fl.narrow E.near32) (Eq.trans this ?_)
  rw [List.map_map]
  rfl

variable (hW : E.libm64.Special)
include hW

theorem fold_masked {l : List (Fl f32)} (hl : ∀ a ∈ l, a.Finite ∨ a = .inf true) {t t' : Fl f64} (h : t.Same t') (ht : t.In (-maxF32) maxF32) :
    (l.foldl (fun t a => Scalar.lseStep (α := Fl f32) t (Fl.widen a)) t).Same
      ((l.filter Fl.unmasked).foldl (fun t a => Scalar.lseStep (α := Fl f32) t (Fl.widen a)) t') := by
  induction l generalizing t t' with
  | nil => exact h
  | cons a l ih =>
    have hl' := fun x hx => hl x (List.mem_cons_of_mem _ hx)
    obtain ⟨v, -, hv, hv1, hv2⟩ := ht.exists_in
    rcases hl a (List.mem_cons_self ..) with ha | rfl
    · have hu : Fl.unmasked a = true := by cases a with
        | fin s u h => rfl
        | inf s => exact ha.elim
        | nan => exact ha.elim
      rw [List.filter_cons_of_pos hu, List.foldl_cons, List.foldl_cons]
      exact ih hl' (step_same hW twice64_has h ht (widen_bounds ha)) (step_bounds ht (widen_bounds ha))
    · rw [List.filter_cons_of_neg (by decide), List.foldl_cons]
      have h1 := step_masked_right hW hv
      exact ih hl' ((Fl.same_of_is h1 hv).trans h) (Fl.In.mono h1 hv1 hv2)

/-- Masked elements may be removed, unless the list begins with two of them. -/
theorem lseList_masked {l : List (Fl f32)} (hl : ∀ a ∈ l, a.Finite ∨ a = .inf true) (h0 : l.filter Fl.unmasked ≠ [])
    (h2 : ¬ [Fl.inf true, .inf true] <+: l) : (lseList l).Same (lseList (l.filter Fl.unmasked)) := by
  cases l with
  | nil => exact absurd rfl h0
  | cons x l =>
    have hu : ∀ {a : Fl f32}, a.Finite → Fl.unmasked a = true := fun {a} ha => by
      cases a with
      | fin s u h => rfl
      | inf s => exact ha.elim
      | nan => exact ha.elim
    have hl' := fun a ha => hl a (List.mem_cons_of_mem _ ha)
    rcases hl x (List.mem_cons_self ..) with hx | rfl
    · rw [List.filter_cons_of_pos (hu hx)]
      exact narrow_same (fold_masked hW hl' .rfl' (widen_bounds hx))
    · rw [List.filter_cons_of_neg (by decide)] at h0 ⊢
      cases l with
      | nil => exact absurd rfl h0
      | cons y l =>
        rcases hl' y (List.mem_cons_self ..) with hy | rfl
        · rw [List.filter_cons_of_pos (hu hy)]
          obtain ⟨v, -, hv, hv1, hv2⟩ := (widen_bounds hy).exists_in
          have h1 := step_masked_left hW hv
          exact narrow_same (fold_masked hW (fun a ha => hl' a (List.mem_cons_of_mem _ ha)) (Fl.same_of_is h1 hv) (Fl.In.mono h1 hv1 hv2))
        · exact absurd ⟨l, rfl⟩ h2

theorem fold_nan (l : List (Fl f32)) : l.foldl (fun t a => Scalar.lseStep (α := Fl f32) t (Fl.widen a)) .nan = .nan := by
  induction l with
  | nil => rfl
  | cons a l ih => rw [List.foldl_cons, step_nan_left hW, ih]

/-- Two masked elements at the front: NaN. -/
theorem lseList_two {l : List (Fl f32)} (h : [Fl.inf true, .inf true] <+: l) : lseList l = .nan := by
  obtain ⟨l, rfl⟩ := h
  show Fl.narrow E.near32 (l.foldl _ (Scalar.lseStep (α := Fl f32) (Fl.inf true : Fl f64) (Fl.inf true))) = .nan
  rw [step_inf_inf hW]
  exact congrArg (Fl.narrow E.near32) (fold_nan hW l)

theorem fold_pinf (l : List (Fl f32)) :
    ((.nan ∈ l ∨ .inf false ∈ l) ∧ l.foldl (fun t a => Scalar.lseStep (α := Fl f32) t (Fl.widen a)) (.inf false : Fl f64) = .nan) ∨
    (.nan ∉ l ∧ .inf false ∉ l ∧ l.foldl (fun t a => Scalar.lseStep (α := Fl f32) t (Fl.widen a)) (.inf false : Fl f64) = .inf false) := by
  induction l with
  | nil => exact .inr ⟨List.not_mem_nil, List.not_mem_nil, rfl⟩
  | cons a l ih =>
    rw [List.foldl_cons]
    by_cases h1 : a = .nan
    · subst h1
      refine .inl ⟨.inl (List.mem_cons_self ..), ?_⟩
      rw [show Fl.widen .nan = .nan from rfl, step_nan_right hW]
      exact fold_nan hW l
    by_cases h2 : a = .inf false
    · subst h2
      refine .inl ⟨.inr (List.mem_cons_self ..), ?_⟩
      rw [show Fl.widen (.inf false) = .inf false from rfl, step_inf_inf hW]
      exact fold_nan hW l
    have h3 : Fl.widen a ≠ .nan := by cases a <;> first | exact absurd rfl h1 | exact fun h => by cases h
    have h4 : Fl.widen a ≠ .inf false := by
      cases a with
      | fin s u h => exact fun h => by cases h
      | nan => exact absurd rfl h1
      | inf s => cases s <;> first | exact absurd rfl h2 | exact fun h => by cases h
    rw [step_pinf_left hW h3 h4]
    simp only [List.mem_cons, Ne.symm h1, Ne.symm h2, false_or]
    exact ih

theorem fold_num (l : List (Fl f32)) {t : Fl f64} (ht : t.In (-maxF32) maxF32) :
    ((.nan ∈ l ∨ [.inf false, .inf false] <+ l) ∧ l.foldl (fun t a => Scalar.lseStep (α := Fl f32) t (Fl.widen a)) t = .nan) ∨
    ((.nan ∉ l ∧ ¬ [.inf false, .inf false] <+ l) ∧ .inf false ∈ l ∧ l.foldl (fun t a => Scalar.lseStep (α := Fl f32) t (Fl.widen a)) t = .inf false) ∨
    ((.nan ∉ l ∧ ¬ [.inf false, .inf false] <+ l) ∧ .inf false ∉ l ∧
      (l.foldl (fun t a => Scalar.lseStep (α := Fl f32) t (Fl.widen a)) t).In (-maxF32) maxF32) := by
  induction l generalizing t with
  | nil => exact .inr (.inr ⟨⟨List.not_mem_nil, fun h => by cases h⟩, List.not_mem_nil, ht⟩)
  | cons a l ih =>
    rw [List.foldl_cons]
    have hsub : a ≠ .inf false → ([Fl.inf false, .inf false] <+ a :: l ↔ [Fl.inf false, .inf false] <+ l) := fun h =>
      ⟨fun hs => by
        cases hs with
        | cons _ hs => exact hs
        | cons_cons _ hs => exact absurd rfl h, fun hs => hs.cons a⟩
    cases a with
    | nan =>
      refine .inl ⟨.inl (List.mem_cons_self ..), ?_⟩
      rw [show Fl.widen .nan = .nan from rfl, step_nan_right hW]
      exact fold_nan hW l
    | fin s u h =>
      have := ih (step_bounds ht (widen_bounds (x := .fin s u h) trivial))
      rw [hsub (fun h => by cases h)]
      simpa only [List.mem_cons, reduceCtorEq, false_or] using this
    | inf s =>
      cases s with
      | true =>
        obtain ⟨v, -, hv, hv1, hv2⟩ := ht.exists_in
        have := ih (Fl.In.mono (step_masked_right hW hv) hv1 hv2)
        rw [hsub (fun h => by cases h), show Fl.widen (.inf true) = .inf true from rfl]
        simpa only [List.mem_cons, reduceCtorEq, Fl.inf.injEq, Bool.false_eq_true, false_or] using this
      | false =>
        rw [show Fl.widen (.inf false) = .inf false from rfl, step_pinf_right hW (by rintro rfl; exact ht) (by rintro rfl; exact ht)]
        have h2 : [Fl.inf false, .inf false] <+ .inf false :: l ↔ .inf false ∈ l := by
          rw [List.cons_sublist_cons, List.singleton_sublist]
        rw [h2]
        simp only [List.mem_cons, reduceCtorEq, false_or, true_or, true_and, not_true_eq_false, false_and, and_false, or_false]
        rcases fold_pinf hW l with h | ⟨h3, h4, h5⟩
        exacts [.inl h, .inr ⟨⟨h3, h4⟩, h5⟩]

/-- All special results of logsumexp. -/
theorem lseList_class {l : List (Fl f32)} (hl : l ≠ []) :
    ((.nan ∈ l ∨ [.inf true, .inf true] <+: l ∨ [.inf false, .inf false] <+ l) ∧ lseList l = .nan) ∨
    (¬ (.nan ∈ l ∨ [.inf true, .inf true] <+: l ∨ [.inf false, .inf false] <+ l) ∧
      ((.inf false ∈ l ∧ lseList l = .inf false) ∨ (l = [.inf true] ∧ lseList l = .inf true) ∨ (.inf false ∉ l ∧ l ≠ [.inf true] ∧ (lseList l).Finite))) := by
  cases l with
  | nil => exact absurd rfl hl
  | cons x l =>
    have hnum : ∀ {l : List (Fl f32)} {t : Fl f64}, t.In (-maxF32) maxF32 →
        ((.nan ∈ l ∨ [.inf false, .inf false] <+ l) ∧ Fl.narrow E.near32 (l.foldl (fun t a => Scalar.lseStep (α := Fl f32) t (Fl.widen a)) t) = .nan) ∨
        ((.nan ∉ l ∧ ¬ [.inf false, .inf false] <+ l) ∧ .inf false ∈ l ∧
          Fl.narrow E.near32 (l.foldl (fun t a => Scalar.lseStep (α := Fl f32) t (Fl.widen a)) t) = .inf false) ∨
        ((.nan ∉ l ∧ ¬ [.inf false, .inf false] <+ l) ∧ .inf false ∉ l ∧
          (Fl.narrow E.near32 (l.foldl (fun t a => Scalar.lseStep (α := Fl f32) t (Fl.widen a)) t)).Finite) := fun {l t} ht => by
      rcases fold_num hW l ht with ⟨h1, h2⟩ | ⟨h1, h2, h3⟩ | ⟨h1, h2, h3⟩
      · exact .inl ⟨h1, congrArg (Fl.narrow E.near32) h2⟩
      · exact .inr (.inl ⟨h1, h2, congrArg (Fl.narrow E.near32) h3⟩)
      · exact .inr (.inr ⟨h1, h2, (Fl.narrow_in h3 maxF32_has.neg maxF32_has).finite⟩)
    have hinf : ∀ {l : List (Fl f32)},
        ((.nan ∈ l ∨ .inf false ∈ l) ∧ Fl.narrow E.near32 (l.foldl (fun t a => Scalar.lseStep (α := Fl f32) t (Fl.widen a)) (.inf false : Fl f64)) = .nan) ∨
        (.nan ∉ l ∧ .inf false ∉ l ∧ Fl.narrow E.near32 (l.foldl (fun t a => Scalar.lseStep (α := Fl f32) t (Fl.widen a)) (.inf false : Fl f64)) = .inf false) := fun {l} => by
      rcases fold_pinf hW l with ⟨h1, h2⟩ | ⟨h1, h2, h3⟩
      · exact .inl ⟨h1, congrArg (Fl.narrow E.near32) h2⟩
      · exact .inr ⟨h1, h2, congrArg (Fl.narrow E.near32) h3⟩
    have hsub : ∀ {a : Fl f32} {l : List (Fl f32)}, a ≠ .inf false → ([Fl.inf false, .inf false] <+ a :: l ↔ [Fl.inf false, .inf false] <+ l) := fun {a l} h =>
      ⟨fun hs => by
        cases hs with
        | cons _ hs => exact hs
        | cons_cons _ hs => exact absurd rfl h, fun hs => hs.cons a⟩
    have hsub2 : ∀ {l : List (Fl f32)}, [Fl.inf false, .inf false] <+ .inf false :: l ↔ .inf false ∈ l := fun {l} => by
      rw [List.cons_sublist_cons, List.singleton_sublist]
    have hpre : ∀ {a : Fl f32} {l : List (Fl f32)}, a ≠ .inf true → ¬ [Fl.inf true, .inf true] <+: a :: l := fun {a l} h hp =>
      h ((List.cons_prefix_cons.mp hp).1).symm
    cases x with
    | nan => exact .inl ⟨.inl (List.mem_cons_self ..), congrArg (Fl.narrow E.near32) (fold_nan hW l)⟩
    | fin s u h =>
      have h1 := hnum (l := l) (widen_bounds (x := .fin s u h) trivial)
      have h2 : Fl.nan ∈ Fl.fin s u h :: l ↔ Fl.nan ∈ l := by simp
      have h3 : Fl.inf false ∈ Fl.fin s u h :: l ↔ Fl.inf false ∈ l := by simp
      have h4 := hpre (l := l) (a := .fin s u h) (fun h => by cases h)
      have h5 : Fl.fin s u h :: l ≠ [.inf true] := by simp
      rw [hsub (fun h => by cases h), h2, h3]
      rcases h1 with ⟨h6, h7⟩ | ⟨h6, h7, h8⟩ | ⟨h6, h7, h8⟩
      · exact .inl ⟨h6.elim .inl fun h => .inr (.inr h), h7⟩
      · exact .inr ⟨fun h => h.elim h6.1 fun h => h.elim h4 h6.2, .inl ⟨h7, h8⟩⟩
      · exact .inr ⟨fun h => h.elim h6.1 fun h => h.elim h4 h6.2, .inr (.inr ⟨h7, h5, h8⟩)⟩
    | inf s =>
      cases s with
      | false =>
        have h2 : Fl.nan ∈ (Fl.inf false : Fl f32) :: l ↔ Fl.nan ∈ l := by simp
        have h4 := hpre (l := l) (a := .inf false) (fun h => by cases h)
        rw [hsub2, h2]
        rcases hinf (l := l) with ⟨h6, h7⟩ | ⟨h6, h7, h8⟩
        · exact .inl ⟨h6.elim .inl fun h => .inr (.inr h), h7⟩
        · exact .inr ⟨fun h => h.elim h6 fun h => h.elim h4 h7, .inl ⟨List.mem_cons_self .., h8⟩⟩
      | true =>
        cases l with
        | nil =>
          refine .inr ⟨?_, .inr (.inl ⟨rfl, rfl⟩)⟩
          rintro (h | h | h)
          · simp at h
          · have := h.length_le; simp at this
          · have := h.length_le; simp at this
        | cons y l =>
          have hne : (Fl.inf true : Fl f32) :: y :: l ≠ [.inf true] := by simp
          rw [hsub (fun h => by cases h)]
          show _ ∧ Fl.narrow E.near32 (l.foldl _ (Scalar.lseStep (α := Fl f32) (Fl.inf true : Fl f64) (Fl.widen y))) = .nan ∨ _
          cases y with
          | nan =>
            refine .inl ⟨.inl (by simp), ?_⟩
            rw [show Fl.widen .nan = .nan from rfl, step_nan_right hW]
            exact congrArg (Fl.narrow E.near32) (fold_nan hW l)
          | fin s u h =>
            obtain ⟨v, -, hv, hv1, hv2⟩ := (widen_bounds (x := .fin s u h) trivial).exists_in
            have h1 := hnum (l := l) (Fl.In.mono (step_masked_left hW hv) hv1 hv2)
            have h2 : Fl.nan ∈ Fl.inf true :: Fl.fin s u h :: l ↔ Fl.nan ∈ l := by simp
            have h3 : Fl.inf false ∈ Fl.inf true :: Fl.fin s u h :: l ↔ Fl.inf false ∈ l := by simp
            have h4 : ¬ [Fl.inf true, .inf true] <+: .inf true :: Fl.fin s u h :: l := by simp
            rw [hsub (fun h => by cases h), h2, h3]
            rcases h1 with ⟨h6, h7⟩ | ⟨h6, h7, h8⟩ | ⟨h6, h7, h8⟩
            · exact .inl ⟨h6.elim .inl fun h => .inr (.inr h), h7⟩
            · exact .inr ⟨fun h => h.elim h6.1 fun h => h.elim h4 h6.2, .inl ⟨h7, h8⟩⟩
            · exact .inr ⟨fun h => h.elim h6.1 fun h => h.elim h4 h6.2, .inr (.inr ⟨h7, hne, h8⟩)⟩
          | inf s =>
            cases s with
            | true => exact .inl ⟨.inr (.inl ⟨l, rfl⟩), lseList_two hW ⟨l, rfl⟩⟩
            | false =>
              have h2 : Fl.nan ∈ (Fl.inf true : Fl f32) :: Fl.inf false :: l ↔ Fl.nan ∈ l := by simp
              have h4 : ¬ [(Fl.inf true : Fl f32), .inf true] <+: .inf true :: Fl.inf false :: l := by simp
              rw [hsub2, h2, show Fl.widen (.inf false) = .inf false from rfl, step_pinf_right hW (fun h => by cases h) (fun h => by cases h)]
              rcases hinf (l := l) with ⟨h6, h7⟩ | ⟨h6, h7, h8⟩
              · exact .inl ⟨h6.elim .inl fun h => .inr (.inr h), h7⟩
              · refine .inr ⟨fun h => h.elim h6 fun h => h.elim h4 h7, .inl ⟨by simp, ?_⟩⟩
                refine Eq.trans ?_ h8
                show Fl.narrow E.near32 (l.foldl _ (Scalar.lseStep (α := Fl f32) (Fl.inf true : Fl f64) (Fl.inf false))) = _
                rw [step_pinf_right hW (fun h => by cases h) (fun h => by cases h)]

end
end Verif
