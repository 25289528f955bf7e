import Verif.PropsFloat6
import Verif.PropsPredict

/-!
# C94: identities that hold exactly in f32
-/

set_option linter.unusedSectionVars false
set_option linter.style.haveILetI false

namespace Verif
open Fmt Res Shape

namespace Fl
variable {F : Fmt} {N : Near F}

theorem neg_neg' (x : Fl F) : neg (neg x) = x := by
  cases x with
  | nan => rfl
  | inf s => show inf (!!s) = _; rw [Bool.not_not]
  | fin s v hv =>
    show fin (!!s) (- -v) _ = _
    congr 1
    · exact Bool.not_not s
    · exact _root_.neg_neg v

theorem abs_neg' (x : Fl F) : abs (neg x) = abs x := by
  cases x with
  | nan => rfl
  | inf s => rfl
  | fin s v hv =>
    show fin false |(-v)| _ = fin false |v| _
    congr 1
    exact _root_.abs_neg v

theorem abs_abs' (x : Fl F) : abs (abs x) = abs x := by
  cases x with
  | nan => rfl
  | inf s => rfl
  | fin s v hv =>
    show fin false |(|v|)| _ = fin false |v| _
    congr 1
    exact _root_.abs_abs v

theorem div_one' (x : Fl F) (h) : div N x (lit 1 h zero_le_one) = x := by
  cases x with
  | nan => rfl
  | inf s => show inf (s ^^ false) = _; rw [Bool.xor_false]
  | fin s v hv =>
    show (if (1 : ℝ) = 0 then _ else round N (s ^^ false) (v / 1)) = _
    rw [if_neg one_ne_zero, Bool.xor_false, _root_.div_one]
    exact round_fin _ _ _

theorem sub_zero' (x : Fl F) (h) : sub N x (lit 0 h le_rfl) = x := by
  cases x with
  | nan => rfl
  | inf s => rfl
  | fin s v hv =>
    show round N (s && true) (v + -0) = _
    rw [Bool.and_true, _root_.neg_zero, _root_.add_zero]
    exact round_fin _ _ _

/-- Adding `+0` changes nothing but the sign of a zero. -/
theorem add_zero' (x : Fl F) (h) (h0 : F.Has 0) : add N x (lit 0 h le_rfl) = x ∨ x.Is 0 ∧ (add N x (lit 0 h le_rfl)).Is 0 := by
  cases x with
  | nan => exact .inl rfl
  | inf s => exact .inl rfl
  | fin s v hv =>
    have e : add N (fin s v hv) (lit 0 h le_rfl) = round N (s && false) (v + 0) := rfl
    rw [e, _root_.add_zero]
    by_cases hv0 : v = 0
    · subst hv0
      exact .inr ⟨⟨le_rfl, le_rfl⟩, round_in h0 h0 le_rfl le_rfl⟩
    · refine .inl ?_
      have h1 : (round N (s && false) v).Is v := by
        have := round_eq (N := N) (s && false) v (by rw [N.near_grid hv.1]; exact hv.2.1)
        rwa [N.near_grid hv.1] at this
      exact Is.eq_of_ne h1 ⟨le_rfl, le_rfl⟩ hv0

theorem sub_self' (x : Fl F) (h0 : F.Has 0) : (x.Finite → (sub N x x).Is 0) ∧ (¬ x.Finite → sub N x x = nan) := by
  cases x with
  | nan => exact ⟨fun h => h.elim, fun _ => rfl⟩
  | inf s => exact ⟨fun h => h.elim, fun _ => by cases s <;> rfl⟩
  | fin s v hv =>
    refine ⟨fun _ => ?_, fun h => absurd trivial h⟩
    show (round N (s && !s) (v + -v)).Is 0
    rw [add_neg_cancel]
    exact round_in h0 h0 le_rfl le_rfl

theorem div_self' (x : Fl F) (h1 : F.Has 1) : (x.Finite → ¬ x.Is 0 → (div N x x).Is 1) ∧ (¬ x.Finite ∨ x.Is 0 → div N x x = nan) := by
  cases x with
  | nan => exact ⟨fun h => h.elim, fun _ => rfl⟩
  | inf s => exact ⟨fun h => h.elim, fun _ => rfl⟩
  | fin s v hv =>
    have e : div N (fin s v hv) (fin s v hv) = if v = 0 then (if v = 0 then nan else inf (s ^^ s)) else round N (s ^^ s) (v / v) := rfl
    rw [e]
    refine ⟨fun _ h => ?_, fun h => ?_⟩
    · have hv0 : v ≠ 0 := fun h' => h ⟨h'.ge, h'.le⟩
      rw [if_neg hv0, _root_.div_self hv0]
      exact round_in h1 h1 le_rfl le_rfl
    · have hv0 : v = 0 := by
        rcases h with h | h
        · exact absurd trivial h
        · exact le_antisymm h.2 h.1
      rw [if_pos hv0, if_pos hv0]

end Fl

section
variable [E : Ieee] {d : Nat} {x : Tensor (Fl f32)} {sx : Shape} {f : Arr (Fl f32)}

/-- C94: `x * 1`, `1 * x`, `x / 1` and `x - 0` are `x`, bit by bit, for all elements (NaN, infinities and `-0` included); `x + 0` is `x` up to the sign of a zero. -/
theorem C94_units (hx : x.Holds d sx f) (p : Profile) (m : Nat → Fl f32) :
    Yields (TF.mulC p m x 1) d sx f ∧ Yields (TF.cMul p m 1 x) d sx f ∧ Yields (TF.divC p m x 1) d sx f ∧ Yields (TF.subC p m x 0) d sx f ∧
    ∃ g, Yields (TF.addC p m x 0) d sx g ∧ ∀ c b, sx.Valid c b → g c b = f c b ∨ (f c b).Is 0 ∧ (g c b).Is 0 := by
  have H := C20_const hx p m (1 : Fl f32)
  have Z := C20_const hx p m (0 : Fl f32)
  refine ⟨H.2.2.2.2.1.congr fun c b _ => ?_, H.2.2.2.2.2.1.congr fun c b _ => ?_, H.2.2.2.2.2.2.1.congr fun c b _ => ?_, Z.2.2.1.congr fun c b _ => ?_,
    _, Z.1, fun c b _ => ?_⟩
  · exact (Fl.mul_one_right (N := E.near32) (f c b) _).symm
  · exact (Fl.mul_one_right (N := E.near32) (f c b) _).symm
  · exact (Fl.div_one' (N := E.near32) (f c b) _).symm
  · exact (Fl.sub_zero' (N := E.near32) (f c b) _).symm
  · exact Fl.add_zero' (N := E.near32) (f c b) _ has0

/-- C94: negating twice gives back every element bit by bit; `abs` of the negation and of the absolute value is `abs`. -/
theorem C94_neg_abs (hx : x.Holds d sx f) (p : Profile) (m m' : Nat → Fl f32) :
    Yields (do let y ← TF.neg p m x; TF.neg p m' y) d sx f ∧
    ∃ g, Yields (TF.abs p m x) d sx g ∧ Yields (do let y ← TF.neg p m x; TF.abs p m' y) d sx g ∧ Yields (do let y ← TF.abs p m x; TF.abs p m' y) d sx g := by
  refine ⟨(C20_unary hx p m).1.bind fun y hy => ?_, _, (C20_unary hx p m).2.2.1, (C20_unary hx p m).1.bind fun y hy => ?_, (C20_unary hx p m).2.2.1.bind fun y hy => ?_⟩
  · exact (C20_unary hy p m').1.congr fun c b _ => (Fl.neg_neg' (f c b)).symm
  · exact (C20_unary hy p m').2.2.1.congr fun c b _ => (Fl.abs_neg' (f c b)).symm
  · exact (C20_unary hy p m').2.2.1.congr fun c b _ => (Fl.abs_abs' (f c b)).symm

/-- C94: `relu` of `relu` is `relu`, up to the sign of a zero. -/
theorem C94_relu_relu (hx : x.Holds d sx f) (p : Profile) (m m' : Nat → Fl f32) :
    ∃ y g h, TF.relu p m x = ok y ∧ y.Holds d sx g ∧ Yields (TF.relu p m' y) d sx h ∧
      ∀ c b, sx.Valid c b → h c b = g c b ∨ (g c b).Is 0 ∧ (h c b).Is 0 := by
  obtain ⟨g, ⟨y, ey, hy⟩, h1⟩ := C72_relu hx p m
  obtain ⟨h, h2, h3⟩ := C72_relu hy p m'
  refine ⟨y, g, h, ey, hy, h2, fun c b hv => ?_⟩
  obtain ⟨a1, a2, a3⟩ := h1 c b hv
  obtain ⟨b1, b2, b3⟩ := h3 c b hv
  by_cases hn : f c b = .nan
  · have e := a3 (.inr hn)
    exact .inl (by rw [b3 (.inr e), e])
  rcases Fl.pos_or_nonPos hn with hp | hp
  · have e := a1 hp
    exact .inl (b1 (by rw [e]; exact hp))
  · generalize f c b = u at *
    cases u with
    | nan => exact absurd rfl hn
    | inf s =>
      obtain rfl : s = true := hp
      have e := a3 (.inl rfl)
      exact .inl (by rw [b3 (.inr e), e])
    | fin s v hv =>
      have e := a2 v ⟨le_rfl, le_rfl⟩ hp
      exact .inr ⟨e, b2 0 e le_rfl⟩

/-- C94: `x - x` is 0 where `x` is finite and NaN elsewhere; `x / x` is exactly 1 where `x` is finite and not 0, and NaN elsewhere. -/
theorem C94_self (hx : x.Holds d sx f) (p : Profile) (m : Nat → Fl f32) :
    ∃ g h, Yields (TF.sub p m x x) d sx g ∧ Yields (TF.div p m x x) d sx h ∧ ∀ c b, sx.Valid c b →
      ((f c b).Finite → (g c b).Is 0) ∧ (¬ (f c b).Finite → g c b = .nan) ∧
      ((f c b).Finite → ¬ (f c b).Is 0 → (h c b).Is 1) ∧ (¬ (f c b).Finite ∨ (f c b).Is 0 → h c b = .nan) := by
  have hj : sx.IsJoin sx sx := ⟨hx.wf, fun i => (max_self _).symm, (max_self _).symm⟩
  have H := C20_sub_div hx hx ⟨.inl fun _ => rfl, .inl rfl⟩ hj hx.small p m
  refine ⟨fun c b => Fl.sub E.near32 (f c b) (f c b), fun c b => Fl.div E.near32 (f c b) (f c b), H.1.congr fun c b hv => ?_, H.2.congr fun c b hv => ?_,
    fun c b _ => ⟨(Fl.sub_self' _ has0).1, (Fl.sub_self' _ has0).2, (Fl.div_self' _ has1).1, (Fl.div_self' _ has1).2⟩⟩
  · rw [bc_valid hv, bb_valid hv]
    rfl
  · rw [bc_valid hv, bb_valid hv]
    rfl

/-- The elements `-∞` and `1`: `x * 1`, `x / 1` and the double negation give them back, `x - x` is NaN and 0, `x / x` is NaN and 1. -/
example (p : Profile) (m : Nat → Fl f32) : ∃ (x : Tensor (Fl f32)) (f g h : Arr (Fl f32)), x.Holds 0 (vecShape 2 1) f ∧
    Yields (TF.mulC p m x 1) 0 (vecShape 2 1) f ∧ Yields (TF.divC p m x 1) 0 (vecShape 2 1) f ∧
    Yields (do let y ← TF.neg p m x; TF.neg p m y) 0 (vecShape 2 1) f ∧ Yields (TF.sub p m x x) 0 (vecShape 2 1) g ∧ Yields (TF.div p m x x) 0 (vecShape 2 1) h ∧
    ∀ c b, (vecShape 2 1).Valid c b → (c 0 = 0 → f c b = .inf true ∧ g c b = .nan ∧ h c b = .nan) ∧ (c 0 = 1 → f c b = 1 ∧ (g c b).Is 0 ∧ (h c b).Is 1) := by
  obtain ⟨x, f, hx, hf⟩ := pair_exists (.inf true) (1 : Fl f32)
  obtain ⟨h1, -, h2, -⟩ := C94_units hx p m
  obtain ⟨g, h, h3, h4, h5⟩ := C94_self hx p m
  refine ⟨x, f, g, h, hx, h1, h2, (C94_neg_abs hx p m m).1, h3, h4, fun c b hv => ⟨fun hc => ?_, fun hc => ?_⟩⟩
  · have e : f c b = .inf true := by rw [hf c b hv, if_pos hc]
    obtain ⟨-, a2, -, a4⟩ := h5 c b hv
    have hn : ¬ (f c b).Finite := by rw [e]; exact fun h => h
    exact ⟨e, a2 hn, a4 (.inl hn)⟩
  · have e : f c b = 1 := by rw [hf c b hv, if_neg (by omega)]
    obtain ⟨a1, -, a3, -⟩ := h5 c b hv
    have hn : (f c b).Finite := by rw [e]; trivial
    exact ⟨e, a1 hn, a3 hn (by rw [e]; exact fun h => absurd (show (1 : ℝ) ≤ 0 from h.2) (by norm_num))⟩

end
end Verif
