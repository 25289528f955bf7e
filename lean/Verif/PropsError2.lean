import Verif.PropsError
import Verif.Error2
import Verif.PropsFw
import Verif.PropsFw2
import Verif.PropsFloat3

/-!
# C85: the error of a layer, in closed form
-/

set_option linter.unusedSectionVars false

namespace Verif
open Res

attribute [local instance] realFlt

/-- A tensor of the same shape with elements computed from those of `x`. -/
theorem Tensor.Holds.mapped {α β : Type} [Flt β] {x : Tensor α} {d : Nat} {s : Shape} {f : Arr α} (h : x.Holds d s f) (k : α → β) :
    ∃ y : Tensor β, y.Holds d s (fun c b => k (f c b)) := by
  obtain ⟨l, _, _, hl⟩ := h.buf
  obtain ⟨y, hy⟩ := exists_holds h.wf h.small d (fun i => match l[i]? with | some a => k a | none => 0)
  exact ⟨y, hy.congr fun c b hv => by rw [hl c b hv]⟩

/-- Inputs for the three runs exist for every f32 tensor. -/
theorem inputs_exist {γ : Type} [Flt γ] {d : Nat} (know : Fl f32 → γ) {x : Tensor (Fl f32)} {s : Shape} {f : Arr (Fl f32)} (h : x.Holds d s f) :
    ∃ y z, Inputs d know x y z ∧ y.Holds d s (fun c b => (f c b).val) ∧ z.Holds d s (fun c b => know (f c b)) := by
  obtain ⟨y, hy⟩ := h.mapped Fl.val
  obtain ⟨z, hz⟩ := h.mapped know
  exact ⟨y, z, ⟨s, f, h, hy, hz⟩, hy, hz⟩

section
variable {α : Type} [Flt α] {d : Nat}

/-- `tanh(w·x)` as a program. -/
theorem layer_run {κ : Type} {w x : Tensor α} {sw sx : Shape} {f g : Arr α} (hw : w.Holds d sw f) (hx : x.Holds d sx g) (h : MatFits sw sx)
    (hv : sw.get 0 * sx.get 1 < U32) (hsz : sw.get 0 * sx.get 1 * max sw.batch sx.batch ≤ 2 ^ 31) (p : Profile) (ι : κ → α) (m : Nat → Mem α) :
    ∃ s : Shape, s.Is (fun i => if i = 0 then sw.get 0 else if i = 1 then sx.get 1 else 1) (max sw.batch sx.batch) ∧
      ∃ y z, runCalc p ι m [.matmul 0 1, .tanh 2] [w, x] = ok [w, x, y, z] ∧
        z.Holds d s (fun c b => Flt.tanh (sumBlk (sw.get 1) (fun j => f (mat (c 0) j) (bb sw b) * g (mat j (c 1)) (bb sx b)))) := by
  obtain ⟨s, hs, y, h1, hy⟩ := C24_matmul hw hx h hv hsz p (m 0 0)
  obtain ⟨z, h2, hz⟩ := (C20_unary hy p (m 1 0)).2.2.2.2.2.2.2.2.1
  refine ⟨s, hs, y, z, ?_, hz⟩
  simp only [runCalc, Calc.run, callTwo, callOne, argAt, unwrap, List.getElem?_cons_zero, List.getElem?_cons_succ, ok_bind, h1, List.cons_append,
    List.nil_append, h2]

end

theorem float_is {x : Fl f32} {v : ℝ} (h : x.Is v) : Bound.float x = Bound.of v ∧ x.val = v := by
  cases x with
  | fin s u hu =>
    obtain rfl : u = v := le_antisymm h.2 h.1
    exact ⟨rfl, rfl⟩
  | inf s => exact h.elim
  | nan => exact h.elim

section
variable [E : Ieee] {d : Nat} {w x : Tensor (Fl f32)} {sw sx : Shape} {f g : Arr (Fl f32)}

/-- C85: a layer `tanh(w·x)` in f32, for all sizes and all finite elements: the result deviates from the exact one by at most
`((1 + 2^-24)^(n/8 + 10) - 1) * (∑ |w||x| + ...)` where n is the length of the inner products, unless f32 could overflow. -/
theorem C85_layer {ε : ℝ} (hL : E.libm32.Accurate ε) (hε : 0 ≤ ε) (hw : w.Holds d sw f) (hx : x.Holds d sx g) (h : MatFits sw sx)
    (hv : sw.get 0 * sx.get 1 < U32) (hsz : sw.get 0 * sx.get 1 * max sw.batch sx.batch ≤ 2 ^ 31)
    (F G : Arr ℝ) (hf : ∀ c b, sw.Valid c b → (f c b).Is (F c b)) (hg : ∀ c b, sx.Valid c b → (g c b).Is (G c b))
    (size : Arr ℝ) (hs : ∀ c b, size c b = ∑ j ∈ Finset.range (sw.get 1), (|F (mat (c 0) j) (bb sw b)| * |G (mat j (c 1)) (bb sx b)| + 1 / 2 ^ 126) + ε * 2 ^ 24)
    (hm : ∀ c b, c 0 < sw.get 0 → c 1 < sx.get 1 → b < max sw.batch sx.batch → (1 + ulp) ^ (10 + (sw.get 1 + 7) / 8) * size c b ≤ maxF32)
    (p : Profile) (m : Nat → Mem (Fl f32)) :
    ∃ s : Shape, s.Is (fun i => if i = 0 then sw.get 0 else if i = 1 then sx.get 1 else 1) (max sw.batch sx.batch) ∧
      ∃ out : Arr (Fl f32), Yields (do let y ← TF.matmul p (m 0 0) w x; TF.tanh p (m 1 0) y) d s out ∧ ∀ c b, s.Valid c b →
        ∃ v, (out c b).Is v ∧ |v - Real.tanh (∑ j ∈ Finset.range (sw.get 1), F (mat (c 0) j) (bb sw b) * G (mat j (c 1)) (bb sx b))| ≤
          ((1 + ulp) ^ (10 + (sw.get 1 + 7) / 8) - 1) * size c b := by
  let _ := boundFlt ε
  obtain ⟨wy, wz, hwi, hwy, hwz⟩ := inputs_exist Bound.float hw
  obtain ⟨xy, xz, hxi, hxy, hxz⟩ := inputs_exist Bound.float hx
  obtain ⟨s, hsh, y0, h1, hy0⟩ := C24_matmul hw hx h hv hsz p (m 0 0)
  obtain ⟨z0, h2, hz0⟩ := (C20_unary hy0 p (m 1 0)).2.2.2.2.2.2.2.2.1
  refine ⟨s, hsh, _, ⟨z0, by rw [h1, ok_bind, h2], hz0⟩, fun c b hcb => ?_⟩
  obtain ⟨s1, hs1, y1, z1, hr1, hz1⟩ := layer_run hw hx h hv hsz .debug id m
  obtain ⟨s2, hs2, y2, z2, hr2, hz2⟩ := layer_run hwy hxy h hv hsz .debug Fl.val (fun _ _ _ => (0 : ℝ))
  obtain ⟨s3, hs3, y3, z3, hr3, hz3⟩ := layer_run hwz hxz h hv hsz .debug Bound.float (fun _ _ _ => none)
  obtain rfl := hs1.unique hsh
  obtain rfl := hs2.unique hs1
  obtain rfl := hs3.unique hs2
  obtain ⟨ex, bo, e1, e2, e3⟩ := C85_error (p := .debug) (p' := .debug) hL [.matmul 0 1, .tanh 2] (by simp [Calc.NoMax]) (.cons hwi (.cons hxi .nil))
    m (fun _ _ _ => (0 : ℝ)) (fun _ _ _ => none) hr1
  rw [hr2] at e1
  rw [hr3] at e2
  cases e1
  cases e2
  cases e3 with
  | cons _ e3 => cases e3 with
    | cons _ e3 => cases e3 with
      | cons _ e3 => cases e3 with
        | cons e _ =>
          obtain ⟨s4, f4, g4, h4, q1, q2, q3, q4⟩ := e
          obtain ⟨_, rfl, u1⟩ := hz1.unique q1
          obtain ⟨_, _, u2⟩ := hz2.unique q2
          obtain ⟨_, _, u3⟩ := hz3.unique q3
          have c0 : c 0 < sw.get 0 := by have := hcb.1 0; rw [hsh.2.1] at this; exact this
          have c1 : c 1 < sx.get 1 := by have := hcb.1 1; rw [hsh.2.1] at this; exact this
          have cb : b < max sw.batch sx.batch := by have := hcb.2; rw [hsh.2.2] at this; exact this
          have vw : ∀ j, j < sw.get 1 → sw.Valid (mat (c 0) j) (bb sw b) := fun j hj => ⟨fun i => by
            unfold mat
            have := h.1 i
            split_ifs with h0 h1
            · rwa [h0]
            · rwa [h1]
            · omega, by
            have := hw.wf.batch_pos
            rcases h.2.2.2 with e | e | e <;> unfold bb <;> split_ifs <;> omega⟩
          have vx : ∀ j, j < sw.get 1 → sx.Valid (mat j (c 1)) (bb sx b) := fun j hj => ⟨fun i => by
            unfold mat
            have := h.2.1 i
            have := h.2.2.1
            split_ifs with h0 h1
            · rw [h0]; omega
            · rwa [h1]
            · omega, by
            have := hx.wf.batch_pos
            rcases h.2.2.2 with e | e | e <;> unfold bb <;> split_ifs <;> omega⟩
          have hsz0 : 0 ≤ ∑ j ∈ Finset.range (sw.get 1), (|F (mat (c 0) j) (bb sw b)| * |G (mat j (c 1)) (bb sx b)| + tiny) :=
            Finset.sum_nonneg fun j _ => add_nonneg (mul_nonneg (abs_nonneg _) (abs_nonneg _)) tiny_pos.le
          have hmm := hm c b c0 c1 cb
          rw [hs c b] at hmm
          have hu : Under (h4 c b) (size c b) (10 + (sw.get 1 + 7) / 8) := by
            rw [← u3 c b hcb, hs c b, show 10 + (sw.get 1 + 7) / 8 = 1 + 8 + (sw.get 1 + 7) / 8 + 1 by omega]
            rw [show 10 + (sw.get 1 + 7) / 8 = 1 + 8 + (sw.get 1 + 7) / 8 + 1 by omega] at hmm
            refine under_tanh hε ?_ hmm
            have hm' := small_left (mul_nonneg hε (by positivity)) hsz0 (Nat.le_succ _) hmm
            refine under_blocks ε _ _ _ (fun j hj => ?_) hm'
            rw [(float_is (hf _ _ (vw j hj))).1, (float_is (hg _ _ (vx j hj))).1]
            refine under_mul (k := 0) (l := 0) (under_of _) (under_of _) ?_
            refine (mul_le_mul (pow_le_pow_right₀ ulp_base (by omega)) (Finset.single_le_sum (f := fun j => |F (mat (c 0) j) (bb sw b)| * |G (mat j (c 1)) (bb sx b)| + tiny)
              (fun j _ => add_nonneg (mul_nonneg (abs_nonneg _) (abs_nonneg _)) tiny_pos.le) (Finset.mem_range.mpr hj))
              (add_nonneg (mul_nonneg (abs_nonneg _) (abs_nonneg _)) tiny_pos.le) ?_).trans hm'
            linarith [Fl.Appr.base (1 + 8 + (sw.get 1 + 7) / 8)]
          obtain ⟨t, ht, t1, t2, t3, _⟩ := hu
          obtain ⟨v, hv1, hv2⟩ := q4 c b hcb t ht
          refine ⟨v, ?_, ?_⟩
          · rw [← u1 c b hcb] at hv1; exact hv1
          · rw [← u2 c b hcb] at hv2
            have e : Real.tanh (∑ j ∈ Finset.range (sw.get 1), F (mat (c 0) j) (bb sw b) * G (mat j (c 1)) (bb sx b)) =
                Flt.tanh (sumBlk (sw.get 1) fun j => (f (mat (c 0) j) (bb sw b)).val * (g (mat j (c 1)) (bb sx b)).val) := by
              rw [sumBlk_real]
              refine congrArg Real.tanh (Finset.sum_congr rfl fun j hj => ?_)
              rw [(float_is (hf _ _ (vw j (Finset.mem_range.mp hj)))).2, (float_is (hg _ _ (vx j (Finset.mem_range.mp hj)))).2]
            rw [e]
            refine hv2.trans (mul_le_mul (by have := pow_le_pow_right₀ ulp_base t2; linarith) t1 t3 ?_)
            linarith [Fl.Appr.base (10 + (sw.get 1 + 7) / 8)]

/-- A batched 9×10 matrix times a 10×3 matrix, with elements `2^26` and 1, through `tanh` with an error of at most `2^-23`. -/
example (hL : E.libm32.Accurate (1 / 2 ^ 23)) (p : Profile) (m : Nat → Mem (Fl f32)) : ∃ (w x : Tensor (Fl f32)) (s : Shape) (out : Arr (Fl f32)),
    Yields (do let y ← TF.matmul p (m 0 0) w x; TF.tanh p (m 1 0) y) 0 s out ∧ ∃ v, (out czero 1).Is v ∧
      |v - Real.tanh (10 * 2 ^ 26)| ≤ ((1 + ulp) ^ 12 - 1) * (10 * (2 ^ 26 + 1 / 2 ^ 126) + 2) := by
  obtain ⟨w, -, hw⟩ := Dev.newByConstant_ok (α := Fl f32) (matShape_wf (n := 9) (m := 10) (b := 2) rfl) (by decide) .debug 0 (m 0 0) fl26
  obtain ⟨x, -, hx⟩ := Dev.newByConstant_ok (α := Fl f32) (matShape_wf (n := 10) (m := 3) (b := 1) rfl) (by decide) .debug 0 (m 0 0) fl1
  obtain ⟨s, hs, out, h1, h2⟩ := C85_layer hL (by positivity) hw hx ⟨hw.wf.isMatrix_iff.mp rfl, hx.wf.isMatrix_iff.mp rfl, rfl, .inr (.inr rfl)⟩
    (by decide) (by decide) (fun _ _ => 2 ^ 26) (fun _ _ => 1) (fun _ _ _ => ⟨le_rfl, le_rfl⟩) (fun _ _ _ => ⟨le_rfl, le_rfl⟩)
    (fun _ _ => 10 * (2 ^ 26 + 1 / 2 ^ 126) + 2) (fun c b => by
      rw [Finset.sum_const, Finset.card_range, nsmul_eq_mul, show (matShape 9 10 2).get 1 = 10 from rfl]
      norm_num) (fun c b _ _ _ => by
      show (1 + ulp) ^ 12 * _ ≤ _
      unfold ulp maxF32
      norm_num) p m
  obtain ⟨v, h3, h4⟩ := h2 czero 1 ⟨fun i => hs.1.get_pos i, by rw [hs.2.2]; decide⟩
  rw [Finset.sum_const, Finset.card_range, nsmul_eq_mul, show (matShape 9 10 2).get 1 = 10 from rfl, mul_one] at h4
  exact ⟨w, x, s, out, h1, v, h3, by simpa using h4⟩

/-- C86 applies to a program: the product of a 9×10 and a 10×3 matrix of ones, whose elements are exactly 10. -/
example (m : Nat → Mem (Fl f32)) : ∃ (w x y : Tensor (Fl f32)) (s : Shape) (out : Arr (Fl f32)), runCalc .debug id m [.matmul 0 1] [w, x] = ok [w, x, y] ∧
    y.Holds 0 s out ∧ (out czero 1).Is 10 := by
  let _ := wholeFlt
  obtain ⟨w, -, hw⟩ := Dev.newByConstant_ok (α := Fl f32) (matShape_wf (n := 9) (m := 10) (b := 2) rfl) (by decide) .debug 0 (m 0 0) fl1
  obtain ⟨x, -, hx⟩ := Dev.newByConstant_ok (α := Fl f32) (matShape_wf (n := 10) (m := 3) (b := 1) rfl) (by decide) .debug 0 (m 0 0) fl1
  have hfit : MatFits (matShape 9 10 2) (matShape 10 3 1) := ⟨hw.wf.isMatrix_iff.mp rfl, hx.wf.isMatrix_iff.mp rfl, rfl, .inr (.inr rfl)⟩
  obtain ⟨wy, wz, hwi, hwy, hwz⟩ := inputs_exist wholeOf hw
  obtain ⟨xy, xz, hxi, hxy, hxz⟩ := inputs_exist wholeOf hx
  have run : ∀ {α : Type} [Flt α] {a b : Tensor α} {f g : Arr α} (ι : Fl f32 → α) (m : Nat → Mem α), a.Holds 0 (matShape 9 10 2) f → b.Holds 0 (matShape 10 3 1) g →
      ∃ s : Shape, s.Is (fun i => if i = 0 then 9 else if i = 1 then 3 else 1) 2 ∧ ∃ y, runCalc .debug ι m [.matmul 0 1] [a, b] = ok [a, b, y] ∧
        y.Holds 0 s (fun c q => sumBlk 10 fun j => f (mat (c 0) j) (bb (matShape 9 10 2) q) * g (mat j (c 1)) (bb (matShape 10 3 1) q)) := by
    intro α _ a b f g ι m ha hb
    obtain ⟨s, hs, y, h1, hy⟩ := C24_matmul ha hb hfit (by decide) (by decide) .debug (m 0 0)
    refine ⟨s, hs, y, ?_, hy⟩
    simp only [runCalc, Calc.run, callTwo, argAt, unwrap, List.getElem?_cons_zero, List.getElem?_cons_succ, ok_bind, h1, List.cons_append, List.nil_append]
  obtain ⟨s, hs, y, hr, hy⟩ := run id m hw hx
  obtain ⟨s2, hs2, y2, hr2, hy2⟩ := run Fl.val (fun _ _ _ => (0 : ℝ)) hwy hxy
  obtain ⟨s3, hs3, y3, hr3, hy3⟩ := run wholeOf (fun _ _ _ => none) hwz hxz
  obtain rfl := hs2.unique hs
  obtain rfl := hs3.unique hs2
  obtain ⟨ex, bo, e1, e2, e3⟩ := C86_whole (p := .debug) (p' := .debug) [.matmul 0 1] (.cons hwi (.cons hxi .nil))
    m (fun _ _ _ => (0 : ℝ)) (fun _ _ _ => none) hr
  rw [hr2] at e1
  rw [hr3] at e2
  cases e1
  cases e2
  cases e3 with
  | cons _ e3 => cases e3 with
    | cons _ e3 => cases e3 with
      | cons e _ =>
        obtain ⟨s4, f4, g4, h4, q1, q2, q3, q4⟩ := e
        obtain ⟨_, rfl, u1⟩ := hy.unique q1
        obtain ⟨_, _, u2⟩ := hy2.unique q2
        obtain ⟨_, _, u3⟩ := hy3.unique q3
        have hcb : s3.Valid czero 1 := ⟨fun i => hs.1.get_pos i, by rw [hs.2.2]; decide⟩
        have ho : wholeOf fl1 = some 1 := by
          show (if ((⌊(1 : ℝ)⌋ : ℤ) : ℝ) = 1 then some ⌊(1 : ℝ)⌋.natAbs else none) = some 1
          rw [Int.floor_one, if_pos (by norm_num)]
          rfl
        have hb : h4 czero 1 = some 10 := by
          rw [← u3 czero 1 hcb]
          simp only [ho]
          rfl
        refine ⟨w, x, y, s3, f4, hr, q1, ?_⟩
        have := (q4 czero 1 hcb 10 hb).1
        rw [← u2 czero 1 hcb, sumBlk_real] at this
        have e : (∑ j ∈ Finset.range 10, fl1.val * fl1.val) = (10 : ℝ) := by
          simp [show fl1.val = 1 from rfl]
        rwa [e] at this

end

end Verif
