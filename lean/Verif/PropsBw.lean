import Verif.DevBw
import Verif.TensorSpec2
import Verif.FwMore3
import Verif.PropsSafety
import Verif.PropsFw3
import Mathlib.Algebra.BigOperators.Group.Finset.Basic

/-!
# Property C29: the backward functions accumulate the gradient contribution

`Dev.bw op p d m xs ys gy gx` is the backward device function `op` of device `d` (operands `xs`, results `ys`, gradient `gy` of the
result, accumulator `gx`); it returns `gx` with its new contents.  In every theorem the shapes are exactly those that the function
accepts, and `fg` is the old content of `gx`: the theorem says what is added where, and that everything else is kept.
-/

set_option linter.unusedSectionVars false

namespace Verif
open Res Shape
variable {α : Type} [Flt α] {d : Nat} {x y xa xb gy gx : Tensor α} {s sa sb sx sy : Shape} {fx fy fa fb fgy fg : Arr α}

/-! ### Element-wise functions of one operand -/

theorem same_check (x y : Shape) : (do Verif.check (x = x); Verif.check (y = y); Verif.check (x = y) : Res Unit) = Verif.check (x = y) := by
  simp [Verif.check]

/-- C29: the unary functions. -/
theorem C29_unary (hx : x.Holds d s fx) (hy : y.Holds d s fy) (hgy : gy.Holds d s fgy) (hgx : gx.Holds d s fg) (p : Profile) (m : Mem α) :
    Yields (Dev.bw (.un .sqrt) p d m [x] [y] gy gx) d s (fun c b => fg c b + fgy c b * Flt.half / fy c b) ∧
    Yields (Dev.bw (.un .abs) p d m [x] [y] gy gx) d s (fun c b =>
      fg c b + fgy c b * Flt.ofInt ((if Flt.gt (fx c b) 0 then 1 else 0) - (if Flt.gt 0 (fx c b) then 1 else 0))) ∧
    Yields (Dev.bw (.un .sin) p d m [x] [y] gy gx) d s (fun c b => fg c b + fgy c b * Flt.cos (fx c b)) ∧
    Yields (Dev.bw (.un .cos) p d m [x] [y] gy gx) d s (fun c b => fg c b + -(fgy c b) * Flt.sin (fx c b)) ∧
    Yields (Dev.bw (.un .tan) p d m [x] [y] gy gx) d s (fun c b => fg c b + fgy c b * (1 + fy c b * fy c b)) ∧
    Yields (Dev.bw (.un .exp) p d m [x] [y] gy gx) d s (fun c b => fg c b + fgy c b * fy c b) ∧
    Yields (Dev.bw (.un .ln) p d m [x] [y] gy gx) d s (fun c b => fg c b + fgy c b / fx c b) ∧
    Yields (Dev.bw (.un .tanh) p d m [x] [y] gy gx) d s (fun c b => fg c b + fgy c b * (1 - fy c b * fy c b)) ∧
    Yields (Dev.bw (.un .sigmoid) p d m [x] [y] gy gx) d s (fun c b => fg c b + fgy c b * fy c b * (1 - fy c b)) := by
  have h : ∀ u : Un, u.bwFn (α := α) ≠ none →
      Yields (Dev.bw (.un u) p d m [x] [y] gy gx) d s ((BwOp.un u).sem [(s, fx)] [(s, fy)] (s, fgy) (s, fg)) :=
    fun u hu => Dev.bw_ok (op := .un u) (xi := [(s, fx)]) (yi := [(s, fy)]) (.cons hx .nil) (.cons hy .nil) hgy hgx
      (by show (do Verif.check (s = s); Verif.check (s = s); Verif.check (s = s) : Res Unit) = _; simp [Verif.check]) hu p m
  exact ⟨h .sqrt nofun, h .abs nofun, h .sin nofun, h .cos nofun, h .tan nofun, h .exp nofun, h .ln nofun, h .tanh nofun,
    h .sigmoid nofun⟩

/-- C29: the functions with a constant. -/
theorem C29_const (hx : x.Holds d s fx) (hy : y.Holds d s fy) (hgy : gy.Holds d s fgy) (hgx : gx.Holds d s fg) (p : Profile) (m : Mem α)
    (k : α) :
    Yields (Dev.bw (.cn .add k) p d m [x] [y] gy gx) d s (fun c b => fg c b + fgy c b) ∧
    Yields (Dev.bw (.cn .subL k) p d m [x] [y] gy gx) d s (fun c b => fg c b + -(fgy c b)) ∧
    Yields (Dev.bw (.cn .subR k) p d m [x] [y] gy gx) d s (fun c b => fg c b + fgy c b) ∧
    Yields (Dev.bw (.cn .mul k) p d m [x] [y] gy gx) d s (fun c b => fg c b + k * fgy c b) ∧
    Yields (Dev.bw (.cn .divL k) p d m [x] [y] gy gx) d s (fun c b => fg c b + -(fgy c b) * fy c b / fx c b) ∧
    Yields (Dev.bw (.cn .divR k) p d m [x] [y] gy gx) d s (fun c b => fg c b + fgy c b / k) ∧
    Yields (Dev.bw (.cn .powfL k) p d m [x] [y] gy gx) d s (fun c b => fg c b + fgy c b * Flt.ln k * fy c b) ∧
    Yields (Dev.bw (.cn .powfR k) p d m [x] [y] gy gx) d s (fun c b => fg c b + fgy c b * k * Flt.powf (fx c b) (k - 1)) ∧
    Yields (Dev.bw (.cn .prelu k) p d m [x] [y] gy gx) d s (fun c b =>
      fg c b + fgy c b * ((if Flt.gt (fx c b) 0 then 1 else 0) + (if Flt.le (fx c b) 0 then 1 else 0) * k)) ∧
    Yields (Dev.bw (.cn .elu k) p d m [x] [y] gy gx) d s (fun c b =>
      fg c b + if Flt.gt (fx c b) 0 then fgy c b else fgy c b * (fy c b + k)) := by
  have h : ∀ o : Cn,
      Yields (Dev.bw (.cn o k) p d m [x] [y] gy gx) d s ((BwOp.cn o k).sem [(s, fx)] [(s, fy)] (s, fgy) (s, fg)) :=
    fun o => Dev.bw_ok (op := .cn o k) (xi := [(s, fx)]) (yi := [(s, fy)]) (.cons hx .nil) (.cons hy .nil) hgy hgx
      (by show (do Verif.check (s = s); Verif.check (s = s); Verif.check (s = s) : Res Unit) = _; simp [Verif.check]) trivial p m
  exact ⟨h .add, h .subL, h .subR, h .mul, h .divL, h .divR, h .powfL, h .powfR, h .prelu, h .elu⟩

/-- C29: `powi` (the exponent is not the least i32, for which `k - 1` overflows). -/
theorem C29_powi (hx : x.Holds d s fx) (hy : y.Holds d s fy) (hgy : gy.Holds d s fgy) (hgx : gx.Holds d s fg) (p : Profile) (m : Mem α)
    {k : Int} (h1 : -2147483648 < k) (h2 : k ≤ 2147483647) :
    Yields (Dev.bw (.powi k) p d m [x] [y] gy gx) d s (fun c b => fg c b + fgy c b * Flt.ofInt k * Flt.powi (fx c b) (k - 1)) :=
  Dev.bw_ok (op := .powi k) (xi := [(s, fx)]) (yi := [(s, fy)]) (.cons hx .nil) (.cons hy .nil) hgy hgx
      (by show (do Verif.check (s = s); Verif.check (s = s); Verif.check (s = s) : Res Unit) = _; simp [Verif.check]) ⟨h1, h2⟩ p m

/-! ### Two operands -/

/-- The accumulation over the batches that read batch `b`, in a commutative addition: a sum over these batches. -/
theorem overBatch_sum {β : Type} [AddCommMonoid β] (s : Shape) (n b : Nat) (t : Nat → β) (init : β) :
    overBatch s n b (fun b' acc => acc + t b') init = init + ∑ b' ∈ (Finset.range n).filter (fun b' => bb s b' = b), t b' := by
  unfold overBatch
  induction n with
  | zero => simp [foldN]
  | succ n ih =>
    rw [foldN, ih, Finset.sum_filter, Finset.sum_filter, Finset.sum_range_succ]
    split
    · exact add_assoc _ _ _
    · simp

/-- C29: the functions of two operands.  Batch `b'` of the result reads batch `bb s b'` of an operand of shape `s`: for each operand the
contributions of all batches of the result that read an element are added to its gradient, in order (`overBatch`). -/
theorem C29_binary (ha : xa.Holds d sa fa) (hb : xb.Holds d sb fb) (hd : ∀ i, sa.get i = sb.get i) (hbc : BatchCompat sa sb)
    (hs : s.Is sa.get (max sa.batch sb.batch)) (hy : y.Holds d s fy) (hgy : gy.Holds d s fgy) (hgx : gx.Holds d sa fg)
    {gb : Tensor α} {fgb : Arr α} (hgb : gb.Holds d sb fgb) (p : Profile) (m : Mem α) :
    (Yields (Dev.bw (.biA .add) p d m [xa, xb] [y] gy gx) d sa (fun c b => overBatch sa s.batch b (fun b' acc => acc + fgy c b') (fg c b)) ∧
     Yields (Dev.bw (.biB .add) p d m [xa, xb] [y] gy gb) d sb (fun c b => overBatch sb s.batch b (fun b' acc => acc + fgy c b') (fgb c b))) ∧
    (Yields (Dev.bw (.biA .sub) p d m [xa, xb] [y] gy gx) d sa (fun c b => overBatch sa s.batch b (fun b' acc => acc + fgy c b') (fg c b)) ∧
     Yields (Dev.bw (.biB .sub) p d m [xa, xb] [y] gy gb) d sb (fun c b => overBatch sb s.batch b (fun b' acc => acc - fgy c b') (fgb c b))) ∧
    (Yields (Dev.bw (.biA .mul) p d m [xa, xb] [y] gy gx) d sa (fun c b =>
      overBatch sa s.batch b (fun b' acc => acc + fb c (bb sb b') * fgy c b') (fg c b)) ∧
     Yields (Dev.bw (.biB .mul) p d m [xa, xb] [y] gy gb) d sb (fun c b =>
      overBatch sb s.batch b (fun b' acc => acc + fa c (bb sa b') * fgy c b') (fgb c b))) ∧
    (Yields (Dev.bw (.biA .div) p d m [xa, xb] [y] gy gx) d sa (fun c b =>
      overBatch sa s.batch b (fun b' acc => acc + fgy c b' / fb c (bb sb b')) (fg c b)) ∧
     Yields (Dev.bw (.biB .div) p d m [xa, xb] [y] gy gb) d sb (fun c b =>
      overBatch sb s.batch b (fun b' acc => acc - fgy c b' * fy c b' / fb c (bb sb b')) (fgb c b))) ∧
    (Yields (Dev.bw (.biA .powf) p d m [xa, xb] [y] gy gx) d sa (fun c b =>
      overBatch sa s.batch b (fun b' acc => acc + fgy c b' * fb c (bb sb b') * Flt.powf (fa c (bb sa b')) (fb c (bb sb b') - 1)) (fg c b)) ∧
     Yields (Dev.bw (.biB .powf) p d m [xa, xb] [y] gy gb) d sb (fun c b =>
      overBatch sb s.batch b (fun b' acc => acc + fgy c b' * Flt.ln (fa c (bb sa b')) * fy c b') (fgb c b))) := by
  have he := (elementwise_iff ha.wf hb.wf).mpr ⟨hd, hbc, hs⟩
  have h1 : ∀ o : Bi, Yields (Dev.bw (.biA o) p d m [xa, xb] [y] gy gx) d sa
      ((BwOp.biA o).sem [(sa, fa), (sb, fb)] [(s, fy)] (s, fgy) (sa, fg)) := fun o =>
    Dev.bw_ok (op := .biA o) (xi := [(sa, fa), (sb, fb)]) (yi := [(s, fy)]) (.cons ha (.cons hb .nil)) (.cons hy .nil) hgy hgx
      (by show (do Verif.check (sa = sa); Verif.check (s = s); let t ← ShapeOps.elementwise sa sb; Verif.check (s = t) : Res Unit) = _
          rw [he]; simp [Verif.check]) trivial p m
  have h2 : ∀ o : Bi, Yields (Dev.bw (.biB o) p d m [xa, xb] [y] gy gb) d sb
      ((BwOp.biB o).sem [(sa, fa), (sb, fb)] [(s, fy)] (s, fgy) (sb, fgb)) := fun o =>
    Dev.bw_ok (op := .biB o) (xi := [(sa, fa), (sb, fb)]) (yi := [(s, fy)]) (.cons ha (.cons hb .nil)) (.cons hy .nil) hgy hgb
      (by show (do Verif.check (sb = sb); Verif.check (s = s); let t ← ShapeOps.elementwise sa sb; Verif.check (s = t) : Res Unit) = _
          rw [he]; simp [Verif.check]) trivial p m
  exact ⟨⟨h1 .add, h2 .add⟩, ⟨h1 .sub, h2 .sub⟩, ⟨h1 .mul, h2 .mul⟩, ⟨h1 .div, h2 .div⟩, h1 .powf, h2 .powf⟩

/-! ### max, min -/

/-- C29: `max` and `min`: on each fibre, the gradient goes to the first position that holds the bound, and nowhere else. -/
theorem C29_max_min (hx : x.Holds d sx fx) {dim : Nat} (hdim : dim < 8) (hs : s.Is (cset sx.get dim 1) sx.batch) (hy : y.Holds d s fy)
    (hgy : gy.Holds d s fgy) (hgx : gx.Holds d sx fg) (p : Profile) (m : Mem α) :
    let F : Arr α := fun c b =>
      if firstIdx (sx.get dim) (fun j => Flt.feq (fx (cset c dim j) b) (fy (cset c dim 0) b)) = some (c dim)
      then fg c b + fgy (cset c dim 0) b else fg c b
    Yields (Dev.bw (.max dim) p d m [x] [y] gy gx) d sx F ∧ Yields (Dev.bw (.min dim) p d m [x] [y] gy gx) d sx F := by
  have he : sx.resizeDim .debug dim 1 = ok s := by
    refine hx.wf.resizeDim_iff.mpr ⟨hdim, by omega, ?_, hs⟩
    exact hx.wf.volN_shrink (hx.wf.get_pos dim)
  have hc : (do Verif.check (sx = sx); Verif.check (s = s); let t ← sx.resizeDim .debug dim 1; Verif.check (s = t) : Res Unit) = ok () := by
    rw [he]; simp [Verif.check]
  exact ⟨Dev.bw_ok (op := .max dim) (xi := [(sx, fx)]) (yi := [(s, fy)]) (.cons hx .nil) (.cons hy .nil) hgy hgx hc trivial p m,
    Dev.bw_ok (op := .min dim) (xi := [(sx, fx)]) (yi := [(s, fy)]) (.cons hx .nil) (.cons hy .nil) hgy hgx hc trivial p m⟩

/-- The meaning of `firstIdx`: the least index below `n` with the property. -/
theorem firstIdx_iff {n i : Nat} {P : Nat → Bool} : firstIdx n P = some i ↔ i < n ∧ P i = true ∧ ∀ j, j < i → P j = false := by
  unfold firstIdx
  rw [List.find?_range_eq_some]
  constructor
  · rintro ⟨h1, h2, h3⟩
    exact ⟨by simpa using h2, h1, fun j hj => by simpa using h3 j hj⟩
  · rintro ⟨h1, h2, h3⟩
    exact ⟨h2, by simpa using h1, fun j hj => by simpa using h3 j hj⟩

/-! ### Matrices -/

/-- C29: `matmul`: `ga += gy · bᵀ`, `gb += aᵀ · gy`, added up over the batches of the result that read the operand (the product is added
in blocks of 8).  The temporaries must not exceed the largest block of the memory pool. -/
theorem C29_matmul (ha : xa.Holds d sa fa) (hb : xb.Holds d sb fb) (hf : MatFits sa sb) (hv : sa.get 0 * sb.get 1 < U32)
    (hs : s.Is (fun i => if i = 0 then sa.get 0 else if i = 1 then sb.get 1 else 1) (max sa.batch sb.batch)) (hy : y.Holds d s fy)
    (hgy : gy.Holds d s fgy) (hgx : gx.Holds d sa fg) {gb : Tensor α} {fgb : Arr α} (hgb : gb.Holds d sb fgb)
    (hta : s.batch * sa.volume ≤ 2 ^ 31) (htb : s.batch * sb.volume ≤ 2 ^ 31) (p : Profile) (m : Mem α) :
    Yields (Dev.bw .matmulA p d m [xa, xb] [y] gy gx) d sa (fun c b => overBatch sa s.batch b (fun b' acc =>
      acc + sumBlk (s.get 1) (fun j => fgy (mat (c 0) j) b' * fb (mat (c 1) j) (bb sb b'))) (fg c b)) ∧
    Yields (Dev.bw .matmulB p d m [xa, xb] [y] gy gb) d sb (fun c b => overBatch sb s.batch b (fun b' acc =>
      acc + sumBlk (sa.get 0) (fun i => fa (mat i (c 0)) (bb sa b') * fgy (mat i (c 1)) b')) (fgb c b)) := by
  have he : ShapeOps.matmul .debug sa sb = ok s := (matmul_iff ha.wf hb.wf).mpr ⟨hf.1, hf.2.1, hf.2.2.1, hf.2.2.2, hv, hs⟩
  refine ⟨Dev.bw_ok (op := .matmulA) (xi := [(sa, fa), (sb, fb)]) (yi := [(s, fy)]) (.cons ha (.cons hb .nil)) (.cons hy .nil) hgy hgx
      ?_ ?_ p m, Dev.bw_ok (op := .matmulB) (xi := [(sa, fa), (sb, fb)]) (yi := [(s, fy)]) (.cons ha (.cons hb .nil)) (.cons hy .nil) hgy hgb
      ?_ ?_ p m⟩
  · show (do Verif.check (sa = sa); Verif.check (s = s); let t ← ShapeOps.matmul .debug sa sb; Verif.check (s = t) : Res Unit) = _
    rw [he]; simp [Verif.check]
  · intro a b e; cases e; exact hta
  · show (do Verif.check (sb = sb); Verif.check (s = s); let t ← ShapeOps.matmul .debug sa sb; Verif.check (s = t) : Res Unit) = _
    rw [he]; simp [Verif.check]
  · intro a b e; cases e; exact htb

/-- C29: `transpose`. -/
theorem C29_transpose (hx : x.Holds d sx fx) (hm : IsMat sx) (hs : s.Is (fun i => if i = 0 then sx.get 1 else if i = 1 then sx.get 0 else 1) sx.batch)
    (hy : y.Holds d s fy) (hgy : gy.Holds d s fgy) (hgx : gx.Holds d sx fg) (p : Profile) (m : Mem α) :
    Yields (Dev.bw .transpose p d m [x] [y] gy gx) d sx (fun c b => fg c b + fgy (mat (c 1) (c 0)) b) := by
  have he : ShapeOps.transpose .debug sx = ok s := (transpose_iff hx.wf).mpr ⟨hm, hs⟩
  refine Dev.bw_ok (op := .transpose) (xi := [(sx, fx)]) (yi := [(s, fy)]) (.cons hx .nil) (.cons hy .nil) hgy hgx ?_ trivial p m
  show (do Verif.check (sx = sx); Verif.check (s = s); let t ← ShapeOps.transpose .debug sx; Verif.check (s = t) : Res Unit) = _
  rw [he]; simp [Verif.check]

/-- C29: `triangular_l`, `triangular_u` of square matrices: only the elements the forward function keeps receive gradient. -/
theorem C29_triangular (hx : x.Holds d s fx) (hm : IsMat s) (hsq : s.get 0 = s.get 1) {k : Nat} (hk : s.get 0 + k ≤ U32)
    (hy : y.Holds d s fy) (hgy : gy.Holds d s fgy) (hgx : gx.Holds d s fg) (p : Profile) (m : Mem α) :
    Yields (Dev.bw (.triangularL k) p d m [x] [y] gy gx) d s (fun c b => fg c b + (if c 1 + k ≤ c 0 then fgy c b else 0)) ∧
    Yields (Dev.bw (.triangularU k) p d m [x] [y] gy gx) d s (fun c b => fg c b + (if c 0 + k ≤ c 1 then fgy c b else 0)) := by
  have hc : (do Verif.check (s = s); Verif.check (s = s); Verif.check (s = s) : Res Unit) = ok () := by simp [Verif.check]
  have hf := hx.wf.isMatrix_iff.mpr hm
  exact ⟨Dev.bw_ok (op := .triangularL k) (xi := [(s, fx)]) (yi := [(s, fy)]) (.cons hx .nil) (.cons hy .nil) hgy hgx hc ⟨⟨hf, hsq⟩, hk⟩ p m,
    Dev.bw_ok (op := .triangularU k) (xi := [(s, fx)]) (yi := [(s, fy)]) (.cons hx .nil) (.cons hy .nil) hgy hgx hc ⟨⟨hf, hsq⟩, hk⟩ p m⟩

/-! ### slice, pick -/

/-- C29: `slice_bw(gy, dim, lower, gx)`: position `lower + i` of the axis receives position `i` of `gy`, the rest is kept. -/
theorem C29_slice {dim lower upper : Nat} (hd : dim < 8) (h1 : lower < upper) (h2 : upper ≤ sx.get dim)
    (hs : s.Is (cset sx.get dim (upper - lower)) sx.batch) (hgy : gy.Holds d s fgy) (hgx : gx.Holds d sx fg) (p : Profile) (m : Mem α) :
    Yields (Dev.bw (.slice dim lower) p d m [] [] gy gx) d sx (fun c b =>
      if lower ≤ c dim ∧ c dim < upper then fg c b + fgy (cset c dim (c dim - lower)) b else fg c b) := by
  have hg : s.get dim = upper - lower := by
    rw [show s.get dim = cset sx.get dim (upper - lower) dim from hs.2.1 dim]; simp [cset]
  have hu : lower + s.get dim = upper := by omega
  have he : ShapeOps.slice .debug sx dim lower upper = ok s := (slice_iff hgx.wf).mpr ⟨hd, h1, h2, hs⟩
  obtain ⟨g', e, h⟩ := Dev.bw_ok (op := .slice dim lower) (xi := []) (yi := []) (xs := []) (ys := []) .nil .nil hgy hgx (by
    show (do let u ← uadd .debug lower (s.get dim); let t ← ShapeOps.slice .debug sx dim lower u; Verif.check (t = s) : Res Unit) = _
    have hlt : sx.get dim < U32 := (hgx.wf.get_le_volume dim).trans_lt hgx.wf.vol_lt
    rw [show uadd .debug lower (s.get dim) = ok upper from by rw [← hu]; exact u32_ok (by omega), ok_bind, he, ok_bind]; simp [Verif.check]) trivial p m
  refine ⟨g', e, h.congr fun c b _ => ?_⟩
  show _ = if lower ≤ c dim ∧ c dim < lower + s.get dim then _ else _
  rw [hu]

/-- C29: `pick_bw`: batch `b'` of `gy` is added at position `ids[b']` of the batch of `gx` it was picked from. -/
theorem C29_pick {ids : List Nat} {dim : Nat} (hd : dim < 8) (hne : ids ≠ []) (hb : sx.batch = ids.length ∨ sx.batch = 1 ∨ ids.length = 1)
    (hid : ∀ id, id ∈ ids → id < sx.get dim) (hs : s.Is (cset sx.get dim 1) (max sx.batch ids.length)) (hgy : gy.Holds d s fgy)
    (hgx : gx.Holds d sx fg) (p : Profile) (m : Mem α) :
    Yields (Dev.bw (.pick ids dim) p d m [] [] gy gx) d sx (fun c b =>
      overBatch sx s.batch b (fun b' acc =>
        if c dim = ids.getD (if ids.length = 1 then 0 else b') 0 then acc + fgy (cset c dim 0) b' else acc) (fg c b)) := by
  have he : ShapeOps.pick .debug sx ids dim = ok s := (pick_iff hgx.wf).mpr ⟨hd, hne, hb, hid, hs⟩
  refine Dev.bw_ok (op := .pick ids dim) (xi := []) (yi := []) (xs := []) (ys := []) .nil .nil hgy hgx ?_ trivial p m
  show (do let t ← ShapeOps.pick .debug sx ids dim; Verif.check (t = s) : Res Unit) = _
  rw [he]; simp [Verif.check]

/-! ### Kernels no device function calls -/

theorem vol_of_get {s t : Shape} (hs : s.WF) (ht : t.WF) (h : ∀ i, s.get i = t.get i) : s.volume = t.volume := by
  rw [hs.vol, ht.vol]; exact volN_congr fun i _ => h i

/-- C29: the kernel `batch_slice_bw_impl` adds batch `i` of `gy` to batch `lower + i` of `gx`. -/
theorem C29_batch_slice_kernel {lower upper : Nat} (h1 : lower < upper) (h2 : upper ≤ sx.batch) (hs : s.Is sx.get (upper - lower))
    (hgy : gy.Holds d s fgy) (hgx : gx.Holds d sx fg) (p : Profile) (m : Mem α) :
    Yields (Dev.callBw p m .batchSlice [] [] [gy] [lower] [] gx) d sx (fun c b =>
      if lower ≤ b ∧ b < upper then fg c b + fgy c (b - lower) else fg c b) := by
  have hv : sx.volume = s.volume := vol_of_get hgx.wf hs.1 fun i => (hs.2.1 i).symm
  have hb : s.batch = upper - lower := hs.2.2
  obtain ⟨g', e, h⟩ := K.batchSliceBw_ok (p := p) (m := m) (xs := []) (ys := []) (rg := []) (u := []) (f := []) (off := lower) hgy.flat hgx.flat hv (by omega)
  refine ⟨g', e, h.holds fun c b hvc => ?_⟩
  have hoff : ∀ b, sx.offset c b = b * s.volume + sx.offset c 0 := fun b => by unfold Shape.offset; rw [← hv, hgx.wf.vol]; ring
  have h0 : sx.offset c 0 < s.volume := by
    have := hgx.wf.offset_lt (c := c) (b := 0) ⟨hvc.1, hgx.wf.batch_pos⟩
    have h' : sx.offset c 0 = offN sx.get c 8 := by unfold Shape.offset; ring
    rw [h', ← hv, hgx.wf.vol]; exact offN_lt fun i _ => hvc.1 i
  have hso : ∀ b', s.offset c b' = b' * s.volume + sx.offset c 0 := fun b' => by
    unfold Shape.offset; rw [hs.1.vol, offN_congr (fun i _ => hs.2.1 i) (fun _ _ => rfl)]; ring
  have hsz : s.size = (upper - lower) * s.volume := by unfold Shape.size; rw [hb]
  show (if s.volume * lower ≤ sx.offset c b ∧ sx.offset c b < s.volume * lower + s.size then _ else _) = _
  have e1 : (s.volume * lower ≤ sx.offset c b ∧ sx.offset c b < s.volume * lower + s.size) ↔ (lower ≤ b ∧ b < upper) := by
    rw [hoff, hsz, Nat.mul_comm s.volume lower, ← Nat.add_mul, show lower + (upper - lower) = upper by omega]
    constructor
    · rintro ⟨q1, q2⟩
      constructor
      · by_contra hc
        have : (b + 1) * s.volume ≤ lower * s.volume := Nat.mul_le_mul_right _ (by omega)
        rw [Nat.add_mul] at this; omega
      · by_contra hc
        have : upper * s.volume ≤ b * s.volume := Nat.mul_le_mul_right _ (by omega)
        omega
    · rintro ⟨q1, q2⟩
      have q1' : lower * s.volume ≤ b * s.volume := Nat.mul_le_mul_right _ q1
      have q2' : (b + 1) * s.volume ≤ upper * s.volume := Nat.mul_le_mul_right _ (by omega)
      rw [Nat.add_mul] at q2'
      omega
  rw [Arr.flat_offset hgx.wf fg hvc]
  by_cases hc : lower ≤ b ∧ b < upper
  · rw [if_pos (e1.mpr hc), if_pos hc]
    have : sx.offset c b - s.volume * lower = s.offset c (b - lower) := by
      rw [hoff, hso, Nat.mul_comm s.volume, Nat.sub_mul]
      have q1' : lower * s.volume ≤ b * s.volume := Nat.mul_le_mul_right _ hc.1
      omega
    rw [this, Arr.flat_offset hgy.wf fgy ⟨fun i => by rw [hs.2.1 i]; exact hvc.1 i, by omega⟩]
  · rw [if_neg (fun q => hc (e1.mp q)), if_neg hc]

/-- C29: the kernel `batch_pick_bw_impl` adds batch `i` of `gy` to batch `ids[i]` of `gx`, repeated ids adding up. -/
theorem C29_batch_pick_kernel {ids : List Nat} (hid : ∀ id, id ∈ ids → id < sx.batch) (hs : s.Is sx.get ids.length)
    (hgy : gy.Holds d s fgy) (hgx : gx.Holds d sx fg) (p : Profile) (m : Mem α) :
    Yields (Dev.callBw p m .batchPick [] [] [gy] ids [] gx) d sx (fun c b =>
      foldN ids.length (fun i acc => if b = ids.getD i 0 then acc + fgy c i else acc) (fg c b)) := by
  have hv : sx.volume = s.volume := vol_of_get hgx.wf hs.1 fun i => (hs.2.1 i).symm
  have hb : s.batch = ids.length := hs.2.2
  obtain ⟨g', e, h⟩ := K.batchPickBw_ok (p := p) (m := m) (xs := []) (ys := []) (rg := []) (f := []) (ids := ids) (id := fun i => ids.getD i 0)
    hgy.flat hgx.flat hv (fun b hb' => by rw [hb] at hb'; simp [List.getD, hb']) (fun b hb' => by
      rw [hb] at hb'
      exact hid _ (by simp [List.getD, hb']))
  refine ⟨g', e, h.holds fun c b hvc => ?_⟩
  obtain ⟨q1, q2⟩ := hgx.wf.coord_offset hvc
  show foldN _ _ _ = _
  rw [Arr.flat_offset hgx.wf fg hvc, hb, ← hv, q2]
  refine foldN_congr fun i hi a => ?_
  have hvs : s.Valid c i := ⟨fun j => by rw [hs.2.1 j]; exact hvc.1 j, by omega⟩
  have : i * sx.volume + sx.offset c b % sx.volume = s.offset c i := by
    have h0 : offN sx.get c 8 < sx.volume := by rw [hgx.wf.vol]; exact offN_lt fun i _ => hvc.1 i
    unfold Shape.offset
    rw [← hgx.wf.vol, ← hs.1.vol, offN_congr (fun i _ => hs.2.1 i) (fun _ _ => rfl), ← hv, Nat.mul_comm b, Nat.mul_comm i]
    rw [Nat.add_mul_mod_self_left, Nat.mod_eq_of_lt h0]; ring
  rw [this, Arr.flat_offset hgy.wf fgy hvs]

/-- C29: the kernel `flip_bw_impl`. -/
theorem C29_flip_kernel {dim : Nat} (hgy : gy.Holds d s fgy) (hgx : gx.Holds d s fg) (p : Profile) (m : Mem α) :
    Yields (Dev.callBw p m .flip [] [] [gy] [dim] [] gx) d s (fun c b => fg c b + fgy (cset c dim (s.get dim - 1 - c dim)) b) := by
  obtain ⟨y', e, h⟩ := K.flipBw_ok (p := p) (m := m) (dim := dim) (xs := []) (ys := []) (rg := []) (u := []) (f := ([] : List α)) hgy.flat hgx.flat
  refine ⟨y', e, h.holds fun c b hv => ?_⟩
  have hd := hv.1 dim
  obtain ⟨h1, h2⟩ := flip_pos hgy.wf (dim := dim) (j := s.get dim - 1 - c dim) (by omega) hv
  show _ + _ = _
  rw [h2, show s.get dim - c dim - 1 = s.get dim - 1 - c dim by omega, h1, Arr.flat_offset hgx.wf fg hv,
    Arr.flat_offset hgy.wf fgy (valid_cset (fun _ _ => rfl) (by omega) rfl hv)]

/-- C29: the kernel `permute_dims_bw_impl`: the gradient moves back along the permutation. -/
theorem C29_permute_kernel {perm : List Nat} {n : Nat} (hn : n ≤ 8) (hp : perm.Perm (List.range n)) (ht : ∀ i, n ≤ i → sx.get i = 1)
    (hs : s.Is (fun i => if i < n then sx.get (perm.getD i 0) else 1) sx.batch) (hgy : gy.Holds d s fgy) (hgx : gx.Holds d sx fg)
    (p : Profile) (m : Mem α) :
    Yields (Dev.callBw p m .permuteDims [] [] [gy] perm [] gx) d sx (fun c b =>
      fg c b + fgy (fun i => if i < n then c (perm.getD i 0) else 0) b) := by
  have ip := IsPerm.of_perm hp
  have hd : ∀ i, i < n → s.get i = sx.get (perm.getD i 0) := fun i hi => by
    have := hs.2.1 i; simp only [if_pos hi] at this; exact this
  have ht' : ∀ i, n ≤ i → s.get i = 1 := fun i hi => by
    have := hs.2.1 i; simp only [if_neg (show ¬ i < n by omega)] at this; exact this
  have hvx : volN sx.get n = sx.volume := by rw [hgx.wf.vol, volN_tail hn ht]
  have hvy : volN s.get n = s.volume := by rw [hs.1.vol, volN_tail hn ht']
  have hv : sx.volume = s.volume := by
    rw [← hvx, ← hvy, volN_prod, volN_prod]
    symm
    refine Finset.prod_bij' (fun i _ => perm.getD i 0) (fun a _ => perm.idxOf a) ?_ ?_ ?_ ?_ ?_
    · intro i hi; exact Finset.mem_range.mpr (ip.lt i (Finset.mem_range.mp hi))
    · intro a ha; exact Finset.mem_range.mpr (ip.lt' a (Finset.mem_range.mp ha))
    · intro i hi; exact ip.left i (Finset.mem_range.mp hi)
    · intro a ha; exact ip.right a (Finset.mem_range.mp ha)
    · intro i hi; exact hd i (Finset.mem_range.mp hi)
  obtain ⟨y', e, h⟩ := K.permuteBw_ok (p := p) (m := m) (xs := []) (ys := []) (rg := []) (f := ([] : List α)) ip hgy.flat hgx.flat
    hs.2.2.symm hd hvx hvy hv
  refine ⟨y', e, h.holds fun c b hvc => ?_⟩
  have hvy' : s.Valid (fun i => if i < n then c (perm.getD i 0) else 0) b := by
    refine ⟨fun i => ?_, by rw [hs.2.2]; exact hvc.2⟩
    show (if i < n then c (perm.getD i 0) else 0) < s.get i
    split <;> rename_i hi
    · rw [hd i hi]; exact hvc.1 _
    · rw [ht' i (by omega)]; omega
  obtain ⟨o1, o2⟩ := hgx.wf.offset_div hvc
  show _ + _ = _
  rw [Arr.flat_offset hgx.wf fg hvc, o1, o2]
  have e2 : offN s.get (fun i => sx.coord (offN sx.get c 8) (perm.getD i 0)) n =
      offN s.get (fun i => if i < n then c (perm.getD i 0) else 0) 8 := by
    have e3 : offN s.get (fun i => if i < n then c (perm.getD i 0) else 0) 8 =
        offN s.get (fun i => if i < n then c (perm.getD i 0) else 0) n := by
      obtain ⟨k, hk⟩ := Nat.exists_eq_add_of_le hn
      rw [hk, offN_add, offN_zero (n := k) (c := fun i => if n + i < n then c (perm.getD (n + i) 0) else 0) (fun i _ => by simp)]
      simp
    rw [e3]
    refine offN_congr (fun _ _ => rfl) fun i hi => ?_
    rw [if_pos hi]
    unfold Shape.coord
    have := ip.lt i hi
    exact offN_coord (n := 8) (fun i _ => hvc.1 i) (by omega)
  rw [e2, hv, Nat.add_comm (b * s.volume), ← hgy.wf.offset_eq, Arr.flat_offset hgy.wf fgy hvy']

/-! ### Where the property fails -/

/-- C29 is false of `batch_slice_bw`: on all arguments it accepts, it panics (it calls `slice_bw_impl` with a single number). -/
theorem C29_batch_slice_bw_panics {lower upper : Nat} (h1 : lower < upper) (h2 : upper ≤ sx.batch) (hu : upper < U32)
    (hs : s.Is sx.get (upper - lower))
    (hgy : gy.Holds d s fgy) (hgx : gx.Holds d sx fg) (p : Profile) (m : Mem α) :
    (BwOp.batchSlice (α := α) lower).check p [] [] s sx = ok () ∧ Dev.bw (.batchSlice lower) p d m [] [] gy gx = panic := by
  have hc : (BwOp.batchSlice (α := α) lower).check p [] [] s sx = ok () := by
    show (do let u ← uadd p lower s.batch; let t ← ShapeOps.batchSlice sx lower u; Verif.check (t = s) : Res Unit) = _
    rw [show uadd p lower s.batch = ok upper from by
      rw [show s.batch = upper - lower from hs.2.2]; unfold uadd; rw [show lower + (upper - lower) = upper by omega]; exact u32_ok hu,
      ok_bind, (batchSlice_iff hgx.wf).mpr ⟨h1, h2, hs⟩, ok_bind]
    simp [Verif.check]
  refine ⟨hc, ?_⟩
  unfold Dev.bw
  show (gy.onDev d >>= fun _ => gx.onDev d >>= fun _ => (BwOp.batchSlice (α := α) lower).check p [] [] gy.shape gx.shape >>= fun _ =>
    K.sliceBw p m [] [] [gy] [lower] [] gx) = panic
  rw [(Tensor.onDev_eq_ok (u := ())).mpr hgy.device, ok_bind, (Tensor.onDev_eq_ok (u := ())).mpr hgx.device, ok_bind, hgy.shape, hgx.shape,
    hc, ok_bind]
  rfl

/-- C29 is false of `batch_pick_bw`: unless exactly two ids are given, it never returns (it calls `pick_bw_impl`, which takes the first
id for the axis and finds one id too few). -/
theorem C29_batch_pick_bw_never_returns {ids : List Nat} (h2 : ids.length ≠ 2) (p : Profile) (m : Mem α) (g' : Tensor α) :
    Dev.bw (.batchPick ids) p d m [] [] gy gx ≠ ok g' := by
  intro h
  have h' : (gy.onDev d >>= fun _ => gx.onDev d >>= fun _ => (BwOp.batchPick (α := α) ids).check p [] [] gy.shape gx.shape >>= fun _ =>
    K.pickBw p m [] [] [gy] ids [] gx) = ok g' := h
  simp only [Res.bind_eq_ok] at h'
  obtain ⟨_, _, _, _, _, hc, hk⟩ := h'
  have hbt : gy.shape.batch = ids.length := by
    have hc' : (do let t ← ShapeOps.batchPick gx.shape ids; Verif.check (t = gy.shape) : Res Unit) = ok _ := hc
    obtain ⟨t, ht, hc'⟩ := Res.bind_eq_ok.mp hc'
    rw [← check_eq_ok.mp hc']
    unfold ShapeOps.batchPick at ht
    rw [check_bind_ok] at ht
    obtain ⟨_, ht⟩ := ht
    obtain ⟨_, _, ht⟩ := Res.bind_eq_ok.mp ht
    obtain ⟨_, rfl⟩ := updateBatch_ok_iff.mp ht
    rfl
  unfold K.pickBw at hk
  simp only [Res.bind_eq_ok] at hk
  obtain ⟨gy', e1, dim, e2, base, e3, _, _, src, e4, pgx, e5, st, e6, _⟩ := hk
  cases e1
  have hne : ids ≠ [] := by rintro rfl; cases e2
  have hpos : 0 < ids.length := List.length_pos_iff.mpr hne
  rw [hbt] at e6
  obtain ⟨t, t', ht⟩ := loop_ok_body e6 (ids.length - 1) (by omega)
  obtain ⟨id, hid, _⟩ := Res.bind_eq_ok.mp ht
  unfold ix at hid
  have hlt : (ids.length - 1) * (if 1 < (ids.drop 1).length then 1 else 0) < (ids.drop 1).length := by
    by_contra hc
    rw [List.getElem?_eq_none (by omega)] at hid
    cases hid
  rw [List.length_drop] at hlt
  split at hlt <;> omega

theorem newBySlice_pair (m : Nat → α) (u v : α) : ∃ w : List α, ∃ z : α,
    Dev.newBySlice .debug 0 m (vecShape 1 2) [u, v] = ok ⟨some 0, vecShape 1 2, some (u :: v :: z :: w), none⟩ := by
  refine ⟨(List.range 61).map (fun i => m (i + 3)), m 2, ?_⟩
  have h : (List.range 64).map m = m 0 :: m 1 :: m 2 :: (List.range 61).map (fun i => m (i + 3)) := by
    rw [show 64 = 61 + 1 + 1 + 1 from rfl, List.range_succ_eq_map, List.range_succ_eq_map, List.range_succ_eq_map]
    simp [List.map_map, Function.comp_def]
  unfold Dev.newBySlice
  rw [small_alloc (s := vecShape 1 2) (n := 2) rfl (by omega) (by omega), ok_bind, h]
  generalize (List.range 61).map (fun i => m (i + 3)) = w
  rfl

/-- C29 is false of `batch_pick_bw` with two ids: with `gy = [a, b]` the gradient of picking batches 0 and 1 of two scalars, and
`gx = [u, v]`, the accepted call leaves `[u, v + a]` instead of `[u + a, v + b]` (and changes memory behind the tensor). -/
theorem C29_batch_pick_bw_wrong (a b u v : α) (m : Nat → α) (p : Profile) (m' : Mem α) :
    ∃ gy gx g' : Tensor α, Dev.newBySlice .debug 0 m (vecShape 1 2) [a, b] = ok gy ∧ Dev.newBySlice .debug 0 m (vecShape 1 2) [u, v] = ok gx ∧
      (BwOp.batchPick (α := α) [0, 1]).check p [] [] gy.shape gx.shape = ok () ∧
      Dev.bw (.batchPick [0, 1]) p 0 m' [] [] gy gx = ok g' ∧ g'.toVec .debug = ok [u, v + a] := by
  obtain ⟨w1, z1, e1⟩ := newBySlice_pair m a b
  obtain ⟨w2, z2, e2⟩ := newBySlice_pair m u v
  refine ⟨_, _, ⟨some 0, vecShape 1 2, some (u :: (v + a) :: (z2 + b) :: w2), none⟩, e1, e2, by cases p <;> rfl, ?_, rfl⟩
  have hc : (BwOp.batchPick (α := α) [0, 1]).check p [] [] (vecShape 1 2) (vecShape 1 2) = ok () := by cases p <;> rfl
  have key : ∀ gy gx : Tensor α, Dev.bw (.batchPick [0, 1]) p 0 m' [] [] gy gx = (gy.onDev 0 >>= fun _ => gx.onDev 0 >>= fun _ =>
    (BwOp.batchPick (α := α) [0, 1]).check p [] [] gy.shape gx.shape >>= fun _ => K.pickBw p m' [] [] [gy] [0, 1] [] gx) := fun _ _ => rfl
  rw [key]
  rw [(Tensor.onDev_eq_ok (u := ())).mpr rfl, ok_bind, (Tensor.onDev_eq_ok (u := ())).mpr rfl, ok_bind, hc, ok_bind]
  unfold K.pickBw
  simp only [ix_cons_zero, ok_bind, Tensor.ptr, unwrap]
  rw [show (vecShape 1 2).lowerVolumeU p 0 = ok 1 by cases p <;> rfl, ok_bind, check_true _ (by decide), ok_bind]
  show (loop 2 _ _ >>= _) = _
  rw [loop_succ, loop_succ, loop_zero, ok_bind]
  have v1 : (vecShape 1 2).volume / 1 = 1 := rfl
  have v2 : (vecShape 1 2).get 0 = 1 := rfl
  have v3 : (vecShape 1 2).hasBatch = true := rfl
  have v4 : (vecShape 1 2).volume = 1 := rfl
  simp only [v1, v2, v3, v4, loop_succ, loop_zero, ok_bind, List.drop_succ_cons, List.drop_zero, List.length_cons, List.length_nil,
    Nat.lt_irrefl, if_false, Nat.mul_zero, Nat.zero_add, ix_cons_zero, if_true, Nat.mul_one, Nat.add_zero]
  rw [rd_eq (by simp), ok_bind, upd_eq (by simp)]
  simp only [ok_bind]
  rw [rd_eq (by simp), ok_bind, upd_eq (by simp)]
  rfl

/-- With integers: `gy = [5, 7]`, `gx = [0, 0]` gives `[0, 5]`, not `[5, 7]`. -/
example (m : Nat → ℤ) (p : Profile) (m' : Mem ℤ) : let _ := intFlt; ∃ gy gx g' : Tensor ℤ,
    Dev.newBySlice .debug 0 m (vecShape 1 2) [5, 7] = ok gy ∧ Dev.newBySlice .debug 0 m (vecShape 1 2) [0, 0] = ok gx ∧
      Dev.bw (.batchPick [0, 1]) p 0 m' [] [] gy gx = ok g' ∧ g'.toVec .debug = ok [0, 5] := by
  intro _
  obtain ⟨gy, gx, g', h1, h2, -, h3, h4⟩ := C29_batch_pick_bw_wrong (α := ℤ) 5 7 0 0 m p m'
  exact ⟨gy, gx, g', h1, h2, h3, h4⟩

/-- C29 is false of the negation: `neg_bw` panics on every input, its kernel is not registered. -/
theorem C29_neg_bw_panics (hx : x.Holds d s fx) (hy : y.Holds d s fy) (hgy : gy.Holds d s fgy) (hgx : gx.Holds d s fg)
    (p : Profile) (m : Mem α) : Dev.bw (.un .neg) p d m [x] [y] gy gx = panic := by
  unfold Dev.bw
  rw [show Dev.onAll d [x] = ok () from onAll_ok fun t ht => by simp at ht; rw [ht]; exact hx.device, ok_bind,
    show Dev.onAll d [y] = ok () from onAll_ok fun t ht => by simp at ht; rw [ht]; exact hy.device, ok_bind,
    (Tensor.onDev_eq_ok (u := ())).mpr hgy.device, ok_bind, (Tensor.onDev_eq_ok (u := ())).mpr hgx.device, ok_bind]
  show ((do Verif.check (x.shape = gx.shape); Verif.check (y.shape = gy.shape); Verif.check (x.shape = y.shape) : Res Unit) >>= _) = _
  rw [hx.shape, hy.shape, hgy.shape, hgx.shape]
  simp only [Verif.check, if_true, ok_bind]
  rfl

/-! ### A concrete case -/

/-- The 2×4 shapes with batches 2 and 1 meet the hypotheses of the two-operand functions, `max` and `slice`. -/
example (k : α) (m : Nat → α) (mm : Mem α) : ∃ a b y gy ga gs : Tensor α,
    Dev.newByConstant .debug 0 m (matShape 2 4 1) k = ok a ∧ Dev.newByConstant .debug 0 m (matShape 2 4 2) k = ok b ∧
    Dev.newByConstant .debug 0 m (matShape 2 4 2) k = ok y ∧ Dev.newByConstant .debug 0 m (matShape 2 4 2) 1 = ok gy ∧
    Dev.newByConstant .debug 0 m (matShape 2 4 1) 0 = ok ga ∧ Dev.newByConstant .debug 0 m (matShape 2 2 1) 1 = ok gs ∧
    Yields (Dev.bw (.biA .mul) .debug 0 mm [a, b] [y] gy ga) 0 (matShape 2 4 1) (fun _ _ => 0 + k * 1 + k * 1) ∧
    Yields (Dev.bw (.slice 1 1) .debug 0 mm [] [] gs ga) 0 (matShape 2 4 1) (fun c _ => if 1 ≤ c 1 ∧ c 1 < 3 then 0 + 1 else 0) := by
  have w1 : (matShape 2 4 1).WF := matShape_wf rfl
  have w2 : (matShape 2 4 2).WF := matShape_wf rfl
  have w3 : (matShape 2 2 1).WF := matShape_wf rfl
  obtain ⟨a, e1, h1⟩ := Dev.newByConstant_ok (α := α) w1 (by decide) .debug 0 m k
  obtain ⟨b, e2, h2⟩ := Dev.newByConstant_ok (α := α) w2 (by decide) .debug 0 m k
  obtain ⟨gy, e3, h3⟩ := Dev.newByConstant_ok (α := α) w2 (by decide) .debug 0 m 1
  obtain ⟨ga, e4, h4⟩ := Dev.newByConstant_ok (α := α) w1 (by decide) .debug 0 m 0
  obtain ⟨gs, e5, h5⟩ := Dev.newByConstant_ok (α := α) w3 (by decide) .debug 0 m 1
  refine ⟨a, b, b, gy, ga, gs, e1, e2, e2, e3, e4, e5, ?_, ?_⟩
  · have h := (C29_binary h1 h2 (fun i => rfl) (.inr (.inl rfl)) ⟨w2, fun i => rfl, rfl⟩ h2 h3 h4 h2 .debug mm).2.2.1.1
    refine h.congr fun c b hv => ?_
    have hb : b = 0 := by have := hv.2; change b < 1 at this; omega
    subst hb; rfl
  · refine (C29_slice (s := matShape 2 2 1) (sx := matShape 2 4 1) (dim := 1) (lower := 1) (upper := 3) (by omega) (by omega) (by decide)
      ⟨w3, fun i => ?_, rfl⟩ h5 h4 .debug mm).congr fun c b _ => rfl
    match i with
    | 0 => rfl
    | 1 => rfl
    | n + 2 => simp [cset]; rfl

end Verif
