import Verif.TensorFn
import Verif.TensorSpec2
import Verif.DevMisc
import Verif.DevFw3
import Verif.Safety4

/-!
# Lemmas for the functions on tensors
-/

set_option linter.unusedSectionVars false

namespace Verif
open Res
variable {α : Type} [Flt α] {d : Nat}

theorem Yields.congr {r : Res (Tensor α)} {s : Shape} {F G : Arr α} (h : Yields r d s F) (hg : ∀ c b, s.Valid c b → G c b = F c b) :
    Yields r d s G := by
  obtain ⟨y, e, h⟩ := h
  exact ⟨y, e, h.congr hg⟩

theorem Yields.bind {r : Res (Tensor α)} {k : Tensor α → Res (Tensor α)} {s s' : Shape} {F G : Arr α} (h : Yields r d s F)
    (hk : ∀ y : Tensor α, y.Holds d s F → Yields (k y) d s' G) : Yields (r >>= k) d s' G := by
  obtain ⟨y, e, h⟩ := h
  rw [e, ok_bind]; exact hk y h

theorem TF.call_ok {op : FwOp α} {x : Tensor α} {xs : List (Tensor α)} {ins : List (Shape × Arr α)} {s : Shape}
    (hd : x.device = some d) (hx : HoldAll d xs ins) (hs : op.shape .debug (ins.map Prod.fst) = ok s) (hsz : s.size ≤ 2 ^ 31)
    (hfit : op.Fits s) (p : Profile) (m : Nat → α) : Yields (TF.call op p m x xs) d s (op.sem ins) := by
  unfold TF.call Tensor.dev unwrap
  rw [hd, ok_bind]
  exact Dev.fw_ok hx hs hsz hfit p m

theorem TF.call1 {op : FwOp α} {x : Tensor α} {sx s : Shape} {f : Arr α} (hx : x.Holds d sx f)
    (hs : op.shape .debug [sx] = ok s) (hsz : s.size ≤ 2 ^ 31) (hfit : op.Fits s) (p : Profile) (m : Nat → α) :
    Yields (TF.call op p m x [x]) d s (op.sem [(sx, f)]) :=
  TF.call_ok hx.device (.cons hx .nil) hs hsz hfit p m

theorem TF.call2 {op : FwOp α} {a x y : Tensor α} {sx sy s : Shape} {f g : Arr α} (ha : a.device = some d) (hx : x.Holds d sx f)
    (hy : y.Holds d sy g) (hs : op.shape .debug [sx, sy] = ok s) (hsz : s.size ≤ 2 ^ 31) (hfit : op.Fits s) (p : Profile) (m : Nat → α) :
    Yields (TF.call op p m a [x, y]) d s (op.sem [(sx, f), (sy, g)]) :=
  TF.call_ok ha (.cons hx (.cons hy .nil)) hs hsz hfit p m

/-- Every list of positive extents (at most 8 of them different from 1) of a volume that fits u32 is the list of extents of a shape. -/
theorem Shape.exists_is {f : Nat → Nat} {b : Nat} (h1 : ∀ i, 1 ≤ f i) (h8 : ∀ i, 8 ≤ i → f i = 1) (hv : volN f 8 < U32) (hb : 1 ≤ b) :
    ∃ s : Shape, s.Is f b := by
  have hraw : ∀ i, Shape.raw ((List.range 8).map f) i = f i := by
    intro i
    unfold Shape.raw
    by_cases hi : i < 8
    · simp [List.getD, hi]
    · rw [h8 i (by omega)]; simp [List.getD, hi]
  obtain ⟨s, _, hw, hb', hg⟩ := Shape.new_of (dims := (List.range 8).map f) (b := b) .debug
    ⟨by simp, hb, fun i _ => by rw [hraw]; have := h1 i; omega, by
      rw [show ((List.range 8).map f).length = 8 by simp, volN_congr (fun i _ => hraw i)]; exact hv⟩
  exact ⟨s, hw, fun i => by rw [hg, hraw], hb'⟩

theorem Shape.exists_is_cset {sx : Shape} (h : sx.WF) {dim n : Nat} (hd : dim < 8) (hn : 1 ≤ n)
    (hv : volN (cset sx.get dim n) 8 < U32) : ∃ s : Shape, s.Is (cset sx.get dim n) sx.batch := by
  refine Shape.exists_is (fun i => ?_) (fun i hi => ?_) hv h.batch_pos
  · unfold cset; split
    · exact hn
    · exact h.get_pos i
  · unfold cset; rw [if_neg (by omega)]; exact h.get_big hi

theorem size_le_of_dims {s sx : Shape} (hs : s.WF) (hx : sx.WF) (h : ∀ i, s.get i ≤ sx.get i) (hb : s.batch ≤ sx.batch) : s.size ≤ sx.size := by
  unfold Shape.size
  rw [hs.vol, hx.vol]
  exact Nat.mul_le_mul hb (volN_le fun i _ => h i)

end Verif
