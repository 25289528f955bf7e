import Verif.SampleSpec
import Verif.PropsBatch
import Verif.PropsAd

/-!
# The operators on one sample of a minibatch
-/

set_option linter.unusedSectionVars false
set_option linter.unusedSimpArgs false

namespace Verif
open Res
attribute [local instance] realFlt
variable {B b : Nat}

/-- `f'` is the array of sample `b` of `f`. -/
def Sampled (B b : Nat) (s : Shape) (f f' : Arr ℝ) : Prop :=
  (s.batch = 1 ∨ s.batch = B) ∧ ∀ c, (∀ j, c j < s.get j) → f' c 0 = f c (bb s b)

theorem choosesOne (h : b < B) : Chooses B 1 (fun _ => b) := ⟨le_refl _, by omega, fun _ _ => h⟩

theorem bb_sel (s : Shape) (k : Nat) : bb (s.sel 1) k = 0 := by
  unfold bb
  rw [Shape.sel_batch, if_pos (by split <;> rfl)]

theorem Sampled.row {s : Shape} {f f' : Arr ℝ} (h : Sampled B b s f f') : Row B 1 (fun _ => b) (s, f) (s.sel 1, f') :=
  ⟨h.1, rfl, fun c k hc _ => by simp only [bb_sel]; exact h.2 c hc⟩

theorem row_zero {s : Shape} (h : s.batch = 1 ∨ s.batch = B) : Row B 1 (fun _ => b) (s, (fun _ _ => 0 : Arr ℝ)) (s.sel 1, fun _ _ => 0) :=
  ⟨h, rfl, fun _ _ _ _ => rfl⟩

theorem shape_one (hb : b < B) {F : FwOp ℝ} (hF : F.PerSample B) {s o : Shape} (hw : s.WF) (h1 : s.batch = 1 ∨ s.batch = B)
    (hs : F.shape .debug [s] = ok o) : (F.choose 1 fun _ => b).shape .debug [s.sel 1] = ok (o.sel 1) ∧ (o.batch = 1 ∨ o.batch = B) :=
  have h := row_one (choosesOne hb) hw (row_zero (b := b) h1) hF hs
  ⟨h.1, h.2.1⟩

theorem shape_two (hb : b < B) {F : FwOp ℝ} (hF : F.PerSample B) {s t o : Shape} (hw : s.WF) (hw' : t.WF) (h1 : s.batch = 1 ∨ s.batch = B)
    (h2 : t.batch = 1 ∨ t.batch = B) (hs : F.shape .debug [s, t] = ok o) :
    (F.choose 1 fun _ => b).shape .debug [s.sel 1, t.sel 1] = ok (o.sel 1) ∧ (o.batch = 1 ∨ o.batch = B) :=
  have h := row_two (choosesOne hb) hw hw' (row_zero (b := b) h1) (row_zero (b := b) h2) hF hs
  ⟨h.1, h.2.1⟩

/-- What must be shown of an operator. -/
def NodeOp.Splits (B b : Nat) (op : NodeOp ℝ) (ss outs : List Shape) : Prop :=
  (op.forSample b).shapes .debug (ss.map fun s => s.sel 1) = ok (outs.map fun s => s.sel 1) ∧ (∀ o ∈ outs, o.batch = 1 ∨ o.batch = B) ∧
    ∀ x x' : Nat → Arr ℝ, (∀ k s, ss[k]? = some s → Sampled B b s (x k) (x' k)) → ∀ v o, outs[v]? = some o →
      Sampled B b o (op.real ss x v) ((op.forSample b).real (ss.map fun s => s.sel 1) x' v)

theorem splits_one {op : NodeOp ℝ} {s o : Shape} (h1 : (op.forSample b).shapes .debug [s.sel 1] = ok [o.sel 1]) (h2 : o.batch = 1 ∨ o.batch = B)
    (h3 : ∀ x x' : Nat → Arr ℝ, Sampled B b s (x 0) (x' 0) → ∀ c, (∀ j, c j < o.get j) →
      (op.forSample b).real [s.sel 1] x' 0 c 0 = op.real [s] x 0 c (bb o b)) : op.Splits B b [s] [o] := by
  refine ⟨h1, by simpa using h2, fun x x' hx v t hv => ?_⟩
  cases v with
  | zero =>
    simp only [List.getElem?_cons_zero, Option.some.injEq] at hv
    subst hv
    exact ⟨h2, h3 x x' (hx 0 s rfl)⟩
  | succ v => simp at hv

theorem splits_two {op : NodeOp ℝ} {s t o : Shape} (h1 : (op.forSample b).shapes .debug [s.sel 1, t.sel 1] = ok [o.sel 1])
    (h2 : o.batch = 1 ∨ o.batch = B)
    (h3 : ∀ x x' : Nat → Arr ℝ, Sampled B b s (x 0) (x' 0) → Sampled B b t (x 1) (x' 1) → ∀ c, (∀ j, c j < o.get j) →
      (op.forSample b).real [s.sel 1, t.sel 1] x' 0 c 0 = op.real [s, t] x 0 c (bb o b)) : op.Splits B b [s, t] [o] := by
  refine ⟨h1, by simpa using h2, fun x x' hx v t hv => ?_⟩
  cases v with
  | zero =>
    simp only [List.getElem?_cons_zero, Option.some.injEq] at hv
    subst hv
    exact ⟨h2, h3 x x' (hx 0 s rfl) (hx 1 _ rfl)⟩
  | succ v => simp at hv

theorem bb_max {s t o : Shape} (hs : s.WF) (ht : t.WF) (h : o.batch = max s.batch t.batch) : bb s (bb o b) = bb s b ∧ bb t (bb o b) = bb t b := by
  have := hs.batch_pos
  have := ht.batch_pos
  exact ⟨bb_bb (fun e => by omega) b, bb_bb (fun e => by omega) b⟩

theorem single_ok {R : Res Shape} {outs : List Shape} (h : (R >>= fun s => ok [s]) = ok outs) : ∃ r, R = ok r ∧ outs = [r] := by
  obtain ⟨r, h1, h2⟩ := Res.bind_eq_ok.mp h
  exact ⟨r, h1, (Res.ok.inj h2).symm⟩

theorem ok_single {R : Res Shape} {r : Shape} (h : R = ok r) : (R >>= fun s => ok [s]) = ok [r] := by rw [h]; rfl

theorem pick_real (hb : b < B) {ids : List Nat} {dim : Nat} (hl : ids.length = 1 ∨ ids.length = B) {s r : Shape} (ws : s.WF)
    (hr : ShapeOps.pick .debug s ids dim = ok r) {x x' : Nat → Arr ℝ} (hx : Sampled B b s (x 0) (x' 0))
    (c : Nat → Nat) (hc : ∀ j, c j < r.get j) : ((NodeOp.pick ids dim : NodeOp ℝ).forSample b).real [s.sel 1] x' 0 c 0 =
      (NodeOp.pick ids dim : NodeOp ℝ).real [s] x 0 c (bb r b) := by
  have h := (row_one (op := .pick ids dim) (choosesOne hb) ws hx.row hl hr).2.2 c 0 hc Nat.one_pos
  rw [bb_sel] at h
  exact h

theorem fst_zip {ss : List Shape} {k : Nat} {x : Nat → Arr ℝ} : ((ss.zipIdx k).map fun sk => (sk.1, x sk.2)).map Prod.fst = ss := by
  induction ss generalizing k with
  | nil => rfl
  | cons s ss ih => simp only [List.zipIdx_cons, List.map_cons, ih]

theorem rows_zip {ss : List Shape} {k : Nat} {x x' : Nat → Arr ℝ} (h : ∀ j s, ss[j]? = some s → Sampled B b s (x (k + j)) (x' (k + j))) :
    Rows B 1 (fun _ => b) ((ss.zipIdx k).map fun sk => (sk.1, x sk.2)) (((ss.map fun s => s.sel 1).zipIdx k).map fun sk => (sk.1, x' sk.2)) := by
  induction ss generalizing k with
  | nil => exact .nil
  | cons s ss ih =>
    simp only [List.zipIdx_cons, List.map_cons]
    refine .cons (h 0 s rfl).row (ih fun j t hj => ?_)
    have := h (j + 1) t (by simpa using hj)
    rwa [show k + 1 + j = k + (j + 1) by omega]

theorem NodeOp.splits (hb : b < B) {op : NodeOp ℝ} (hl : op.isLeaf = false) {ss outs : List Shape} (har : op.Arity ss.length)
    (hw : ∀ s ∈ ss, s.WF) (hbt : ∀ s ∈ ss, s.batch = 1 ∨ s.batch = B) (hsep : op.Separate B ss) (hs : op.shapes .debug ss = ok outs) :
    op.Splits B b ss outs := by
  have hp := (choosesOne hb).pos
  cases op
  case input => cases hl
  case inputOwner => cases hl
  case parameter => cases hl
  case un u =>
    obtain ⟨s, rfl⟩ := List.length_eq_one_iff.mp har
    cases hs
    exact splits_one rfl (hbt s (by simp)) fun x x' hx c hc => congrArg u.real (hx.2 c hc)
  case cn o k =>
    obtain ⟨s, rfl⟩ := List.length_eq_one_iff.mp har
    cases hs
    refine splits_one rfl (hbt s (by simp)) fun x x' hx c hc => ?_
    cases o <;> simp only [NodeOp.forSample, NodeOp.real, hx.2 c hc]
  case powi k =>
    obtain ⟨s, rfl⟩ := List.length_eq_one_iff.mp har
    cases hs
    refine splits_one rfl (hbt s (by simp)) fun x x' hx c hc => ?_
    simp only [NodeOp.forSample, NodeOp.real, hx.2 c hc]
  case bi o =>
    obtain ⟨s, t, rfl⟩ := List.length_eq_two.mp har
    obtain ⟨r, hr, rfl⟩ := single_ok (R := ShapeOps.elementwise s t) hs
    have ws := hw s (by simp)
    have wt := hw t (by simp)
    obtain ⟨h1, h2, h3⟩ := (Shape.elementwise_iff ws wt).mp hr
    obtain ⟨q1, q2⟩ := shape_two hb (F := .bi o) trivial ws wt (hbt s (by simp)) (hbt t (by simp)) hr
    refine splits_two (ok_single q1) q2 fun x x' hx hy c hc => ?_
    obtain ⟨e1, e2⟩ := bb_max (b := b) ws wt h3.2.2
    have hcs : ∀ j, c j < s.get j := fun j => by rw [← h3.2.1 j]; exact hc j
    have hct : ∀ j, c j < t.get j := fun j => by rw [← h1 j]; exact hcs j
    simp only [NodeOp.forSample, NodeOp.real, shp, List.getD_cons_zero, List.getD_cons_succ, bb_sel, e1, e2, hx.2 c hcs, hy.2 c hct]
  case sc o =>
    obtain ⟨s, t, rfl⟩ := List.length_eq_two.mp har
    obtain ⟨r, hr, rfl⟩ := single_ok (R := ShapeOps.elementwise s t) hs
    have ws := hw s (by simp)
    have wt := hw t (by simp)
    obtain ⟨h1, h2, h3⟩ := (Shape.elementwise_iff ws wt).mp hr
    obtain ⟨q1, q2⟩ := shape_two hb (F := .bi .add) trivial ws wt (hbt s (by simp)) (hbt t (by simp)) hr
    refine splits_two (ok_single q1) q2 fun x x' hx hy c hc => ?_
    obtain ⟨e1, e2⟩ := bb_max (b := b) ws wt h3.2.2
    have hcs : ∀ j, c j < s.get j := fun j => by rw [← h3.2.1 j]; exact hc j
    have hct : ∀ j, c j < t.get j := fun j => by rw [← h1 j]; exact hcs j
    simp only [NodeOp.forSample, NodeOp.real, shp, List.getD_cons_zero, List.getD_cons_succ, bb_sel, e1, e2, hx.2 c hcs, hy.2 c hct]
  case sum dim =>
    obtain ⟨s, rfl⟩ := List.length_eq_one_iff.mp har
    obtain ⟨r, hr, rfl⟩ := single_ok (R := s.resizeDim .debug dim 1) hs
    have ws := hw s (by simp)
    obtain ⟨h1, h2, h3, h4⟩ := ws.resizeDim_iff.mp hr
    obtain ⟨q1, q2⟩ := shape_one hb (F := .sum dim) trivial ws (hbt s (by simp)) hr
    refine splits_one (ok_single q1) q2 fun x x' hx c hc => ?_
    simp only [NodeOp.forSample, NodeOp.real, shp, List.getD_cons_zero, Shape.sel_get, bb_eq h4.2.2]
    exact Finset.sum_congr rfl fun j hj => hx.2 _ (cset_lt (is_ne h4) hc (Finset.mem_range.mp hj))
  case max dim =>
    obtain ⟨s, rfl⟩ := List.length_eq_one_iff.mp har
    obtain ⟨r, hr, rfl⟩ := single_ok (R := s.resizeDim .debug dim 1) hs
    have ws := hw s (by simp)
    obtain ⟨h1, h2, h3, h4⟩ := ws.resizeDim_iff.mp hr
    obtain ⟨q1, q2⟩ := shape_one hb (F := .sum dim) trivial ws (hbt s (by simp)) hr
    refine splits_one (ok_single q1) q2 fun x x' hx c hc => ?_
    simp only [NodeOp.forSample, NodeOp.real, shp, List.getD_cons_zero, Shape.sel_get, bb_eq h4.2.2]
    exact iSup_congr fun j => hx.2 _ (cset_lt (is_ne h4) hc j.2)
  case min dim =>
    obtain ⟨s, rfl⟩ := List.length_eq_one_iff.mp har
    obtain ⟨r, hr, rfl⟩ := single_ok (R := s.resizeDim .debug dim 1) hs
    have ws := hw s (by simp)
    obtain ⟨h1, h2, h3, h4⟩ := ws.resizeDim_iff.mp hr
    obtain ⟨q1, q2⟩ := shape_one hb (F := .sum dim) trivial ws (hbt s (by simp)) hr
    refine splits_one (ok_single q1) q2 fun x x' hx c hc => ?_
    simp only [NodeOp.forSample, NodeOp.real, shp, List.getD_cons_zero, Shape.sel_get, bb_eq h4.2.2]
    exact iInf_congr fun j => hx.2 _ (cset_lt (is_ne h4) hc j.2)
  case logsumexp dim =>
    obtain ⟨s, rfl⟩ := List.length_eq_one_iff.mp har
    obtain ⟨r, hr, rfl⟩ := single_ok (R := s.resizeDim .debug dim 1) hs
    have ws := hw s (by simp)
    obtain ⟨h1, h2, h3, h4⟩ := ws.resizeDim_iff.mp hr
    obtain ⟨q1, q2⟩ := shape_one hb (F := .sum dim) trivial ws (hbt s (by simp)) hr
    refine splits_one (ok_single q1) q2 fun x x' hx c hc => ?_
    simp only [NodeOp.forSample, NodeOp.real, shp, List.getD_cons_zero, Shape.sel_get, bb_eq h4.2.2, sumExp]
    exact congrArg Real.log (Finset.sum_congr rfl fun j hj => congrArg Real.exp (hx.2 _ (cset_lt (is_ne h4) hc (Finset.mem_range.mp hj))))
  case broadcast dim size =>
    obtain ⟨s, rfl⟩ := List.length_eq_one_iff.mp har
    obtain ⟨r, hr, rfl⟩ := single_ok (R := ShapeOps.broadcast .debug s dim size) hs
    have ws := hw s (by simp)
    obtain ⟨h1, h2, h3, h4, h5⟩ := (Shape.broadcast_iff ws).mp hr
    obtain ⟨q1, q2⟩ := shape_one hb (F := .broadcast dim size) trivial ws (hbt s (by simp)) hr
    refine splits_one (ok_single q1) q2 fun x x' hx c hc => ?_
    simp only [NodeOp.forSample, NodeOp.real, bb_eq h5.2.2]
    exact hx.2 _ (cset_lt (is_ne h5) hc (ws.get_pos dim))
  case matmul =>
    obtain ⟨s, t, rfl⟩ := List.length_eq_two.mp har
    obtain ⟨r, hr, rfl⟩ := single_ok (R := ShapeOps.matmul .debug s t) hs
    have ws := hw s (by simp)
    have wt := hw t (by simp)
    obtain ⟨h1, h2, h3, h4, h5, h6⟩ := (Shape.matmul_iff ws wt).mp hr
    obtain ⟨q1, q2⟩ := shape_two hb (F := .matmul) trivial ws wt (hbt s (by simp)) (hbt t (by simp)) hr
    refine splits_two (ok_single q1) q2 fun x x' hx hy c hc => ?_
    obtain ⟨e1, e2⟩ := bb_max (b := b) ws wt h6.2.2
    have r0 := h6.2.1 0
    have r1 := h6.2.1 1
    simp only [matDims, if_true, if_neg one_ne_zero] at r0 r1
    simp only [NodeOp.forSample, NodeOp.real, shp, List.getD_cons_zero, List.getD_cons_succ, bb_sel, e1, e2, Shape.sel_get]
    refine Finset.sum_congr rfl fun k hk => ?_
    have hk := Finset.mem_range.mp hk
    rw [hx.2 _ (mat_lt h1 (by rw [← r0]; exact hc 0) hk), hy.2 _ (mat_lt h2 (by rw [← h3]; exact hk) (by rw [← r1]; exact hc 1))]
  case transpose =>
    obtain ⟨s, rfl⟩ := List.length_eq_one_iff.mp har
    obtain ⟨r, hr, rfl⟩ := single_ok (R := ShapeOps.transpose .debug s) hs
    have ws := hw s (by simp)
    obtain ⟨h1, h2⟩ := (Shape.transpose_iff ws).mp hr
    obtain ⟨q1, q2⟩ := shape_one hb (F := .transpose) trivial ws (hbt s (by simp)) hr
    refine splits_one (ok_single q1) q2 fun x x' hx c hc => ?_
    have e0 := h2.2.1 0
    have e1 := h2.2.1 1
    simp only [matDims, if_true, if_neg one_ne_zero] at e0 e1
    simp only [NodeOp.forSample, NodeOp.real, bb_eq h2.2.2]
    exact hx.2 _ (mat_lt h1 (by rw [← e1]; exact hc 1) (by rw [← e0]; exact hc 0))
  case triangularL k =>
    obtain ⟨s, rfl⟩ := List.length_eq_one_iff.mp har
    cases hs
    refine splits_one rfl (hbt s (by simp)) fun x x' hx c hc => ?_
    simp only [NodeOp.forSample, NodeOp.real, hx.2 c hc]
  case triangularU k =>
    obtain ⟨s, rfl⟩ := List.length_eq_one_iff.mp har
    cases hs
    refine splits_one rfl (hbt s (by simp)) fun x x' hx c hc => ?_
    simp only [NodeOp.forSample, NodeOp.real, hx.2 c hc]
  case slice dim lower upper =>
    obtain ⟨s, rfl⟩ := List.length_eq_one_iff.mp har
    obtain ⟨r, hr, rfl⟩ := single_ok (R := ShapeOps.slice .debug s dim lower upper) hs
    have ws := hw s (by simp)
    obtain ⟨h1, h2, h3, h4⟩ := (Shape.slice_iff ws).mp hr
    obtain ⟨q1, q2⟩ := shape_one hb (F := .slice dim lower upper) trivial ws (hbt s (by simp)) hr
    refine splits_one (ok_single q1) q2 fun x x' hx c hc => ?_
    have e := h4.2.1 dim
    simp only [setC, if_true] at e
    have := hc dim
    simp only [NodeOp.forSample, NodeOp.real, bb_eq h4.2.2]
    exact hx.2 _ (cset_lt (is_ne h4) hc (by omega))
  case pick ids dim =>
    obtain ⟨s, rfl⟩ := List.length_eq_one_iff.mp har
    obtain ⟨r, hr, rfl⟩ := single_ok (R := ShapeOps.pick .debug s ids dim) hs
    have ws := hw s (by simp)
    obtain ⟨q1, q2⟩ := shape_one hb (F := .pick ids dim) hsep ws (hbt s (by simp)) hr
    refine splits_one (ok_single q1) q2 fun x x' hx c hc => ?_
    exact pick_real hb hsep ws hr hx c hc
  case sparseSoftmaxCrossEntropy ids dim =>
    obtain ⟨s, rfl⟩ := List.length_eq_one_iff.mp har
    obtain ⟨r, hr, rfl⟩ := single_ok (R := ShapeOps.pick .debug s ids dim) hs
    have ws := hw s (by simp)
    obtain ⟨q1, q2⟩ := shape_one hb (F := .pick ids dim) hsep ws (hbt s (by simp)) hr
    obtain ⟨h1, h2, h3, h4, h5⟩ := (Shape.pick_iff ws).mp hr
    refine splits_one (ok_single q1) q2 fun x x' hx c hc => ?_
    have hp := pick_real hb hsep ws hr hx c hc
    have hl : ids.length = 1 ∨ ids.length = B := hsep
    have hbs := ws.batch_pos
    have e1 : bb s (bb r b) = bb s b := bb_bb (fun e => by rw [h5.2.2] at e; omega) b
    have e2 : sumExp (s.sel 1) (x' 0) dim c 0 = sumExp s (x 0) dim c (bb s b) :=
      Finset.sum_congr rfl fun j hj => congrArg Real.exp (hx.2 _ (cset_lt (is_ne h5) hc (Finset.mem_range.mp hj)))
    simp only [NodeOp.forSample, NodeOp.real, shp, List.getD_cons_zero, bb_sel] at hp ⊢
    rw [hp, e1, e2]
  case softmaxCrossEntropy dim =>
    obtain ⟨s, t, rfl⟩ := List.length_eq_two.mp har
    obtain ⟨r0, hr0, hs'⟩ := Res.bind_eq_ok.mp (show (ShapeOps.elementwise s t >>= fun r => r.resizeDim .debug dim 1 >>= fun s => ok [s]) = ok outs from hs)
    obtain ⟨r, hr, rfl⟩ := single_ok hs'
    have ws := hw s (by simp)
    have wt := hw t (by simp)
    obtain ⟨h1, h2, h3⟩ := (Shape.elementwise_iff ws wt).mp hr0
    obtain ⟨p1, p2⟩ := shape_two hb (F := .bi .add) trivial ws wt (hbt s (by simp)) (hbt t (by simp)) hr0
    obtain ⟨k1, k2, k3, k4⟩ := h3.1.resizeDim_iff.mp hr
    obtain ⟨q1, q2⟩ := shape_one hb (F := .sum dim) trivial h3.1 p2 hr
    refine splits_two (show (ShapeOps.elementwise (s.sel 1) (t.sel 1) >>= fun r => r.resizeDim .debug dim 1 >>= fun s => ok [s]) = _ from
      Res.bind_eq_ok.mpr ⟨_, p1, ok_single q1⟩) q2 fun x x' hx hy c hc => ?_
    obtain ⟨e1, e2⟩ := bb_max (b := b) ws wt (k4.2.2.trans h3.2.2)
    have hcs : ∀ j, j < s.get dim → ∀ a, cset c dim j a < s.get a := fun j hj => cset_lt (fun a ha => (is_ne k4 a ha).trans (h3.2.1 a)) hc hj
    have hct : ∀ j, j < s.get dim → ∀ a, cset c dim j a < t.get a := fun j hj a => by rw [← h1 a]; exact hcs j hj a
    have e3 : sumExp (s.sel 1) (x' 0) dim c 0 = sumExp s (x 0) dim c (bb s b) :=
      Finset.sum_congr rfl fun j hj => congrArg Real.exp (hx.2 _ (hcs j (Finset.mem_range.mp hj)))
    simp only [NodeOp.forSample, NodeOp.real, shp, List.getD_cons_zero, List.getD_cons_succ, bb_sel, e1, e2, Shape.sel_get]
    refine congrArg Neg.neg (Finset.sum_congr rfl fun j hj => ?_)
    have hj := Finset.mem_range.mp hj
    rw [hx.2 _ (hcs j hj), hy.2 _ (hct j hj), e3]
  case split dim n =>
    obtain ⟨s, rfl⟩ := List.length_eq_one_iff.mp har
    obtain ⟨hn, hs1⟩ := check_bind_ok.mp (show (check (n ≠ 0) >>= fun _ => check (s.get dim / n * n = s.get dim) >>= fun _ =>
      s.resizeDim .debug dim (s.get dim / n) >>= fun r => ok (List.replicate n r)) = ok outs from hs)
    obtain ⟨hd, hs2⟩ := check_bind_ok.mp hs1
    obtain ⟨r, hr, he⟩ := Res.bind_eq_ok.mp hs2
    cases he
    have ws := hw s (by simp)
    obtain ⟨h1, h2, h3, h4⟩ := ws.resizeDim_iff.mp hr
    have hbr : r.batch = 1 ∨ r.batch = B := by rw [h4.2.2]; exact hbt s (by simp)
    refine ⟨?_, fun o ho => ?_, fun x x' hx v o hv => ?_⟩
    · show (check (n ≠ 0) >>= fun _ => check (s.get dim / n * n = s.get dim) >>= fun _ =>
        (s.sel 1).resizeDim .debug dim (s.get dim / n) >>= fun r => ok (List.replicate n r)) = ok _
      refine check_bind_ok.mpr ⟨hn, check_bind_ok.mpr ⟨hd, Res.bind_eq_ok.mpr ⟨r.sel 1,
        (ws.sel hp).resizeDim_iff.mpr ⟨h1, h2, h3, h4.sel hp rfl⟩, ?_⟩⟩⟩
      simp
    · obtain rfl := List.eq_of_mem_replicate ho
      exact hbr
    · have hvn : v < n := by simpa using (List.getElem?_eq_some_iff.mp hv).1
      obtain rfl : r = o := by simpa [List.getElem?_replicate, hvn] using hv
      refine ⟨hbr, fun c hc => ?_⟩
      have e := h4.2.1 dim
      simp only [setC, if_true] at e
      have hcd := hc dim
      simp only [NodeOp.forSample, NodeOp.real, shp, List.map_cons, List.getD_cons_zero, Shape.sel_get, bb_eq h4.2.2]
      refine (hx 0 s rfl).2 _ (cset_lt (is_ne h4) hc ?_)
      rw [e] at hcd
      calc v * (s.get dim / n) + c dim < v * (s.get dim / n) + s.get dim / n := by omega
        _ = (v + 1) * (s.get dim / n) := by ring
        _ ≤ n * (s.get dim / n) := Nat.mul_le_mul_right _ hvn
        _ = s.get dim := by rw [mul_comm]; exact hd
  case concat dim =>
    obtain ⟨r, hr, rfl⟩ := single_ok (R := ShapeOps.concat .debug ss dim) hs
    have hne := ((Shape.concat_iff hw).mp hr).2.1
    have key : ∀ x x' : Nat → Arr ℝ, (∀ k s, ss[k]? = some s → Sampled B b s (x k) (x' k)) →
        Commutes B 1 (fun _ => b) (.concat dim : FwOp ℝ) (.concat dim) (ss.zipIdx.map fun sk => (sk.1, x sk.2))
          ((ss.map fun s => s.sel 1).zipIdx.map fun sk => (sk.1, x' sk.2)) r := by
      intro x x' hx
      refine row_concat (choosesOne hb) (by rw [fst_zip]; exact hw) (rows_zip (k := 0) fun k s h => by rw [Nat.zero_add]; exact hx k s h) ?_
      rw [fst_zip]
      exact check_bind_ok.mpr ⟨by simpa using hne, hr⟩
    obtain ⟨q1, q2, -⟩ := key (fun _ _ _ => 0) (fun _ _ _ => 0) fun k s h => ⟨hbt s (List.mem_of_getElem? h), fun _ _ => rfl⟩
    rw [fst_zip (x := fun _ _ _ => 0)] at q1
    refine ⟨ok_single (check_bind_ok.mp q1).2, by simpa using q2, fun x x' hx v t hv => ?_⟩
    cases v with
    | zero =>
      simp only [List.getElem?_cons_zero, Option.some.injEq] at hv
      subst hv
      refine ⟨q2, fun c hc => ?_⟩
      have h := (key x x' hx).2.2 c 0 hc Nat.one_pos
      rw [bb_sel] at h
      exact h
    | succ v => simp at hv
  case reshape t =>
    obtain ⟨s, rfl⟩ := List.length_eq_one_iff.mp har
    cases hs
    have ws := hw s (by simp)
    obtain ⟨wt, hv, hbb⟩ := hsep
    simp only [shp, List.getD_cons_zero] at hv hbb
    have et : ({ t with batch := 1 } : Shape) = t.sel 1 := by unfold Shape.sel; congr 1; split <;> rfl
    refine splits_one (by simp only [NodeOp.forSample, et]; rfl) (by rw [hbb]; exact hbt s (by simp)) fun x x' hx c hc => ?_
    simp only [NodeOp.forSample, NodeOp.real, shp, List.getD_cons_zero, et]
    rw [flat_batch (ws.sel hp) (wt.sel hp) hv (x' 0) hc, flat_batch ws wt hv (x 0) hc, bb_eq hbb]
    exact hx.2 _ (coord_lt ws _)
  all_goals exact hsep.elim

end Verif
