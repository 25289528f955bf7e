import Verif.PropsBatch
import Verif.PropsContrib
import Verif.PropsSerde
import Verif.PropsContrib3

/-!
# Property C76, continued: samples of a minibatch exist, the loss, and the function that is not per-sample
-/

set_option linter.unusedSectionVars false

namespace Verif
open Res
variable {α : Type} [Flt α] {d B : Nat} {ids : List Nat}

/-- C76: `batch_pick(ids)` takes the samples `ids` out of a minibatch. -/
theorem C76_batch_pick (h : SomeOf ids B) {x : Tensor α} {s : Shape} {f : Arr α} (hx : x.Holds d s f) (hb : s.batch = B) (p : Profile)
    (m : Nat → α) : ∃ x', TF.batchPick p m x ids = ok x' ∧ Samples B ids d x x' := by
  have hpos := h.chooses.pos
  obtain ⟨t, ht⟩ := batch_shape hx.wf (b := ids.length) hpos
  have hsz : t.size ≤ 2 ^ 31 := (size_le_of_dims ht.1 hx.wf (fun i => (ht.2.1 i).le) (by rw [ht.2.2, hb]; exact h.2.1)).trans hx.small
  obtain ⟨y, e, hy⟩ := C28_batch_pick hx h.1 (fun b hm => hb ▸ h.2.2 b hm) ht hsz p m
  exact ⟨y, e, s, t, f, _, hx, hy, .inr ⟨hb, ht, fun _ _ _ => rfl⟩⟩

/-- A tensor that is shared by the samples is itself. -/
theorem C76_shared {x : Tensor α} {s : Shape} {f : Arr α} (hx : x.Holds d s f) (hb : s.batch = 1) : Samples B ids d x x :=
  ⟨s, s, f, f, hx, hx, .inl ⟨hb, rfl, fun _ _ _ => rfl⟩⟩

/-- C76: `batch_sum` of what a minibatch computes is the sum, in the order of the samples, of what the samples compute. -/
theorem C76_batch_sum {y : Tensor α} {s : Shape} {f : Arr α} (hy : y.Holds d s f) (hb : s.batch = B) {ys : Nat → Tensor α} {t : Shape}
    {g : Nat → Arr α} (hys : ∀ b, b < B → (ys b).Holds d t (g b) ∧ Samples B [b] d y (ys b)) (p : Profile) (m : Nat → α) :
    Yields (TF.batchSum p m y) d t (fun c _ => sumTo B (fun b => g b c 0)) := by
  have hB : 0 < B := hb ▸ hy.wf.batch_pos
  obtain ⟨r, hr⟩ := batch_shape hy.wf (b := 1) (le_refl 1)
  have key : ∀ b, b < B → t = r ∧ ∀ c, r.Valid c 0 → g b c 0 = f c b := by
    intro b hbB
    obtain ⟨h1, s1, s1', f1, f1', k1, k2, k3⟩ := hys b hbB
    have es : s1 = s := k1.shape.symm.trans hy.shape
    subst es
    have et : s1' = t := k2.shape.symm.trans h1.shape
    subst et
    have ef : ∀ c b, s1.Valid c b → f1 c b = f c b := (k1.unique hy).2.2
    have eg : ∀ c b', s1'.Valid c b' → f1' c b' = g b c b' := (k2.unique h1).2.2
    rcases k3 with ⟨q1, q2, q3⟩ | ⟨q1, q2, q3⟩
    · have hB1 : B = 1 := by omega
      have hb0 : b = 0 := by omega
      subst q2
      have er : s1' = r := Shape.Is.unique ⟨k1.wf, fun _ => rfl, q1⟩ hr
      refine ⟨er, fun c hv => ?_⟩
      rw [← er] at hv
      rw [← eg c 0 hv, q3 c 0 hv, ef c 0 hv, hb0]
    · have er : s1' = r := Shape.Is.unique q2 hr
      refine ⟨er, fun c hv => ?_⟩
      rw [← er] at hv
      rw [← eg c 0 hv, q3 c 0 hv]
      exact ef c b ⟨fun i => by rw [← q2.2.1 i]; exact hv.1 i, by omega⟩
  have e := (key 0 hB).1
  subst e
  refine (C28_batch_sum hy hr p m).congr fun c b hv => ?_
  rw [hb]
  have hv0 : t.Valid c 0 := ⟨hv.1, by rw [hr.2.2]; omega⟩
  have : ∀ n, n ≤ B → sumTo n (fun b => f c b) = sumTo n (fun b => g b c 0) := by
    intro n hn
    unfold sumTo
    exact K.foldN_congr' rfl fun i hi acc => by simp only; rw [(key i (by omega)).2 c hv0]
  exact (this B (le_refl _)).symm

theorem forall₂_get {β γ : Type} {R : β → γ → Prop} {l : List β} {l' : List γ} (h : List.Forall₂ R l l') {j : Nat} {y : β} (hj : l[j]? = some y) :
    ∃ z, l'[j]? = some z ∧ R y z := by
  induction h generalizing j with
  | nil => simp at hj
  | cons h _ ih =>
    cases j with
    | zero => simp only [List.getElem?_cons_zero, Option.some.injEq] at hj ⊢; subst hj; exact ⟨_, rfl, h⟩
    | succ j => simp only [List.getElem?_cons_succ] at hj ⊢; exact ih hj

/-- C76: the loss.  If a network runs on a minibatch and its `j`-th tensor has a batch for every sample, then `batch_sum` of this tensor is the
sum of the `j`-th tensors of the runs on the single samples. -/
theorem C76_loss {prog : List (Step α)} (hf : ∀ st ∈ prog, st.Fit B) {xs : List (Tensor α)} {xb : Nat → List (Tensor α)}
    (hx : ∀ b, b < B → List.Forall₂ (Samples B [b] d) xs (xb b)) (m : Nat → Mem α) (m' : Nat → Nat → Mem α) (p : Profile) {ys : List (Tensor α)}
    (hy : runAll .debug m prog xs = ok ys) {j : Nat} {y : Tensor α} (hj : ys[j]? = some y) {s : Shape} {f : Arr α} (hh : y.Holds d s f)
    (hb : s.batch = B) {t : Shape} (ht : t.Is s.get 1) :
    ∃ g : Nat → Arr α, (∀ b, b < B → ∃ yb z, runAll p (m' b) (prog.map (Step.choose [b])) (xb b) = ok yb ∧ yb[j]? = some z ∧ z.Holds d t (g b)) ∧
      ∀ mm, Yields (TF.batchSum p mm y) d t (fun c _ => sumTo B (fun b => g b c 0)) := by
  have key : ∀ b, ∃ g : Arr α, b < B → ∃ yb z, runAll p (m' b) (prog.map (Step.choose [b])) (xb b) = ok yb ∧ yb[j]? = some z ∧ z.Holds d t g ∧
      Samples B [b] d y z := by
    intro b
    by_cases hbB : b < B
    · have hs : SomeOf [b] B := ⟨by simp, by simp; omega, by simpa using hbB⟩
      obtain ⟨yb, e, h2⟩ := C76_minibatch hs hf (hx b hbB) m (m' b) p hy
      obtain ⟨z, hz, hsam⟩ := forall₂_get h2 hj
      obtain ⟨s1, s1', f1, f1', k1, k2, k3⟩ := id hsam
      have es : s1 = s := k1.shape.symm.trans hh.shape
      subst es
      have et : s1' = t := by
        rcases k3 with ⟨q1, q2, _⟩ | ⟨_, q2, _⟩
        · subst q2; exact Shape.Is.unique (f := s1'.get) (b := 1) ⟨k1.wf, fun _ => rfl, q1⟩ ht
        · exact Shape.Is.unique q2 ht
      subst et
      exact ⟨f1', fun _ => ⟨yb, z, e, hz, k2, hsam⟩⟩
    · exact ⟨fun _ _ => 0, fun h => absurd h hbB⟩
  choose g hg using key
  refine ⟨g, fun b hbB => ?_, fun mm => ?_⟩
  · obtain ⟨yb, z, h1, h2, h3, _⟩ := hg b hbB
    exact ⟨yb, z, h1, h2, h3⟩
  · choose yb z hz using hg
    refine C76_batch_sum hh hb (ys := fun b => if h : b < B then z b h else y) (fun b hbB => ?_) p mm
    simp only [hbB, dif_pos]
    exact ⟨(hz b hbB).2.2.1, (hz b hbB).2.2.2⟩

/-- A network with a shared parameter and per-sample indices. -/
def sampleNet : List (Step α) := [.sub 1 0, .one .tanh 2, .one (.pick [1, 0] 0) 3]

/-- The hypotheses of C76 are met: the network runs on a minibatch of two samples, a sample is taken out with `batch_pick`, and the
network for the sample has its own index. -/
example : ∃ w x ys : Tensor α, ∃ zs, w.Holds 0 (vecShape 1 1) (fun _ _ => 1) ∧ Samples 2 [1] 0 w w ∧ Samples 2 [1] 0 x ys ∧
    (∀ st ∈ sampleNet (α := α), st.Fit 2) ∧ SomeOf [1] 2 ∧ runAll .debug (fun _ _ _ => 0) sampleNet [w, x] = ok zs ∧
    (sampleNet (α := α)).map (Step.choose [1]) = [.sub 1 0, .one .tanh 2, .one (.pick [0] 0) 3] := by
  have w1 : (vecShape 1 1).WF := vecShape_wf rfl
  have w3 : (vecShape 3 2).WF := vecShape_wf rfl
  have wo : (vecShape 1 2).WF := vecShape_wf rfl
  obtain ⟨w, hw⟩ := exists_holds w1 (by decide) 0 (fun _ => (1 : α))
  obtain ⟨x, hx⟩ := exists_holds w3 (by decide) 0 (fun i => if i = 4 then (1 : α) else 0)
  have hs : SomeOf [1] 2 := ⟨by simp, by simp, by simp⟩
  obtain ⟨x', _, hx'⟩ := C76_batch_pick hs hx rfl .debug (fun _ => 0)
  have hfit : OpFits (vecShape 3 2) (vecShape 1 1) := ⟨.inr (.inr fun i => by
    unfold vecShape Shape.get; simp only; rcases i with _ | _ | _ | _ | _ | _ | _ | _ | i <;> simp), .inr (.inr rfl)⟩
  have hj : (vecShape 3 2).IsJoin (vecShape 3 2) (vecShape 1 1) := ⟨w3, fun i => by
    show _ = max _ _
    unfold vecShape Shape.get; simp only; rcases i with _ | _ | _ | _ | _ | _ | _ | _ | i <;> rfl, rfl⟩
  obtain ⟨a, ea, ha⟩ := (C20_sub_div hx hw hfit hj (by decide) .debug (fun _ => 0)).1
  obtain ⟨b, eb, hb⟩ := (C20_unary ha .debug (fun _ => 0)).2.2.2.2.2.2.2.2.1
  have ho : (vecShape 1 2).Is (cset (vecShape 3 2).get 0 1) (max (vecShape 3 2).batch [1, 0].length) := ⟨wo, fun i => by
    unfold cset vecShape Shape.get; simp only; rcases i with _ | _ | _ | _ | _ | _ | _ | _ | i <;> simp, rfl⟩
  obtain ⟨c, ec, hc⟩ := C27_pick hb (ids := [1, 0]) (dim := 0) (by decide) (by simp) (.inl rfl) (by decide) ho (by decide) .debug (fun _ => 0)
  refine ⟨w, x, x', [w, x, a, b, c], hw, C76_shared hw rfl, hx', ?_, hs, ?_, rfl⟩
  · intro st hst
    simp only [sampleNet, List.mem_cons, List.not_mem_nil, or_false] at hst
    rcases hst with rfl | rfl | rfl <;> simp [Step.Fit]
  · simp only [sampleNet, runAll, Step.run, Fn.run, Graph.at', List.getElem?_cons_zero, List.getElem?_cons_succ, List.cons_append, List.nil_append,
      ok_bind, ea, eb, ec]

section Real
attribute [local instance] realFlt

/-- C76: `batch_normalization(…, enabled = true)` is the exception: what it computes for a sample depends on the other samples. -/
theorem C76_batch_normalization_couples : ∃ (x x' g b y y' : Tensor ℝ), Samples 2 [0] 0 x x' ∧ Samples 2 [0] 0 g g ∧ Samples 2 [0] 0 b b ∧
    TF.batchNormalization .debug (fun _ _ => 0) x g b 1 true = ok y ∧ TF.batchNormalization .debug (fun _ _ => 0) x' g b 1 true = ok y' ∧
    ¬ Samples 2 [0] 0 y y' := by
  have w1 : (vecShape 1 1).WF := vecShape_wf rfl
  have w2 : (vecShape 1 2).WF := vecShape_wf rfl
  obtain ⟨g, hg⟩ := exists_holds w1 (by decide) 0 (fun _ => (1 : ℝ))
  obtain ⟨b, hb⟩ := exists_holds w1 (by decide) 0 (fun _ => (0 : ℝ))
  obtain ⟨x, hx⟩ := exists_holds w2 (by decide) 0 (fun i => if i = 0 then (0 : ℝ) else 2)
  have hs : SomeOf [0] 2 := ⟨by simp, by simp, by simp⟩
  obtain ⟨x', e', hx'⟩ := C76_batch_pick hs hx rfl .debug (fun _ => 0)
  have hpick : x'.Holds 0 (vecShape 1 1) (fun c b => if (vecShape 1 2).offset c ([0].getD b 0) = 0 then (0 : ℝ) else 2) := by
    obtain ⟨r, er, hr⟩ := C28_batch_pick hx (ids := [0]) (by simp) (by simp [vecShape]) (s := vecShape 1 1)
      ⟨w1, fun i => rfl, rfl⟩ (by decide) .debug (fun _ => 0)
    rw [e'] at er
    cases er
    exact hr
  have hget : ∀ n i, (vecShape 1 n).get i = 1 := fun n i => by
    unfold vecShape Shape.get; simp only; rcases i with _ | _ | _ | _ | _ | _ | _ | _ | i <;> simp
  have fit1 : ∀ n, OpFits (vecShape 1 1) (vecShape 1 n) := fun n => ⟨.inl fun i => by rw [hget, hget], .inr (.inl rfl)⟩
  have fit2 : ∀ n, OpFits (vecShape 1 n) (vecShape 1 1) := fun n => ⟨.inl fun i => by rw [hget, hget], .inr (.inr rfl)⟩
  have j1 : (vecShape 1 2).IsJoin (vecShape 1 1) (vecShape 1 2) := ⟨w2, fun i => by show _ = max _ _; simp only [hget]; rfl, rfl⟩
  have j2 : (vecShape 1 2).IsJoin (vecShape 1 2) (vecShape 1 1) := ⟨w2, fun i => by show _ = max _ _; simp only [hget]; rfl, rfl⟩
  have j3 : (vecShape 1 1).IsJoin (vecShape 1 1) (vecShape 1 1) := ⟨w1, fun i => by show _ = max _ _; simp only [hget]; rfl, rfl⟩
  obtain ⟨y, ey, hy⟩ := C46_batch_normalization add_comm mul_comm hx hg hb (fit1 2) j1 (by decide) (fit2 2) j2 (by decide) (1 : ℝ) .debug
    (fun _ _ => 0)
  obtain ⟨y', ey', hy'⟩ := C46_batch_normalization add_comm mul_comm hpick hg hb (fit1 1) j3 (by decide) (fit2 1) j3 (by decide) (1 : ℝ) .debug
    (fun _ _ => 0)
  refine ⟨x, x', g, b, y, y', hx', C76_shared hg rfl, C76_shared hb rfl, ey, ey', ?_⟩
  rintro ⟨s, s', f, f', k1, k2, k3⟩
  obtain ⟨_, rfl, u1⟩ := k1.unique hy
  obtain ⟨_, rfl, u2⟩ := k2.unique hy'
  rcases k3 with ⟨q, _⟩ | ⟨_, _, q⟩
  · simp [vecShape] at q
  have v1 : (vecShape 1 2).Valid (fun _ => 0) 0 := ⟨fun i => by rw [hget]; exact Nat.one_pos, by simp [vecShape]⟩
  have v2 : (vecShape 1 1).Valid (fun _ => 0) 0 := ⟨fun i => by rw [hget]; exact Nat.one_pos, by simp [vecShape]⟩
  have := q (fun _ => 0) 0 v2
  simp only [List.getD_cons_zero] at this
  rw [u1 _ _ v1, u2 _ _ v2] at this
  have b1 : ∀ n, bc (vecShape 1 n) (fun _ => 0) = fun _ => 0 := fun n => by funext i; unfold bc; split <;> rfl
  have o0 : (vecShape 1 2).offset (fun _ => 0) 0 = 0 := rfl
  have o1 : (vecShape 1 2).offset (fun _ => 0) 1 = 1 := rfl
  have z0 : ∀ n, bb (vecShape 1 n) 0 = 0 := fun n => by unfold bb; split <;> rfl
  have n1 : (vecShape 1 1).batch = 1 := rfl
  have n2 : (vecShape 1 2).batch = 2 := rfl
  simp only [batchNormed, standardize, batchMu, batchVar, avg_real, Finset.sum_range_succ, Finset.sum_range_zero, b1, z0, n1, n2, o0, o1,
    List.getD_cons_zero, if_true, one_ne_zero, if_false] at this
  norm_num at this
  have hne : Flt.sqrt (2 : ℝ) ≠ 0 := Real.sqrt_ne_zero'.mpr (by norm_num)
  exact div_ne_zero (by norm_num) hne this.symm

end Real

end Verif
