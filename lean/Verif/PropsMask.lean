import Verif.MaskLemmas
import Verif.AdLocal3

/-!
# C90: logsumexp and softmax of infinite elements; masking with minus infinity
-/

set_option linter.unusedSectionVars false
set_option linter.style.haveILetI false

namespace Verif
open Fmt Res Shape
open scoped List

section
variable [E : Ieee] {d : Nat} {x x' t : Tensor (Fl f32)} {s s' sx sx' : Shape} {f f' : Arr (Fl f32)}

theorem axisOf_ne (hw : sx.WF) (f : Arr (Fl f32)) (dim : Nat) (c : Nat → Nat) (b : Nat) : axisOf sx f dim c b ≠ [] := by
  have := hw.get_pos dim
  unfold axisOf
  simp only [ne_eq, List.map_eq_nil_iff, List.range_eq_nil]
  omega

theorem mem_axisOf {dim : Nat} {c : Nat → Nat} {b : Nat} (h : c dim < sx.get dim) : f c b ∈ axisOf sx f dim c b :=
  List.mem_map.mpr ⟨c dim, List.mem_range.mpr h, by rw [cset_self]⟩

/-- C90: `logsumexp` of any elements (infinities and NaN included).  It is NaN if an element is NaN, if the axis begins with two elements `-∞`, or if there are
two elements `+∞`, and only then; otherwise it is `+∞` if an element is; it is `-∞` only for the axis `[-∞]` of size 1; otherwise it is finite. -/
theorem C90_logsumexp_special (hW : E.libm64.Special) (hx : x.Holds d sx f) {dim : Nat} (hd : dim < 8) (hs : s.Is (cset sx.get dim 1) sx.batch) (p : Profile)
    (m : Nat → Fl f32) : ∃ g, Yields (TF.logsumexp p m x dim) d s g ∧ ∀ c b, s.Valid c b → ∀ l, l = axisOf sx f dim c b →
      (g c b = .nan ↔ .nan ∈ l ∨ [.inf true, .inf true] <+: l ∨ [.inf false, .inf false] <+ l) ∧
      (g c b = .inf false ↔ g c b ≠ .nan ∧ .inf false ∈ l) ∧
      (g c b = .inf true ↔ l = [.inf true]) := by
  refine ⟨_, lse_yields hx hd hs p m, fun c b hv l hl => ?_⟩
  rw [down_lse hx.wf, ← hl]
  rcases lseList_class hW (hl ▸ axisOf_ne hx.wf f dim c b) with ⟨h1, h2⟩ | ⟨h1, h2⟩
  · rw [h2]
    refine ⟨⟨fun _ => h1, fun _ => rfl⟩, ⟨nofun, fun h => absurd rfl h.1⟩, ⟨nofun, ?_⟩⟩
    rintro rfl
    rcases h1 with h | h | h
    · simp at h
    · have := h.length_le; simp at this
    · have := h.length_le; simp at this
  · rcases h2 with ⟨h2, h3⟩ | ⟨h2, h3⟩ | ⟨h2, h3, h4⟩
    · rw [h3]
      refine ⟨⟨nofun, fun h => absurd h h1⟩, ⟨fun _ => ⟨nofun, h2⟩, fun _ => rfl⟩, ⟨nofun, ?_⟩⟩
      rintro rfl; simp at h2
    · rw [h3]
      refine ⟨⟨nofun, fun h => absurd h h1⟩, ⟨nofun, fun h => ?_⟩, ⟨fun _ => h2, fun _ => rfl⟩⟩
      rw [h2] at h; simp at h
    · generalize lseList l = r at h4
      cases r with
      | nan => exact h4.elim
      | inf s => exact h4.elim
      | fin u v hv => exact ⟨⟨nofun, fun h => absurd h h1⟩, ⟨nofun, fun h => absurd h.2 h2⟩, ⟨nofun, fun h => absurd h h3⟩⟩

/-- C90: masking with `-∞` is the same as removing the elements: two tensors whose axes hold the same finite elements in the same order and otherwise only `-∞` have
the same `logsumexp` (up to the sign of a zero), provided that neither axis begins with two elements `-∞`. -/
theorem C90_logsumexp_masked (hW : E.libm64.Special) (hx : x.Holds d sx f) (hx' : x'.Holds d sx' f') {dim : Nat} (hd : dim < 8)
    (hs : s.Is (cset sx.get dim 1) sx.batch) (hs' : s'.Is (cset sx'.get dim 1) sx'.batch) (p : Profile) (m m' : Nat → Fl f32) :
    ∃ g g', Yields (TF.logsumexp p m x dim) d s g ∧ Yields (TF.logsumexp p m' x' dim) d s' g' ∧
      ∀ c b c' b', s.Valid c b → s'.Valid c' b' → ∀ l l', l = axisOf sx f dim c b → l' = axisOf sx' f' dim c' b' →
        (∀ a ∈ l ++ l', a.Finite ∨ a = .inf true) → l.filter Fl.unmasked = l'.filter Fl.unmasked → l.filter Fl.unmasked ≠ [] →
        ¬ [.inf true, .inf true] <+: l → ¬ [.inf true, .inf true] <+: l' → (g c b).Same (g' c' b') := by
  refine ⟨_, _, lse_yields hx hd hs p m, lse_yields hx' hd hs' p m', fun c b c' b' hv hv' l l' hl hl' ha he h0 h1 h2 => ?_⟩
  rw [down_lse hx.wf, down_lse hx'.wf, ← hl, ← hl']
  have k1 := lseList_masked hW (fun a h => ha a (List.mem_append_left _ h)) h0 h1
  have k2 := lseList_masked hW (fun a h => ha a (List.mem_append_right _ h)) (he ▸ h0) h2
  rw [← he] at k2
  exact k1.trans k2.symm

/-- logsumexp is at least each of its finite elements. -/
theorem fold_ge (hW : E.libm64.Special) {l : List (Fl f32)} (hl : ∀ a ∈ l, a.Finite ∨ a = .inf true) {t : Fl f64} (ht : t.In (-maxF32) maxF32) {v : ℝ}
    (hv : t.In v maxF32 ∨ ∃ a ∈ l, a.Is v) : (l.foldl (fun t a => Scalar.lseStep (α := Fl f32) t (Fl.widen a)) t).In v maxF32 := by
  induction l generalizing t with
  | nil =>
    rcases hv with h | ⟨a, h, -⟩
    exacts [h, absurd h List.not_mem_nil]
  | cons a l ih =>
    rw [List.foldl_cons]
    have hl' := fun x hx => hl x (List.mem_cons_of_mem _ hx)
    rcases hl a (List.mem_cons_self ..) with ha | rfl
    · refine ih hl' (step_bounds ht (widen_bounds ha)) ?_
      obtain ⟨u, -, hu, hu1, hu2⟩ := (widen_bounds ha).exists_in
      have hstep := fun {lo : ℝ} (h : t.In lo maxF32) (h' : -maxF32 ≤ lo) =>
        lseStep_in (N := E.near32) (L := E.libm32) E.sane64 max64_has twice64_has (near64_max E.near64) h h' hu (abs_le.mpr ⟨hu1, hu2⟩)
      rcases hv with h | ⟨a', h, h'⟩
      · by_cases hlo : -maxF32 ≤ v
        · exact .inl (Fl.In.mono (hstep h hlo) (le_max_left _ _) le_rfl)
        · exact .inl (Fl.In.mono (hstep ht le_rfl) ((not_le.mp hlo).le.trans (le_max_left _ _)) le_rfl)
      · rcases List.mem_cons.mp h with rfl | h
        · refine .inl (Fl.In.mono (hstep ht le_rfl) ?_ le_rfl)
          rw [Fl.Is.unique (Fl.widen_in.mpr h') hu]
          exact le_max_right _ _
        · exact .inr ⟨a', h, h'⟩
    · obtain ⟨u, -, hu, hu1, hu2⟩ := ht.exists_in
      have h1 := step_masked_right hW hu
      refine ih hl' (Fl.In.mono h1 hu1 hu2) ?_
      rcases hv with h | ⟨a', h, h'⟩
      · obtain ⟨w, -, hw, hw1, hw2⟩ := h.exists_in
        rw [Fl.Is.unique hw hu] at hw1
        exact .inl (Fl.In.mono h1 hw1 hu2)
      · rcases List.mem_cons.mp h with rfl | h
        · exact h'.elim
        · exact .inr ⟨a', h, h'⟩

theorem lseList_ge (hW : E.libm64.Special) {l : List (Fl f32)} (hl : ∀ a ∈ l, a.Finite ∨ a = .inf true) (h2 : ¬ [Fl.inf true, .inf true] <+: l) {a : Fl f32}
    {v : ℝ} (ha : a ∈ l) (hv : a.Is v) : (lseList l).In v maxF32 := by
  have h32 : f32.Has v := Fl.Finite.has hv
  refine match l, hl, h2, ha with
  | [], _, _, ha => absurd ha List.not_mem_nil
  | x :: l, hl, h2, ha => ?_
  have hl' := fun a ha => hl a (List.mem_cons_of_mem _ ha)
  refine Fl.narrow_in ?_ h32 maxF32_has
  rcases hl x (List.mem_cons_self ..) with hx | rfl
  · refine fold_ge hW hl' (widen_bounds hx) ?_
    rcases List.mem_cons.mp ha with rfl | ha
    · exact .inl (Fl.In.mono (Fl.widen_in.mpr hv) le_rfl (abs_le.mp h32.le_max).2)
    · exact .inr ⟨a, ha, hv⟩
  · rcases List.mem_cons.mp ha with rfl | ha
    · exact hv.elim
    refine match l, hl', h2, ha with
    | [], _, _, ha => absurd ha List.not_mem_nil
    | y :: l, hl', h2, ha => ?_
    rcases hl' y (List.mem_cons_self ..) with hy | rfl
    · obtain ⟨u, -, hu, hu1, hu2⟩ := (widen_bounds hy).exists_in
      have h1 := step_masked_left hW hu
      refine fold_ge hW (fun a h => hl' a (List.mem_cons_of_mem _ h)) (Fl.In.mono h1 hu1 hu2) ?_
      rcases List.mem_cons.mp ha with rfl | ha
      · rw [← Fl.Is.unique (Fl.widen_in.mpr hv) hu] at h1 hu2
        exact .inl (Fl.In.mono h1 le_rfl hu2)
      · exact .inr ⟨a, ha, hv⟩
    · exact absurd ⟨l, rfl⟩ h2

/-- Some element of the axis is finite. -/
theorem exists_unmasked {l : List (Fl f32)} (hl : ∀ a ∈ l, a.Finite ∨ a = .inf true) (h0 : ∃ a ∈ l, a ≠ .inf true) : ∃ a ∈ l, ∃ v, a.Is v := by
  obtain ⟨a, ha, hn⟩ := h0
  rcases hl a ha with h | h
  · obtain ⟨v, -, hv⟩ := h.exists_in
    exact ⟨a, ha, v, hv⟩
  · exact absurd h hn

theorem softmax_yields (hx : x.Holds d sx f) {dim : Nat} (hd : dim < 8) (p : Profile) (m : Mem (Fl f32)) :
    Yields (TF.lnSoftmax p m x dim) d sx (fun c b => Fl.sub E.near32 (f c b) (lseList (axisOf sx f dim c b))) ∧
    Yields (TF.softmax p m x dim) d sx (fun c b => E.libm32.exp (Fl.sub E.near32 (f c b) (lseList (axisOf sx f dim c b)))) := by
  have h1 : Yields (TF.lnSoftmax p m x dim) d sx (fun c b => Fl.sub E.near32 (f c b) (lseList (axisOf sx f dim c b))) :=
    Yields.congr (lnSoftmax_yields hx hd p m) fun c b _ => by rw [down_lse hx.wf]
  refine ⟨h1, ?_⟩
  unfold TF.softmax
  exact h1.bind fun a ha => TF.un_yields .exp ha p (m 3)

theorem sub_ninf {y : Fl f32} {l u : ℝ} (hy : y.In l u) : Fl.sub E.near32 (.inf true) y = .inf true := by
  cases y with
  | fin s v h => rfl
  | inf s => exact hy.elim
  | nan => exact hy.elim

/-- C90: `softmax` and `ln_softmax` of an axis masked with `-∞` (some element unmasked, all unmasked elements finite, not two `-∞` at the front): the elements of
`softmax` are numbers in [0, 1], those of `ln_softmax` are at most 0, never NaN; at the masked positions `softmax` is exactly 0 and `ln_softmax` is `-∞`. -/
theorem C90_softmax_masked (hW : E.libm64.Special) (hL : E.libm32.Special) (hx : x.Holds d sx f) {dim : Nat} (hd : dim < 8) (p : Profile) (m : Mem (Fl f32)) :
    ∃ g h, Yields (TF.lnSoftmax p m x dim) d sx g ∧ Yields (TF.softmax p m x dim) d sx h ∧
      ∀ c b, sx.Valid c b → ∀ l, l = axisOf sx f dim c b → (∀ a ∈ l, a.Finite ∨ a = .inf true) → (∃ a ∈ l, a ≠ .inf true) → ¬ [.inf true, .inf true] <+: l →
        (g c b).NonPos ∧ (h c b).In 0 1 ∧ (f c b = .inf true → g c b = .inf true ∧ (h c b).Is 0) := by
  refine ⟨_, _, (softmax_yields hx hd p m).1, (softmax_yields hx hd p m).2, fun c b hv l hl ha h0 h2 => ?_⟩
  rw [← hl]
  obtain ⟨a, hal, v, hav⟩ := exists_unmasked ha h0
  have hge := lseList_ge hW ha h2 hal hav
  have hnp : (Fl.sub E.near32 (f c b) (lseList l)).NonPos := by
    rcases ha (f c b) (hl ▸ mem_axisOf (hv.1 dim)) with hf | hf
    · obtain ⟨u, -, hu⟩ := hf.exists_in
      exact sub_nonPos hu (lseList_ge hW ha h2 (hl ▸ mem_axisOf (hv.1 dim)) hu) le_rfl
    · rw [hf, sub_ninf hge]; exact rfl
  refine ⟨hnp, E.sane32.exp _ hnp, fun hf => ?_⟩
  rw [hf, sub_ninf hge]
  exact ⟨rfl, hL.exp_neg_inf⟩

/-- C90: the unmasked elements of `softmax` are those of `softmax` after removing the masked elements, bit by bit, and those of `ln_softmax` up to the sign of a zero. -/
theorem C90_softmax_removed (hW : E.libm64.Special) (hL : E.libm32.Special) (hx : x.Holds d sx f) (hx' : x'.Holds d sx' f') {dim : Nat} (hd : dim < 8)
    (p : Profile) (m m' : Mem (Fl f32)) :
    ∃ g h g' h', Yields (TF.lnSoftmax p m x dim) d sx g ∧ Yields (TF.softmax p m x dim) d sx h ∧
      Yields (TF.lnSoftmax p m' x' dim) d sx' g' ∧ Yields (TF.softmax p m' x' dim) d sx' h' ∧
      ∀ c b c' b', sx.Valid c b → sx'.Valid c' b' → ∀ l l', l = axisOf sx f dim c b → l' = axisOf sx' f' dim c' b' →
        (∀ a ∈ l ++ l', a.Finite ∨ a = .inf true) → l.filter Fl.unmasked = l'.filter Fl.unmasked →
        ¬ [.inf true, .inf true] <+: l → ¬ [.inf true, .inf true] <+: l' →
        f c b = f' c' b' → f c b ≠ .inf true → (g c b).Same (g' c' b') ∧ h c b = h' c' b' := by
  refine ⟨_, _, _, _, (softmax_yields hx hd p m).1, (softmax_yields hx hd p m).2, (softmax_yields hx' hd p m').1, (softmax_yields hx' hd p m').2,
    fun c b c' b' hv hv' l l' hl hl' ha he h1 h2 hf hn => ?_⟩
  have hmem : f c b ∈ l := hl ▸ mem_axisOf (hv.1 dim)
  have hfin : (f c b).Finite := (ha _ (List.mem_append_left _ hmem)).resolve_right hn
  have hu : Fl.unmasked (f c b) = true := by
    cases e : f c b with
    | fin s u h => rfl
    | inf s => rw [e] at hfin; exact hfin.elim
    | nan => rw [e] at hfin; exact hfin.elim
  have h0 : l.filter Fl.unmasked ≠ [] := List.ne_nil_of_mem (List.mem_filter.mpr ⟨hmem, hu⟩)
  have k1 := lseList_masked hW (fun a h => ha a (List.mem_append_left _ h)) h0 h1
  have k2 := lseList_masked hW (fun a h => ha a (List.mem_append_right _ h)) (he ▸ h0) h2
  rw [← he] at k2
  obtain ⟨v, -, hv⟩ := hfin.exists_in
  have k3 : (Fl.sub E.near32 (f c b) (lseList l)).Same (Fl.sub E.near32 (f c b) (lseList l')) :=
    Fl.Same.sub .rfl' (k1.trans k2.symm) hfin (lseList_ge hW (fun a h => ha a (List.mem_append_left _ h)) h1 hmem hv).finite
  rw [← hl, ← hl', ← hf]
  exact ⟨k3, Fl.Same.exp hL k3⟩

/-- C90, the limit of masking: if an axis begins with two elements `-∞`, all elements of `softmax` and `ln_softmax` along it are NaN, whatever the other logits are. -/
theorem C90_softmax_nan (hW : E.libm64.Special) (hL : E.libm32.Special) (hx : x.Holds d sx f) {dim : Nat} (hd : dim < 8) (p : Profile) (m : Mem (Fl f32)) :
    ∃ g h, Yields (TF.lnSoftmax p m x dim) d sx g ∧ Yields (TF.softmax p m x dim) d sx h ∧
      ∀ c b, sx.Valid c b → [.inf true, .inf true] <+: axisOf sx f dim c b → g c b = .nan ∧ h c b = .nan := by
  refine ⟨_, _, (softmax_yields hx hd p m).1, (softmax_yields hx hd p m).2, fun c b _ h => ?_⟩
  rw [lseList_two hW h]
  have : Fl.sub E.near32 (f c b) .nan = .nan := Fl.add_nan _
  rw [this]
  exact ⟨rfl, hL.exp_nan⟩

/-- C90, the limit of masking: `softmax_cross_entropy` is NaN if a masked class has the target 0 (`0 * -∞`), the target that masking is meant for. -/
theorem C90_cross_entropy_nan {u : Arr (Fl f32)} (hW : E.libm64.Special) (hx : x.Holds d sx f) (ht : t.Holds d sx u) {dim : Nat} (hd : dim < 8)
    (hs : s.Is (cset sx.get dim 1) sx.batch) (p : Profile) (m : Mem (Fl f32)) :
    ∃ g, Yields (TF.softmaxCrossEntropy p m x t dim) d s g ∧ ∀ c b, s.Valid c b → (∀ a ∈ axisOf sx f dim c b, a.Finite ∨ a = .inf true) →
      (∃ j, j < sx.get dim ∧ f (cset c dim j) b = .inf true ∧ (u (cset c dim j) b).Is 0) → g c b = .nan := by
  obtain ⟨h1, h2, -, -⟩ := resize1 hx.wf hd hs
  have key : ∃ g, Yields (TF.softmaxCrossEntropy p m x t dim) d s g ∧ ∀ c b, g c b = Fl.neg (sumTo (sx.get dim) fun j => u (cset c dim j) b *
      Fl.sub E.near32 (f (cset c dim j) b) (lseList (axisOf sx f dim (cset c dim j) b))) := by
    refine ⟨_, ?_, fun c b => rfl⟩
    unfold TF.softmaxCrossEntropy
    refine (softmax_yields hx hd p m).1.bind fun a ha => ?_
    refine (TF.mul_same fl_mul_comm ht ha p (m 3)).bind fun y hy => ?_
    refine (TF.call1 (op := .sum dim) hy h1 (h2.trans hx.small) trivial p (m 4)).bind fun z hz => ?_
    exact TF.un_yields .neg hz p (m 5)
  obtain ⟨g, hg, hg'⟩ := key
  refine ⟨g, hg, fun c b hv ha hj => ?_⟩
  obtain ⟨j, hj, hfj, huj⟩ := hj
  rw [hg', sumTo_nan (sx.get dim) _ hj]
  · rfl
  have hax : axisOf sx f dim (cset c dim j) b = axisOf sx f dim c b := by unfold axisOf; simp only [cset_cset]
  have hlse : Fl.sub E.near32 (.inf true) (lseList (axisOf sx f dim c b)) = .nan ∨ Fl.sub E.near32 (.inf true) (lseList (axisOf sx f dim c b)) = .inf true := by
    rcases lseList_class hW (axisOf_ne hx.wf f dim c b) with ⟨-, h⟩ | ⟨-, ⟨-, h⟩ | ⟨-, h⟩ | ⟨-, -, h⟩⟩
    · rw [h]; exact .inl rfl
    · rw [h]; exact .inr rfl
    · rw [h]; exact .inl rfl
    · obtain ⟨w, -, hw⟩ := h.exists_in
      exact .inr (sub_ninf hw)
  rw [hfj, hax]
  rcases hlse with h | h <;> rw [h]
  · show Fl.mul E.near32 (u (cset c dim j) b) .nan = .nan
    cases u (cset c dim j) b <;> rfl
  · show Fl.mul E.near32 (u (cset c dim j) b) (.inf true) = .nan
    cases hu' : u (cset c dim j) b with
    | fin s w hw =>
      rw [hu'] at huj
      exact if_pos (le_antisymm huj.2 huj.1)
    | inf s => rw [hu'] at huj; exact huj.elim
    | nan => rfl

/-- The elements that `pick` takes exist. -/
theorem picked_valid {ids : List Nat} {dim : Nat} (hw : sx.WF) (hs : ShapeOps.pick .debug sx ids dim = ok s) {c : Nat → Nat} {b : Nat} (hv : s.Valid c b) :
    sx.Valid (cset c dim (ids.getD (if ids.length = 1 then 0 else b) 0)) (bb sx b) := by
  obtain ⟨hd, hne, hbt, hid, his⟩ := (Shape.pick_iff hw).mp hs
  have hb : b < max sx.batch ids.length := by rw [← his.2.2]; exact hv.2
  have hlen : 0 < ids.length := List.length_pos_iff.mpr hne
  have hi : (if ids.length = 1 then 0 else b) < ids.length := by
    split
    · omega
    · rcases hbt with h | h | h
      · omega
      · rw [h] at hb; have := le_max_right 1 ids.length; omega
      · omega
  refine ⟨fun i => ?_, ?_⟩
  · unfold cset; split
    · rename_i h
      rw [h]
      have : ids.getD (if ids.length = 1 then 0 else b) 0 = ids[(if ids.length = 1 then 0 else b)]'hi := by simp [List.getD, List.getElem?_eq_getElem hi]
      rw [this]
      exact hid _ (List.getElem_mem hi)
    · rename_i h
      have := hv.1 i
      rw [his.2.1] at this
      unfold setC at this
      rwa [if_neg h] at this
  · unfold bb; split
    · have := hw.batch_pos; omega
    · rcases hbt with h | h | h
      · rw [h, max_self] at hb; omega
      · omega
      · have := hw.batch_pos; rw [h] at hb; omega

/-- C90: `sparse_softmax_cross_entropy` of masked logits (as in `C90_softmax_masked`) is never NaN: it is at least 0 if the target class is unmasked, and `+∞` if the
target class is masked. -/
theorem C90_sparse_cross_entropy (hW : E.libm64.Special) (hx : x.Holds d sx f) {dim : Nat} {ids : List Nat} (hs : ShapeOps.pick .debug sx ids dim = ok s)
    (hsz : s.size ≤ 2 ^ 31) (p : Profile) (m : Mem (Fl f32)) :
    ∃ g, Yields (TF.sparseSoftmaxCrossEntropy p m x ids dim) d s g ∧
      ∀ c b, s.Valid c b → ∀ l k, l = axisOf sx f dim c (bb sx b) → k = ids.getD (if ids.length = 1 then 0 else b) 0 →
        (∀ a ∈ l, a.Finite ∨ a = .inf true) → (∃ a ∈ l, a ≠ .inf true) → ¬ [.inf true, .inf true] <+: l →
        (g c b).NonNeg ∧ (f (cset c dim k) (bb sx b) = .inf true → g c b = .inf false) := by
  obtain ⟨hd, -⟩ := (Shape.pick_iff hx.wf).mp hs
  let F : Arr (Fl f32) := fun c b => Fl.sub E.near32 (f c b) (lseList (axisOf sx f dim c b))
  refine ⟨fun c b => Fl.neg (F (cset c dim (ids.getD (if ids.length = 1 then 0 else b) 0)) (bb sx b)), ?_, fun c b hv l k hl hk ha h0 h2 => ?_⟩
  · unfold TF.sparseSoftmaxCrossEntropy
    refine (softmax_yields hx hd p m).1.bind fun a ha => ?_
    exact (TF.call1 (op := .pick ids dim) ha hs hsz trivial p (m 3)).bind fun y hy => TF.un_yields .neg hy p (m 4)
  · have hv' := picked_valid hx.wf hs hv
    beta_reduce
    rw [← hk] at hv' ⊢
    have hax : axisOf sx f dim (cset c dim k) (bb sx b) = l := by rw [hl]; unfold axisOf; simp only [cset_cset]
    have hmem : f (cset c dim k) (bb sx b) ∈ l := hax ▸ mem_axisOf (hv'.1 dim)
    obtain ⟨a, hal, v, hav⟩ := exists_unmasked ha h0
    have hge := lseList_ge hW ha h2 hal hav
    have hF : F (cset c dim k) (bb sx b) = Fl.sub E.near32 (f (cset c dim k) (bb sx b)) (lseList l) := by show Fl.sub _ _ (lseList _) = _; rw [hax]
    have hneg : ∀ {y : Fl f32}, y.NonPos → (Fl.neg y).NonNeg := fun {y} h => by
      cases y with
      | fin s u hu => exact neg_nonneg.mpr (show u ≤ 0 from h)
      | inf s => obtain rfl : s = true := h; exact rfl
      | nan => exact h.elim
    simp only [hF]
    refine ⟨?_, fun hf => by rw [hf, sub_ninf hge]; rfl⟩
    rcases ha _ hmem with hf | hf
    · obtain ⟨u, -, hu⟩ := hf.exists_in
      exact hneg (sub_nonPos hu (lseList_ge hW ha h2 hmem hu) le_rfl)
    · rw [hf, sub_ninf hge]; exact rfl

/-- C90: the backward function of `logsumexp` gives the masked positions exactly zero, for every finite result and finite gradient. -/
theorem C90_logsumexp_grad {y gy gx : Tensor (Fl f32)} {fy fgy fg : Arr (Fl f32)} (hL : E.libm32.Special) (hx : x.Holds d sx f) {dim : Nat} (hd : dim < sx.depth)
    (hs : s.Is (cset sx.get dim 1) sx.batch) (hy : y.Holds d s fy) (hgy : gy.Holds d s fgy) (hgx : gx.Holds d sx fg) (p : Profile) (m : Mem (Fl f32))
    (ss : List Shape) :
    ∃ (B : Tensor (Fl f32) → Res (Tensor (Fl f32))) (T : Arr (Fl f32)), NodeOp.bw p d m (.logsumexp dim) [x] [y] [gy] ss = [(0, B)] ∧
      Yields (B gx) d sx (fun c b => fg c b + T c b) ∧
      ∀ c b, sx.Valid c b → f c b = .inf true → (fy (cset c dim 0) b).Finite → (fgy (cset c dim 0) b).Finite → (T c b).Is 0 := by
  have h8 : dim < 8 := lt_of_lt_of_le hd hx.wf.depth_le
  refine ⟨_, fun c b => E.libm32.exp (Fl.sub E.near32 (f c b) (fy (cset c dim 0) b)) * fgy (cset c dim 0) b, rfl, ?_, fun c b _ hf hy hg => ?_⟩
  · simp only [Graph.at', List.getElem?_cons_zero]
    have hdim : NodeOp.dimOf x dim = ok (sx.get dim) := by
      have hlen : sx.dims.length = 8 := hx.wf.len
      unfold NodeOp.dimOf Shape.dimsSlice ix Shape.get
      rw [hx.shape, if_pos hd]
      simp [hd, Shape.raw, hlen, List.getD_eq_getElem?_getD, h8]
    simp only [ok_bind, hdim]
    refine (TF.broadcast_back hs hx.wf hx.small h8 hy p (m 0)).bind fun z hz => ?_
    refine (TF.sub_same hx hz p (m 1)).bind fun u hu => ?_
    refine (TF.un_yields .exp hu p (m 2)).bind fun w hw => ?_
    refine (TF.broadcast_back hs hx.wf hx.small h8 hgy p (m 3)).bind fun g hg => ?_
    refine (TF.mul_same fl_mul_comm hw hg p (m 4)).bind fun v hv => ?_
    exact TF.addAssign_same hgx hv p
  · obtain ⟨u, -, hu⟩ := hy.exists_in
    obtain ⟨v, -, hv⟩ := hg.exists_in
    show (Fl.mul E.near32 (E.libm32.exp (Fl.sub E.near32 (f c b) (fy (cset c dim 0) b))) (fgy (cset c dim 0) b)).Is 0
    rw [hf, sub_ninf hu]
    obtain ⟨z, e⟩ := Fl.mul_eq (N := E.near32) hL.exp_neg_inf hv
    rw [e, zero_mul]
    exact Fl.round_in has0 has0 le_rfl le_rfl

/-! ## Concrete cases -/

theorem Libm.ideal_special {F : Fmt} (N : Near F) (h0 : F.Has 0) : (Libm.ideal N).Special where
  exp_nan := rfl
  ln_nan := rfl
  exp_neg_inf := Fl.round_in h0 h0 le_rfl le_rfl
  exp_zero := fun x y hx hy => by
    cases x with
    | inf s => exact hx.elim
    | nan => exact hx.elim
    | fin s u hu =>
      cases y with
      | inf s => exact hy.elim
      | nan => exact hy.elim
      | fin s' u' hu' =>
        show Fl.round N false (Real.exp u) = Fl.round N false (Real.exp u')
        rw [le_antisymm hx.2 hx.1, le_antisymm hy.2 hy.1]
  ln_one := fun x hx => by
    cases x with
    | inf s => exact hx.elim
    | nan => exact hx.elim
    | fin s u hu =>
      show (if u < 0 then Fl.nan else if u = 0 then .inf true else Fl.round N false (Real.log u)).Is 0
      rw [le_antisymm hx.2 hx.1, if_neg (by norm_num), if_neg (by norm_num), Real.log_one]
      exact Fl.round_in h0 h0 le_rfl le_rfl

/-- The assumptions on the library are met by the one that rounds the exact results. -/
theorem exists_special : ∃ E : Ieee, E.libm32.Special ∧ E.libm64.Special := by
  obtain ⟨E, h1, h2⟩ := Ieee.exists_ideal
  exact ⟨E, h1 ▸ Libm.ideal_special _ has0, h2 ▸ Libm.ideal_special _ has0.up⟩

theorem pair_axis {u v : Fl f32} (hf : ∀ c b, (vecShape 2 1).Valid c b → f c b = if c 0 = 0 then u else v) {c : Nat → Nat} {b : Nat}
    (hv : (vecShape 2 1).Valid c b) : axisOf (vecShape 2 1) f 0 c b = [u, v] := by
  show [f (cset c 0 0) b, f (cset c 0 1) b] = [u, v]
  rw [hf _ _ (Valid.cset hv (show 0 < 2 by omega)), hf _ _ (Valid.cset hv (show 1 < 2 by omega))]
  rfl

/-- The logits `[-∞, 1]`: `softmax` is 0 at the masked position and a number in [0, 1] at the other one. -/
example (hW : E.libm64.Special) (hL : E.libm32.Special) (p : Profile) (m : Mem (Fl f32)) : ∃ (x : Tensor (Fl f32)) (h : Arr (Fl f32)),
    Yields (TF.softmax p m x 0) 0 (vecShape 2 1) h ∧
    ∀ c b, (vecShape 2 1).Valid c b → (h c b).In 0 1 ∧ (c 0 = 0 → (h c b).Is 0) := by
  obtain ⟨x, f, hx, hf⟩ := pair_exists (.inf true) (1 : Fl f32)
  obtain ⟨g, h, -, h2, h3⟩ := C90_softmax_masked hW hL hx (dim := 0) (by omega) p m
  refine ⟨x, h, h2, fun c b hv => ?_⟩
  have key := h3 c b hv _ (pair_axis hf hv).symm (by
    intro a ha
    simp only [List.mem_cons, List.not_mem_nil, or_false] at ha
    rcases ha with rfl | rfl
    exacts [.inr rfl, .inl trivial]) ⟨1, by simp, nofun⟩ (by
    intro h
    have := (List.cons_prefix_cons.mp (List.cons_prefix_cons.mp h).2).1
    cases this)
  exact ⟨key.2.1, fun h0 => (key.2.2 (by rw [hf c b hv, if_pos h0])).2⟩

/-- The logits `[1, -∞]` have, up to the sign of zero, the logsumexp of `[-∞, 1]`, and the softmax of the element 1 is the same in both. -/
example (hW : E.libm64.Special) (hL : E.libm32.Special) (p : Profile) (m : Mem (Fl f32)) : ∃ (x x' : Tensor (Fl f32)) (h h' : Arr (Fl f32)),
    Yields (TF.softmax p m x 0) 0 (vecShape 2 1) h ∧ Yields (TF.softmax p m x' 0) 0 (vecShape 2 1) h' ∧
    ∀ c b c' b', (vecShape 2 1).Valid c b → (vecShape 2 1).Valid c' b' → c 0 = 0 → c' 0 = 1 → h c b = h' c' b' := by
  obtain ⟨x, f, hx, hf⟩ := pair_exists (1 : Fl f32) (.inf true)
  obtain ⟨x', f', hx', hf'⟩ := pair_exists (.inf true) (1 : Fl f32)
  obtain ⟨g, h, g', h', -, h2, -, h4, h5⟩ := C90_softmax_removed hW hL hx hx' (dim := 0) (by omega) p m m
  refine ⟨x, x', h, h', h2, h4, fun c b c' b' hv hv' hc hc' => ?_⟩
  have e1 : Fl.unmasked (1 : Fl f32) = true := rfl
  have e2 : Fl.unmasked (.inf true) = false := rfl
  refine (h5 c b c' b' hv hv' _ _ (pair_axis hf hv).symm (pair_axis hf' hv').symm ?_ ?_ ?_ ?_ ?_ ?_).2
  · intro a ha
    simp only [List.cons_append, List.nil_append, List.mem_cons, List.not_mem_nil, or_false] at ha
    rcases ha with rfl | rfl | rfl | rfl
    exacts [.inl trivial, .inr rfl, .inr rfl, .inl trivial]
  · simp only [List.filter, e1, e2]
  · intro h
    cases (List.cons_prefix_cons.mp h).1
  · intro h
    have := (List.cons_prefix_cons.mp (List.cons_prefix_cons.mp h).2).1
    cases this
  · rw [hf c b hv, hf' c' b' hv', if_pos hc, if_neg (by omega)]
  · rw [hf c b hv, if_pos hc]; nofun

/-- The logits `[1, -∞]`: the loss for the class 0 is at least 0, for the class 1 it is `+∞`. -/
example (hW : E.libm64.Special) (p : Profile) (m : Mem (Fl f32)) (k : Nat) (hk : k < 2) : ∃ (x : Tensor (Fl f32)) (s : Shape) (g : Arr (Fl f32)),
    Yields (TF.sparseSoftmaxCrossEntropy p m x [k] 0) 0 s g ∧ ∀ c b, s.Valid c b → (g c b).NonNeg ∧ (k = 1 → g c b = .inf false) := by
  have hw := vecShape_wf (n := 2) (b := 1) rfl
  obtain ⟨x, f, hx, hf⟩ := pair_exists (1 : Fl f32) (.inf true)
  obtain ⟨s, hs⟩ := exists_reduced (dim := 0) hw (by omega)
  obtain ⟨-, h2, -, -⟩ := resize1 hw (dim := 0) (by omega) hs
  have hp : ShapeOps.pick .debug (vecShape 2 1) [k] 0 = ok s := (Shape.pick_iff hw).mpr
    ⟨by omega, by simp, .inl rfl, fun i hi => by rw [List.mem_singleton.mp hi]; exact hk, hs⟩
  obtain ⟨g, h3, h4⟩ := C90_sparse_cross_entropy hW hx hp (h2.trans hx.small) p m
  refine ⟨x, s, g, h3, fun c b hv => ?_⟩
  have hv0 := picked_valid hw hp hv
  have hv1 : (vecShape 2 1).Valid c (bb (vecShape 2 1) b) := ⟨fun i => by
    have := hv.1 i
    rw [hs.2.1] at this
    unfold cset at this
    split at this
    · rename_i h; rw [h] at this ⊢; exact this.trans (by show 1 < 2; omega)
    · exact this, hv0.2⟩
  have e := pair_axis hf hv1
  have h5 := h4 c b hv _ k e.symm (by simp) (by
    intro a ha
    simp only [List.mem_cons, List.not_mem_nil, or_false] at ha
    rcases ha with rfl | rfl
    exacts [.inl trivial, .inr rfl]) ⟨1, by simp, nofun⟩ (fun h => by cases (List.cons_prefix_cons.mp h).1)
  refine ⟨h5.1, fun h => h5.2 ?_⟩
  subst h
  rw [hf _ _ (Valid.cset hv1 (show 1 < 2 by omega))]
  rfl

/-- The logits `[-∞, -∞]` (for instance the first step of an axis whose first two positions are masked): everything is NaN. -/
example (hW : E.libm64.Special) (hL : E.libm32.Special) (p : Profile) (m : Mem (Fl f32)) : ∃ (x : Tensor (Fl f32)) (h : Arr (Fl f32)),
    Yields (TF.softmax p m x 0) 0 (vecShape 2 1) h ∧ ∀ c b, (vecShape 2 1).Valid c b → h c b = .nan := by
  obtain ⟨x, f, hx, hf⟩ := pair_exists (.inf true) (.inf true)
  obtain ⟨g, h, -, h2, h3⟩ := C90_softmax_nan hW hL hx (dim := 0) (by omega) p m
  exact ⟨x, h, h2, fun c b hv => (h3 c b hv ⟨[], (pair_axis hf hv).symm⟩).2⟩

/-- The logits `[1, -∞]` with the logsumexp 1 and the gradient 1: the masked position receives 0. -/
example (hL : E.libm32.Special) (p : Profile) (m : Mem (Fl f32)) (ss : List Shape) : ∃ (x y : Tensor (Fl f32)) (B : Tensor (Fl f32) → Res (Tensor (Fl f32))) (T : Arr (Fl f32)),
    NodeOp.bw p 0 m (.logsumexp 0) [x] [y] [y] ss = [(0, B)] ∧ Yields (B x) 0 (vecShape 2 1) (fun c b => (if c 0 = 0 then 1 else .inf true) + T c b) ∧
    ∀ c b, (vecShape 2 1).Valid c b → c 0 = 1 → (T c b).Is 0 := by
  have hw := vecShape_wf (n := 2) (b := 1) rfl
  obtain ⟨x, f, hx, hf⟩ := pair_exists (1 : Fl f32) (.inf true)
  obtain ⟨s, hs⟩ := exists_reduced (dim := 0) hw (by omega)
  obtain ⟨-, h2, -, -⟩ := resize1 hw (dim := 0) (by omega) hs
  obtain ⟨y, hy⟩ := exists_holds hs.1 (h2.trans hx.small) 0 (fun _ => (1 : Fl f32))
  obtain ⟨B, T, h3, h4, h5⟩ := C90_logsumexp_grad hL hx (dim := 0) (by decide) hs hy hy hx p m ss
  refine ⟨x, y, B, T, h3, Yields.congr h4 fun c b hv => by rw [hf c b hv], fun c b hv hc => h5 c b hv (by rw [hf c b hv, if_neg (by omega)]) trivial trivial⟩

/-- The logits `[1, -∞]` with the target `[1, 0]`: the loss is NaN, the logsumexp is not. -/
example (hW : E.libm64.Special) (p : Profile) (m : Mem (Fl f32)) : ∃ (x t : Tensor (Fl f32)) (s : Shape) (g h : Arr (Fl f32)),
    Yields (TF.softmaxCrossEntropy p m x t 0) 0 s g ∧ Yields (TF.logsumexp p (m 0) x 0) 0 s h ∧ s.Valid (fun _ => 0) 0 ∧
    g (fun _ => 0) 0 = .nan ∧ (h (fun _ => 0) 0) ≠ .nan := by
  have hw := vecShape_wf (n := 2) (b := 1) rfl
  obtain ⟨x, f, hx, hf⟩ := pair_exists (1 : Fl f32) (.inf true)
  obtain ⟨t, u, ht, hu⟩ := pair_exists (1 : Fl f32) (0 : Fl f32)
  obtain ⟨s, hs⟩ := exists_reduced (dim := 0) hw (by omega)
  obtain ⟨g, h1, h2⟩ := C90_cross_entropy_nan hW hx ht (dim := 0) (by omega) hs p m
  obtain ⟨h, h3, h4⟩ := C90_logsumexp_special hW hx (dim := 0) (by omega) hs p (m 0)
  have hv : s.Valid (fun _ => 0) 0 := by
    refine ⟨fun i => ?_, ?_⟩
    · rw [hs.2.1]
      unfold cset
      split
      · exact Nat.one_pos
      · exact hw.get_pos i
    · rw [hs.2.2]; exact Nat.one_pos
  have hv' := Valid.unreduced hs hw hv
  refine ⟨x, t, s, g, h, h1, h3, hv, h2 _ _ hv ?_ ⟨1, by show 1 < 2; omega, ?_, ?_⟩, ?_⟩
  · rw [pair_axis hf hv']
    intro a ha
    simp only [List.mem_cons, List.not_mem_nil, or_false] at ha
    rcases ha with rfl | rfl
    exacts [.inl trivial, .inr rfl]
  · rw [hf _ _ (Valid.cset hv' (show 1 < 2 by omega))]; rfl
  · rw [hu _ _ (Valid.cset hv' (show 1 < 2 by omega))]; exact ⟨le_rfl, le_rfl⟩
  · rw [ne_eq, (h4 _ _ hv _ (pair_axis hf hv').symm).1]
    rintro (h | h | h)
    · simp only [List.mem_cons, List.not_mem_nil, or_false, reduceCtorEq] at h
      cases h
    · cases (List.cons_prefix_cons.mp h).1
    · have := h.subset (List.mem_cons_self ..)
      simp only [List.mem_cons, List.not_mem_nil, or_false, Fl.inf.injEq, reduceCtorEq] at this
      cases this

end
end Verif
