import Verif.Batchwise
import Verif.BatchSpec
import Verif.PropsFw4

/-!
# Batches: the functions on tensors commute with the choice of samples
-/

set_option linter.unusedSectionVars false

namespace Verif
open Res
variable {α : Type} [Flt α] {d B n : Nat} {σ : Nat → Nat}

/-- `x'` has the chosen samples of `x`; a tensor with one batch is shared by the samples. -/
def Picks (B n : Nat) (σ : Nat → Nat) (d : Nat) (x x' : Tensor α) : Prop :=
  ∃ i i' : Shape × Arr α, x.Holds d i.1 i.2 ∧ x'.Holds d i'.1 i'.2 ∧ Row B n σ i i'

/-- If the first call returns, the second call returns a related value. -/
def Follows {β γ : Type} (R : β → γ → Prop) (r : Res β) (r' : Res γ) : Prop := ∀ y, r = ok y → ∃ y', r' = ok y' ∧ R y y'

theorem Follows.bind {β γ β' γ' : Type} {R : β → γ → Prop} {R' : β' → γ' → Prop} {r : Res β} {r' : Res γ} {k : β → Res β'} {k' : γ → Res γ'}
    (h : Follows R r r') (hk : ∀ y y', R y y' → Follows R' (k y) (k' y')) : Follows R' (r >>= k) (r' >>= k') := by
  intro z hz
  rw [Res.bind_eq_ok] at hz
  obtain ⟨y, h1, h2⟩ := hz
  obtain ⟨y', h3, h4⟩ := h y h1
  obtain ⟨z', h5, h6⟩ := hk y y' h4 z h2
  exact ⟨z', by rw [h3, ok_bind]; exact h5, h6⟩

theorem Follows.pure {β γ : Type} {R : β → γ → Prop} {y : β} {y' : γ} (h : R y y') : Follows R (ok y) (ok y') := by
  intro z hz; cases hz; exact ⟨y', rfl, h⟩

theorem Picks.get {x x' : Tensor α} (h : Picks B n σ d x x') (i : Nat) : x'.shape.get i = x.shape.get i := by
  obtain ⟨i, i', h1, h2, h3⟩ := h
  rw [h1.shape, h2.shape, h3.shape]; rfl

theorem Picks.isScalar {x x' : Tensor α} (h : Picks B n σ d x x') : x'.shape.isScalar = x.shape.isScalar := by
  obtain ⟨i, i', h1, h2, h3⟩ := h
  rw [h1.shape, h2.shape, h3.shape]; rfl

theorem fits_choose {op : FwOp α} {s : Shape} (h : op.Fits s) : (op.choose n σ).Fits (s.sel n) := by
  cases op <;> exact h

theorem picks_all {xs xs' : List (Tensor α)} (h : List.Forall₂ (Picks B n σ d) xs xs') :
    ∃ ins ins', HoldAll d xs ins ∧ HoldAll d xs' ins' ∧ Rows B n σ ins ins' := by
  induction h with
  | nil => exact ⟨[], [], .nil, .nil, .nil⟩
  | cons h _ ih =>
    obtain ⟨l, l', h1, h2, h3⟩ := ih
    obtain ⟨i, i', q1, q2, q3⟩ := h
    exact ⟨i :: l, i' :: l', .cons q1 h1, .cons q2 h2, .cons q3 h3⟩

/-- Every device function that works on the samples separately: if it returns on the minibatch (with overflow checks), it returns, in any
build, on the chosen samples, the chosen samples of the result. -/
theorem Dev.fw_picks {op : FwOp α} (hc : Chooses B n σ) (hr : op.PerSample B) (hin : op.InRange) {xs xs' : List (Tensor α)}
    (h : List.Forall₂ (Picks B n σ d) xs xs') (m m' : Nat → α) (p : Profile) :
    Follows (Picks B n σ d) (Dev.fw op .debug d m xs) (Dev.fw (op.choose n σ) p d m' xs') := by
  intro y hy
  obtain ⟨ins, ins', h1, h2, h3⟩ := picks_all h
  have hp : ∃ s, op.Pre d xs s := by
    by_contra hne
    rw [Dev.fw_panics h1.fine hin hne m] at hy
    cases hy
  obtain ⟨s, hp⟩ := hp
  have hs := hp.shape
  rw [h1.shapes] at hs
  obtain ⟨q1, q2, q3⟩ := rows_commute hc h1.wf h3 hr hs
  obtain ⟨y1, e1, k1⟩ := Dev.fw_ok h1 hs hp.size hp.fits .debug m
  have hw := FwOp.shape_wf h1.wf hs
  obtain ⟨y2, e2, k2⟩ := Dev.fw_ok h2 q1 ((hw.sel_size hc q2).trans hp.size) (fits_choose hp.fits) p m'
  rw [hy] at e1; cases e1
  exact ⟨y2, e2, (s, op.sem ins), (s.sel n, (op.choose n σ).sem ins'), k1, k2, q2, rfl, q3⟩

theorem Picks.device {x x' : Tensor α} (h : Picks B n σ d x x') : x.device = some d ∧ x'.device = some d := by
  obtain ⟨i, i', h1, h2, _⟩ := h
  exact ⟨h1.device, h2.device⟩

theorem TF.call_picks {op : FwOp α} (hc : Chooses B n σ) (hr : op.PerSample B) (hin : op.InRange) {x x' : Tensor α} (hx : Picks B n σ d x x')
    {xs xs' : List (Tensor α)} (h : List.Forall₂ (Picks B n σ d) xs xs') (m m' : Nat → α) (p : Profile) :
    Follows (Picks B n σ d) (TF.call op .debug m x xs) (TF.call (op.choose n σ) p m' x' xs') := by
  unfold TF.call Tensor.dev unwrap
  rw [hx.device.1, hx.device.2]
  exact Dev.fw_picks hc hr hin h m m' p

theorem TF.call1_picks {op : FwOp α} (hc : Chooses B n σ) (hr : op.PerSample B) (hin : op.InRange) {x x' : Tensor α} (hx : Picks B n σ d x x')
    (m m' : Nat → α) (p : Profile) :
    Follows (Picks B n σ d) (TF.call op .debug m x [x]) (TF.call (op.choose n σ) p m' x' [x']) :=
  TF.call_picks hc hr hin hx (.cons hx .nil) m m' p

theorem TF.abOp_picks (o : Bi) (l r : Sc) (hc : Chooses B n σ) {x x' y y' : Tensor α} (hx : Picks B n σ d x x') (hy : Picks B n σ d y y')
    (m m' : Nat → α) (p : Profile) : Follows (Picks B n σ d) (TF.abOp o l r .debug m x y) (TF.abOp o l r p m' x' y') := by
  unfold TF.abOp
  rw [hx.isScalar, hy.isScalar]
  split
  · exact TF.call_picks (op := .sc l) hc trivial trivial hx (.cons hy (.cons hx .nil)) m m' p
  · split
    · exact TF.call_picks (op := .sc r) hc trivial trivial hx (.cons hx (.cons hy .nil)) m m' p
    · exact TF.call_picks (op := .bi o) hc trivial trivial hx (.cons hx (.cons hy .nil)) m m' p

theorem TF.lnSoftmax_picks (hc : Chooses B n σ) {x x' : Tensor α} (hx : Picks B n σ d x x') (m m' : Mem α) (p : Profile) (dim : Nat) :
    Follows (Picks B n σ d) (TF.lnSoftmax .debug m x dim) (TF.lnSoftmax p m' x' dim) := by
  unfold TF.lnSoftmax
  rw [hx.get dim]
  refine (TF.call1_picks (op := .logsumexp dim) hc trivial trivial hx _ _ p).bind fun a a' ha => ?_
  refine (TF.call1_picks (op := .broadcast dim _) hc trivial trivial ha _ _ p).bind fun b b' hb => ?_
  exact TF.abOp_picks _ _ _ hc hx hb _ _ p

theorem TF.mean_picks (hc : Chooses B n σ) {x x' : Tensor α} (hx : Picks B n σ d x x') (m m' : Mem α) (p : Profile) (dim : Nat) :
    Follows (Picks B n σ d) (TF.mean .debug m x dim) (TF.mean p m' x' dim) := by
  unfold TF.mean
  rw [hx.get dim]
  refine (TF.call1_picks (op := .sum dim) hc trivial trivial hx _ _ p).bind fun a a' ha => ?_
  exact TF.call1_picks (op := .cn .divR _) hc trivial trivial ha _ _ p

theorem flat_batch {s t : Shape} (hs : s.WF) (ht : t.WF) (hv : t.volume = s.volume) (f : Arr α) {c : Nat → Nat} {b : Nat}
    (hc : ∀ j, c j < t.get j) : Arr.flat s f (t.offset c b) = f (s.coord (offN t.get c 8)) b := by
  have h1 : offN t.get c 8 < volN t.get 8 := offN_lt (fun i _ => hc i)
  unfold Arr.flat Shape.offset
  rw [← ht.vol, hv] at h1 ⊢
  rw [Nat.add_mul_mod_self_right, Nat.mod_eq_of_lt h1, Nat.add_mul_div_right _ _ hs.volume_pos, Nat.div_eq_of_lt h1, Nat.zero_add]

theorem coord_lt {s : Shape} (hs : s.WF) (k : Nat) : ∀ j, s.coord k j < s.get j := fun j => Nat.mod_lt _ (hs.get_pos j)

theorem reshape_picks (hc : Chooses B n σ) {x x' : Tensor α} (hx : Picks B n σ d x x') {t t' : Shape} (ht : t.WF) (hb : t.batch = x.shape.batch)
    (ht' : t' = t.sel n) (m m' : Nat → α) (p : Profile) : Follows (Picks B n σ d) (TF.reshape .debug m x t) (TF.reshape p m' x' t') := by
  intro y hy
  obtain ⟨⟨s, f⟩, ⟨s', f'⟩, h1, h2, h3⟩ := hx
  have e := h3.shape
  simp only at e h1 h2
  subst e ht'
  rw [h1.shape] at hb
  have hsz : t.size = s.size := by
    by_contra hne
    rw [C53_reshape_panics h1 hne m] at hy
    cases hy
  have hbp := h1.wf.batch_pos
  have hv : t.volume = s.volume := by
    unfold Shape.size at hsz
    rw [hb] at hsz
    exact Nat.eq_of_mul_eq_mul_left hbp hsz
  have hb' : (t.sel n).batch = (s.sel n).batch := by rw [Shape.sel_batch, Shape.sel_batch, hb]
  have hsz' : (t.sel n).size = (s.sel n).size := by
    unfold Shape.size
    rw [hb']
    exact congrArg _ hv
  obtain ⟨y1, e1, k1⟩ := TF.reshape_ok h1 ht hsz .debug m
  obtain ⟨y2, e2, k2⟩ := TF.reshape_ok h2 (ht.sel hc.pos) hsz' p m'
  rw [hy] at e1; cases e1
  refine ⟨y2, e2, (t, _), (t.sel n, _), k1, k2, by simp only [hb]; exact h3.batch, rfl, fun c k hcc hk => ?_⟩
  show Arr.flat (s.sel n) f' ((t.sel n).offset c (bb (t.sel n) k)) = Arr.flat s f (t.offset c (bb t (σ k)))
  rw [flat_batch h2.wf (ht.sel hc.pos) hv f' hcc, flat_batch h1.wf ht hv f hcc, bb_eq hb', bb_eq hb]
  exact h3.val (s.coord (offN t.get c 8)) k (coord_lt h1.wf _) hk

theorem reshapeEach_picks (hc : Chooses B n σ) {x x' : Tensor α} (hx : Picks B n σ d x x') (dims : List Nat) (m m' : Nat → α) (p : Profile) :
    Follows (Picks B n σ d) (reshapeEach .debug m x dims) (reshapeEach p m' x' dims) := by
  intro y hy
  unfold reshapeEach at hy
  rw [Res.bind_eq_ok] at hy
  obtain ⟨t, h1, h2⟩ := hy
  obtain ⟨q1, q2, q3⟩ := Shape.new_ok h1
  obtain ⟨g1, g2, g3, g4⟩ := Shape.new_ok_imp h1
  have hb : x'.shape.batch = (t.sel n).batch := by
    obtain ⟨i, i', k1, k2, k3⟩ := hx
    rw [k2.shape, k3.shape, Shape.sel_batch, Shape.sel_batch, q2, k1.shape]
  have hpos : 1 ≤ x'.shape.batch := by rw [hb]; exact (q1.sel hc.pos).batch_pos
  obtain ⟨t', e', w', b', r'⟩ := Shape.new_of (dims := dims) (b := x'.shape.batch) p ⟨g1, hpos, g3, g4⟩
  have et : t' = t.sel n := w'.ext (q1.sel hc.pos) (b'.trans hb) fun i => by rw [r' i]; exact (q3 i).symm
  obtain ⟨y', k1, k2⟩ := reshape_picks hc hx q1 q2 et m m' p y h2
  exact ⟨y', by unfold reshapeEach; rw [e', ok_bind]; exact k1, k2⟩

theorem TF.flatten_picks (hc : Chooses B n σ) {x x' : Tensor α} (hx : Picks B n σ d x x') (m m' : Nat → α) (p : Profile) :
    Follows (Picks B n σ d) (TF.flatten .debug m x) (TF.flatten p m' x') := by
  have hv : x'.shape.volume = x.shape.volume := by
    obtain ⟨i, i', k1, k2, k3⟩ := hx
    rw [k1.shape, k2.shape, k3.shape]; rfl
  have := reshapeEach_picks hc hx [x.shape.volume] m m' p
  unfold TF.flatten
  rw [hv]
  exact this

theorem Follows.check {β γ : Type} {R : β → γ → Prop} {c : Prop} [Decidable c] {k : Unit → Res β} {k' : Unit → Res γ} (h : Follows R (k ()) (k' ())) :
    Follows R (check c >>= k) (check c >>= k') := by
  intro y hy
  obtain ⟨h1, h2⟩ := check_bind_ok.mp hy
  obtain ⟨y', e, hr⟩ := h y h2
  exact ⟨y', by rw [check_true _ h1, ok_bind]; exact e, hr⟩

theorem Follows.loop {β γ : Type} {R : β → γ → Prop} {f : Nat → β → Res β} {f' : Nat → γ → Res γ} (n : Nat)
    (h : ∀ i a a', R a a' → Follows R (f i a) (f' i a')) : ∀ {a a'}, R a a' → Follows R (loop n f a) (loop n f' a') := by
  induction n with
  | zero => intro a a' h; exact .pure h
  | succ n ih =>
    intro a a' h0
    rw [loop_succ, loop_succ]
    exact (ih h0).bind fun b b' hb => h n b b' hb

theorem forall₂_snoc {β γ : Type} {R : β → γ → Prop} {l : List β} {l' : List γ} {a : β} {a' : γ} (h : List.Forall₂ R l l') (ha : R a a') :
    List.Forall₂ R (l ++ [a]) (l' ++ [a']) := by
  induction h with
  | nil => exact .cons ha .nil
  | cons h _ ih => exact .cons h ih

theorem TF.split_picks (hc : Chooses B n σ) {x x' : Tensor α} (hx : Picks B n σ d x x') (dim k : Nat) (m m' : Mem α) (p : Profile) :
    Follows (List.Forall₂ (Picks B n σ d)) (TF.split .debug m x dim k) (TF.split p m' x' dim k) := by
  unfold TF.split
  rw [hx.get dim]
  refine Follows.check (Follows.check (Follows.loop k (fun i a a' ha => ?_) .nil))
  refine (TF.call1_picks (op := .slice dim _ _) hc trivial trivial hx _ _ p).bind fun b b' hb => ?_
  exact .pure (forall₂_snoc ha hb)

theorem TF.sumFrom_picks (hc : Chooses B n σ) {xs xs' : List (Tensor α)} (h : List.Forall₂ (Picks B n σ d) xs xs') (m m' : Mem α) (p : Profile) :
    ∀ (i i' : Nat) {a a' : Tensor α}, Picks B n σ d a a' → Follows (Picks B n σ d) (TF.sumFrom .debug m i a xs) (TF.sumFrom p m' i' a' xs') := by
  induction h with
  | nil => intro i i' a a' h; exact .pure h
  | cons h _ ih =>
    intro i i' a a' ha
    exact (TF.abOp_picks .add .add .add hc ha h _ _ p).bind fun b b' hb => ih _ _ hb

theorem newByConstant_picks {x x' : Tensor α} (hx : Picks B n σ d x x') (k : α) (m m' : Nat → α) (p : Profile) :
    Follows (Picks B n σ d) (Dev.newByConstant .debug d m x.shape k) (Dev.newByConstant p d m' x'.shape k) := by
  obtain ⟨⟨s, f⟩, ⟨s', f'⟩, h1, h2, h3⟩ := hx
  intro y hy
  have e := h3.shape
  simp only at e h1 h2
  subst e
  rw [h1.shape] at hy
  rw [h2.shape]
  obtain ⟨y1, e1, k1⟩ := Dev.newByConstant_ok (α := α) h1.wf h1.small .debug d m k
  obtain ⟨y2, e2, k2⟩ := Dev.newByConstant_ok (α := α) h2.wf h2.small p d m' k
  rw [hy] at e1; cases e1
  exact ⟨y2, e2, (s, _), (s.sel n, _), k1, k2, h3.batch, rfl, fun _ _ _ _ => rfl⟩

theorem TF.sliceSum_picks (hc : Chooses B n σ) {xs xs' : List (Tensor α)} (h : List.Forall₂ (Picks B n σ d) xs xs') (m m' : Mem α) (p : Profile) :
    Follows (Picks B n σ d) (TF.sliceSum .debug m xs) (TF.sliceSum p m' xs') := by
  unfold TF.sliceSum
  rw [← h.length_eq]
  refine Follows.check ?_
  cases h with
  | nil => intro y hy; cases hy
  | @cons x x' l l' hx ht =>
    simp only [ix_cons_zero, ok_bind, Tensor.dev, hx.device.1, hx.device.2, unwrap]
    refine (newByConstant_picks hx 0 _ _ p).bind fun z z' hz => ?_
    exact TF.sumFrom_picks hc (.cons hx ht) m m' p 1 1 hz

theorem TF.concat_picks (hc : Chooses B n σ) {xs xs' : List (Tensor α)} (h : List.Forall₂ (Picks B n σ d) xs xs') (dim : Nat) (m m' : Nat → α)
    (p : Profile) : Follows (Picks B n σ d) (TF.concat .debug m xs dim) (TF.concat p m' xs' dim) := by
  unfold TF.concat
  cases h with
  | nil => intro y hy; cases hy
  | @cons x x' l l' hx ht =>
    simp only [ix_cons_zero, ok_bind]
    exact TF.call_picks (op := .concat dim) hc trivial trivial hx (.cons hx ht) m m' p

theorem TF.normalized_picks (hc : Chooses B n σ) {x x' u u' v v' g g' b b' : Tensor α} (hx : Picks B n σ d x x') (hu : Picks B n σ d u u')
    (hv : Picks B n σ d v v') (hg : Picks B n σ d g g') (hb : Picks B n σ d b b') (m m' : Mem α) (p : Profile) :
    Follows (Picks B n σ d) (TF.normalized .debug m x u v g b) (TF.normalized p m' x' u' v' g' b') := by
  unfold TF.normalized
  refine (TF.abOp_picks .sub .subL .subR hc hx hu _ _ p).bind fun a a' ha => ?_
  refine (TF.call1_picks (op := .un .sqrt) hc trivial trivial hv _ _ p).bind fun w w' hw => ?_
  refine (TF.abOp_picks .div .divL .divR hc ha hw _ _ p).bind fun z z' hz => ?_
  refine (TF.abOp_picks .mul .mul .mul hc hg hz _ _ p).bind fun y y' hy => ?_
  exact TF.abOp_picks .add .add .add hc hy hb _ _ p

theorem TF.layerNorm_picks (hc : Chooses B n σ) {x x' g g' b b' : Tensor α} (hx : Picks B n σ d x x') (hg : Picks B n σ d g g')
    (hb : Picks B n σ d b b') (eps : α) (m m' : Mem α) (p : Profile) :
    Follows (Picks B n σ d) (TF.layerNormalization .debug m x g b eps) (TF.layerNormalization p m' x' g' b' eps) := by
  unfold TF.layerNormalization
  refine (TF.flatten_picks hc hx _ _ p).bind fun a a' ha => ?_
  refine (TF.mean_picks hc ha _ _ p 0).bind fun u u' hu => ?_
  refine (TF.abOp_picks .sub .subL .subR hc hx hu _ _ p).bind fun t t' ht => ?_
  refine (TF.abOp_picks .mul .mul .mul hc ht ht _ _ p).bind fun q q' hq => ?_
  refine (TF.flatten_picks hc hq _ _ p).bind fun a a' ha => ?_
  refine (TF.mean_picks hc ha _ _ p 0).bind fun v v' hv => ?_
  refine (TF.call1_picks (op := .cn .add eps) hc trivial trivial hv _ _ p).bind fun w w' hw => ?_
  exact TF.normalized_picks hc hx hu hw hg hb _ _ p

end Verif
