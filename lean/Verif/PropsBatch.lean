import Verif.Batchwise2

/-!
# Property C76: a minibatch is its samples
-/

set_option linter.unusedSectionVars false

namespace Verif
open Res
variable {α : Type} [Flt α] {d B : Nat} {ids : List Nat}

/-- The samples `ids` are some of the samples `0 … B-1` (each may occur more than once, but not more than `B` of them). -/
def SomeOf (ids : List Nat) (B : Nat) : Prop := ids ≠ [] ∧ ids.length ≤ B ∧ ∀ b, b ∈ ids → b < B

theorem SomeOf.chooses (h : SomeOf ids B) : Chooses B ids.length (fun k => ids.getD k 0) := by
  refine ⟨?_, h.2.1, fun k hk => h.2.2 _ ?_⟩
  · rcases Nat.eq_zero_or_pos ids.length with e | e
    · exact absurd (List.length_eq_zero_iff.mp e) h.1
    · exact e
  · simp [List.getD, List.getElem?_eq_getElem hk]

theorem sel_one {s : Shape} {n : Nat} (h : s.batch = 1) : s.sel n = s := by
  unfold Shape.sel; rw [if_pos h]; cases s; cases h; rfl

theorem samples_iff (h : SomeOf ids B) {x x' : Tensor α} :
    Samples B ids d x x' ↔ Picks B ids.length (fun k => ids.getD k 0) d x x' := by
  have hc := h.chooses
  have hp := hc.pos
  have hle := hc.le
  constructor
  · rintro ⟨s, s', f, f', h1, h2, ⟨h3, rfl, h5⟩ | ⟨h3, h4, h5⟩⟩
    · refine ⟨(s', f), (s', f'), h1, h2, .inl h3, (sel_one h3).symm, fun c k hcc hk => ?_⟩
      simp only [sel_one h3]
      unfold bb
      rw [if_pos h3, if_pos h3]
      exact h5 c 0 ⟨hcc, by omega⟩
    · have e : s' = s.sel ids.length := by
        refine h4.1.ext (h1.wf.sel hp) ?_ h4.2.1
        rw [h4.2.2, Shape.sel_batch]
        split <;> omega
      refine ⟨(s, f), (s', f'), h1, h2, .inr h3, e, fun c k hcc hk => ?_⟩
      rw [← e]
      simp only at hcc ⊢
      have hb := h4.2.2
      by_cases h1' : s.batch = 1
      · have hn : ids.length = 1 := by omega
        have e0 : ids.getD k 0 = 0 := by have := hc.lt k hk; omega
        unfold bb
        rw [if_pos (hb.trans hn), if_pos h1', h5 c 0 ⟨fun j => by rw [h4.2.1 j]; exact hcc j, by omega⟩]
        have := hc.lt 0 (by omega)
        congr 1; omega
      · have : bb s' k = k := by unfold bb; split <;> omega
        rw [this, h5 c k ⟨fun j => by rw [h4.2.1 j]; exact hcc j, by omega⟩]
        unfold bb; rw [if_neg h1']
  · rintro ⟨⟨s, f⟩, ⟨s', f'⟩, h1, h2, h3⟩
    have e := h3.shape
    simp only at e h1 h2
    subst e
    refine ⟨s, _, f, f', h1, h2, ?_⟩
    by_cases h1' : s.batch = 1
    · refine .inl ⟨h1', sel_one h1', fun c b hv => ?_⟩
      have := h3.val c 0 hv.1 (by omega)
      have hb0 : b = 0 := by have := hv.2; omega
      simp only [sel_one h1'] at this
      unfold bb at this
      rw [if_pos h1', if_pos h1'] at this
      rw [hb0]; exact this
    · have hb : (s.sel ids.length).batch = ids.length := by rw [Shape.sel_batch, if_neg h1']
      refine .inr ⟨h3.batch.resolve_left h1', ⟨h2.wf, fun _ => rfl, hb⟩, fun c k hv => ?_⟩
      have hk : k < ids.length := by rw [← hb]; exact hv.2
      have := h3.val c k hv.1 hk
      have e1 : bb (s.sel ids.length) k = k := by unfold bb; split <;> omega
      simp only [e1] at this
      unfold bb at this
      rwa [if_neg h1'] at this

theorem chooseIds_eq (picks : List Nat) : (if picks.length = 1 then picks else (List.range ids.length).map fun k => picks.getD (ids.getD k 0) 0) =
    chooseIds ids picks := by
  unfold chooseIds
  split
  · rfl
  · apply List.ext_getElem
    · simp
    · intro i h1 h2
      simp only [List.length_map, List.length_range] at h1
      simp [List.getD, List.getElem?_eq_getElem h1]

theorem at_picks {R : Tensor α → Tensor α → Prop} {env env' : List (Tensor α)} (h : List.Forall₂ R env env') (i : Nat) :
    Follows R (Graph.at' env i) (Graph.at' env' i) := by
  intro y hy
  unfold Graph.at' at hy ⊢
  induction h generalizing i with
  | nil => cases hy
  | cons h _ ih =>
    cases i with
    | zero =>
      simp only [List.getElem?_cons_zero] at hy ⊢
      cases hy
      exact ⟨_, rfl, h⟩
    | succ i =>
      simp only [List.getElem?_cons_succ] at hy ⊢
      exact ih i hy

theorem args_picks {R : Tensor α → Tensor α → Prop} {env env' : List (Tensor α)} (h : List.Forall₂ R env env') (is : List Nat) :
    Follows (List.Forall₂ R) (args env is) (args env' is) := by
  induction is with
  | nil => exact .pure .nil
  | cons i is ih => exact (at_picks h i).bind fun x x' hx => ih.bind fun xs xs' hxs => .pure (.cons hx hxs)

theorem Fn.run_picks {n : Nat} {σ : Nat → Nat} (hc : Chooses B n σ) (f : Fn α) (i : Nat) (hf : (Step.one f i).Fit B)
    (h1 : ∀ l d, f ≠ .pick l d) (h2 : ∀ l d, f ≠ .sparseSoftmaxCrossEntropy l d) {x x' : Tensor α} (hx : Picks B n σ d x x')
    (m m' : Mem α) (p : Profile) : Follows (Picks B n σ d) (f.run .debug m x) (f.run p m' x') := by
  have un : ∀ u : Un, Follows (Picks B n σ d) (TF.call (.un u) .debug (m 0) x [x]) (TF.call (.un u) p (m' 0) x' [x']) :=
    fun u => TF.call1_picks (op := .un u) hc trivial trivial hx _ _ p
  have cn : ∀ (o : Cn) (k : α), Follows (Picks B n σ d) (TF.call (.cn o k) .debug (m 0) x [x]) (TF.call (.cn o k) p (m' 0) x' [x']) :=
    fun o k => TF.call1_picks (op := .cn o k) hc trivial trivial hx _ _ p
  cases f
  case neg => exact un .neg
  case sqrt => exact un .sqrt
  case abs => exact un .abs
  case sin => exact un .sin
  case cos => exact un .cos
  case tan => exact un .tan
  case exp => exact un .exp
  case ln => exact un .ln
  case tanh => exact un .tanh
  case sigmoid => exact un .sigmoid
  case softplus => exact un .softplus
  case relu => exact cn .prelu 0
  case lrelu => exact cn .prelu Flt.cent
  case prelu a => exact cn .prelu a
  case elu a => exact cn .elu a
  case addC k => exact cn .add k
  case cAdd k => exact cn .add k
  case subC k => exact cn .subR k
  case cSub k => exact cn .subL k
  case mulC k => exact cn .mul k
  case cMul k => exact cn .mul k
  case divC k => exact cn .divR k
  case cDiv k => exact cn .divL k
  case powf k => exact cn .powfR k
  case powi k => exact TF.call1_picks (op := .powi k) hc trivial hf hx _ _ p
  case sum dim => exact TF.call1_picks (op := .sum dim) hc trivial trivial hx _ _ p
  case mean dim => exact TF.mean_picks hc hx _ _ p dim
  case max dim => exact TF.call1_picks (op := .max dim) hc trivial trivial hx _ _ p
  case min dim => exact TF.call1_picks (op := .min dim) hc trivial trivial hx _ _ p
  case logsumexp dim => exact TF.call1_picks (op := .logsumexp dim) hc trivial trivial hx _ _ p
  case broadcast dim size => exact TF.call1_picks (op := .broadcast dim size) hc trivial trivial hx _ _ p
  case lnSoftmax dim => exact TF.lnSoftmax_picks hc hx _ _ p dim
  case softmax dim =>
    exact (TF.lnSoftmax_picks hc hx _ _ p dim).bind fun a a' ha => TF.call1_picks (op := .un .exp) hc trivial trivial ha _ _ p
  case sparseSoftmaxCrossEntropy l dim => exact absurd rfl (h2 l dim)
  case transpose => exact TF.call1_picks (op := .transpose) hc trivial trivial hx _ _ p
  case triangularL k => exact TF.call1_picks (op := .triangularL k) hc trivial trivial hx _ _ p
  case triangularU k => exact TF.call1_picks (op := .triangularU k) hc trivial trivial hx _ _ p
  case slice dim l u => exact TF.call1_picks (op := .slice dim l u) hc trivial trivial hx _ _ p
  case pick l dim => exact absurd rfl (h1 l dim)
  case reshape dims => exact reshapeEach_picks hc hx dims _ _ p
  case flatten => exact TF.flatten_picks hc hx _ _ p
  case dropoutOff r rate => exact cn .mul 1
  case dropoutDimOff r dim rate => exact cn .mul 1

theorem TF.pick_picks {n : Nat} {σ : Nat → Nat} (hc : Chooses B n σ) {picks : List Nat} (hl : picks.length = 1 ∨ picks.length = B) (dim : Nat)
    {x x' : Tensor α} (hx : Picks B n σ d x x') (m m' : Nat → α) (p : Profile) :
    Follows (Picks B n σ d) (TF.call (.pick picks dim) .debug m x [x])
      (TF.call (.pick (if picks.length = 1 then picks else (List.range n).map fun k => picks.getD (σ k) 0) dim) p m' x' [x']) :=
  TF.call1_picks (op := .pick picks dim) hc hl trivial hx m m' p

theorem Step.run_picks (h : SomeOf ids B) (st : Step α) (hf : st.Fit B) {env env' : List (Tensor α)}
    (he : List.Forall₂ (Picks B ids.length (fun k => ids.getD k 0) d) env env') (m m' : Mem α) (p : Profile) :
    Follows (List.Forall₂ (Picks B ids.length (fun k => ids.getD k 0) d)) (st.run .debug m env) ((st.choose ids).run p m' env') := by
  have hc := h.chooses
  have two : ∀ (i j : Nat) (F F' : Tensor α → Tensor α → Res (Tensor α)),
      (∀ x x' y y', Picks B ids.length (fun k => ids.getD k 0) d x x' → Picks B ids.length (fun k => ids.getD k 0) d y y' →
        Follows (Picks B ids.length (fun k => ids.getD k 0) d) (F x y) (F' x' y')) →
      Follows (List.Forall₂ (Picks B ids.length (fun k => ids.getD k 0) d))
        (do let x ← Graph.at' env i; let y ← Graph.at' env j; let z ← F x y; ok [z])
        (do let x ← Graph.at' env' i; let y ← Graph.at' env' j; let z ← F' x y; ok [z]) := by
    intro i j F F' hF
    exact (at_picks he i).bind fun x x' hx => (at_picks he j).bind fun y y' hy => (hF x x' y y' hx hy).bind fun z z' hz =>
      .pure (.cons hz .nil)
  cases st
  case one f i =>
    by_cases h1 : ∃ l dim, f = .pick l dim
    · obtain ⟨l, dim, rfl⟩ := h1
      have e := chooseIds_eq (ids := ids) l
      refine (at_picks he i).bind fun x x' hx => ?_
      have := TF.pick_picks hc (picks := l) hf dim hx (m 0) (m' 0) p
      rw [e] at this
      exact this.bind fun z z' hz => .pure (.cons hz .nil)
    · by_cases h2 : ∃ l dim, f = .sparseSoftmaxCrossEntropy l dim
      · obtain ⟨l, dim, rfl⟩ := h2
        have e := chooseIds_eq (ids := ids) l
        refine (at_picks he i).bind fun x x' hx => ?_
        refine Follows.bind (R := Picks B ids.length (fun k => ids.getD k 0) d) ?_ fun z z' hz => .pure (.cons hz .nil)
        show Follows _ (TF.sparseSoftmaxCrossEntropy .debug m x l dim) (TF.sparseSoftmaxCrossEntropy p m' x' (chooseIds ids l) dim)
        unfold TF.sparseSoftmaxCrossEntropy
        refine (TF.lnSoftmax_picks hc hx _ _ p dim).bind fun a a' ha => ?_
        have := TF.pick_picks hc (picks := l) hf dim ha (m 3) (m' 3) p
        rw [e] at this
        exact this.bind fun b b' hb => TF.call1_picks (op := .un .neg) hc trivial trivial hb _ _ p
      · have e : (Step.one f i).choose ids = .one f i := by
          cases f <;> first | rfl | (exfalso; exact h1 ⟨_, _, rfl⟩) | (exfalso; exact h2 ⟨_, _, rfl⟩)
        rw [e]
        refine (at_picks he i).bind fun x x' hx => ?_
        exact (f.run_picks hc i hf (fun l d h => h1 ⟨l, d, h⟩) (fun l d h => h2 ⟨l, d, h⟩) hx m m' p).bind fun z z' hz => .pure (.cons hz .nil)
  case add i j => exact two i j _ _ fun x x' y y' hx hy => TF.abOp_picks _ _ _ hc hx hy _ _ p
  case sub i j => exact two i j _ _ fun x x' y y' hx hy => TF.abOp_picks _ _ _ hc hx hy _ _ p
  case mul i j => exact two i j _ _ fun x x' y y' hx hy => TF.abOp_picks _ _ _ hc hx hy _ _ p
  case div i j => exact two i j _ _ fun x x' y y' hx hy => TF.abOp_picks _ _ _ hc hx hy _ _ p
  case pow i j => exact two i j _ _ fun x x' y y' hx hy => TF.call_picks (op := .bi .powf) hc trivial trivial hx (.cons hx (.cons hy .nil)) _ _ p
  case matmul i j => exact two i j _ _ fun x x' y y' hx hy => TF.call_picks (op := .matmul) hc trivial trivial hx (.cons hx (.cons hy .nil)) _ _ p
  case softmaxCrossEntropy i j dim =>
    refine two i j _ _ fun x x' y y' hx hy => ?_
    unfold TF.softmaxCrossEntropy
    refine (TF.lnSoftmax_picks hc hx _ _ p dim).bind fun a a' ha => ?_
    refine (TF.abOp_picks .mul .mul .mul hc hy ha _ _ p).bind fun b b' hb => ?_
    refine (TF.call1_picks (op := .sum dim) hc trivial trivial hb _ _ p).bind fun c c' hcc => ?_
    exact TF.call1_picks (op := .un .neg) hc trivial trivial hcc _ _ p
  case concat is dim =>
    exact (args_picks he is).bind fun xs xs' hxs => (TF.concat_picks hc hxs dim _ _ p).bind fun z z' hz => .pure (.cons hz .nil)
  case sliceSum is =>
    exact (args_picks he is).bind fun xs xs' hxs => (TF.sliceSum_picks hc hxs _ _ p).bind fun z z' hz => .pure (.cons hz .nil)
  case split i dim n => exact (at_picks he i).bind fun x x' hx => TF.split_picks hc hx dim n _ _ p
  case layerNormalization i g b eps =>
    exact (at_picks he i).bind fun x x' hx => (at_picks he g).bind fun g g' hg => (at_picks he b).bind fun b b' hb =>
      (TF.layerNorm_picks hc hx hg hb eps _ _ p).bind fun z z' hz => .pure (.cons hz .nil)
  case batchNormalizationOff i g b eps =>
    refine (at_picks he i).bind fun x x' hx => (at_picks he g).bind fun g g' hg => (at_picks he b).bind fun b b' hb => ?_
    refine Follows.bind (R := Picks B ids.length (fun k => ids.getD k 0) d) ?_ fun z z' hz => .pure (.cons hz .nil)
    exact TF.call1_picks (op := .cn .mul 1) hc trivial trivial hx _ _ p

theorem forall₂_append {β γ : Type} {R : β → γ → Prop} {l k : List β} {l' k' : List γ} (h : List.Forall₂ R l l') (h' : List.Forall₂ R k k') :
    List.Forall₂ R (l ++ k) (l' ++ k') := by
  induction h with
  | nil => exact h'
  | cons h _ ih => exact .cons h ih

theorem forall₂_iff {β γ : Type} {R S : β → γ → Prop} (h : ∀ a b, R a b ↔ S a b) {l : List β} {l' : List γ} :
    List.Forall₂ R l l' ↔ List.Forall₂ S l l' :=
  ⟨fun q => q.imp fun a b => (h a b).mp, fun q => q.imp fun a b => (h a b).mpr⟩

/-- C76: if a network runs on a minibatch (in a build with overflow checks), then in every build it runs on any of the samples of the
minibatch, and all tensors it computes are the tensors of these samples: the same elements, bit for bit, in any number format. -/
theorem C76_minibatch (h : SomeOf ids B) {prog : List (Step α)} (hf : ∀ st ∈ prog, st.Fit B) {xs xs' : List (Tensor α)}
    (hx : List.Forall₂ (Samples B ids d) xs xs') (m m' : Nat → Mem α) (p : Profile) {ys : List (Tensor α)} (hy : runAll .debug m prog xs = ok ys) :
    ∃ ys', runAll p m' (prog.map (Step.choose ids)) xs' = ok ys' ∧ List.Forall₂ (Samples B ids d) ys ys' := by
  rw [forall₂_iff fun _ _ => samples_iff h] at hx
  simp only [forall₂_iff fun _ _ => samples_iff (α := α) (d := d) h]
  induction prog generalizing xs xs' m m' with
  | nil => cases hy; exact ⟨xs', rfl, hx⟩
  | cons st rest ih =>
    simp only [runAll, Res.bind_eq_ok] at hy
    obtain ⟨zs, h1, h2⟩ := hy
    obtain ⟨zs', k1, k2⟩ := st.run_picks h (hf st (by simp)) hx (m 0) (m' 0) p zs h1
    obtain ⟨ys', q1, q2⟩ := ih (fun s hs => hf s (by simp [hs])) (xs := xs ++ zs) (xs' := xs' ++ zs') (m := fun i => m (i + 1))
      (m' := fun i => m' (i + 1)) (forall₂_append hx k2) h2
    exact ⟨ys', by simp only [List.map_cons, runAll, k1, ok_bind, q1], q2⟩

end Verif
