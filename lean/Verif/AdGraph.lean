import Verif.AdValue
import Verif.PropsGraph

/-!
# Reverse-mode differentiation on a graph computes the derivative: the induction over the order
-/

set_option linter.unusedSectionVars false

namespace Verif
open Res
attribute [local instance] realFlt

namespace Graph
variable {p : Profile} {d : Nat} {m0 : Nat → ℝ} {P : Nat → NodeOp ℝ} {g : Graph (Tensor ℝ)} {root : Nat} {θ : Nat × Nat → Arr ℝ}
  {E : Nat → Oper (Tensor ℝ)}

/-- The needed operators of `gk` are those of `g`, evaluated. -/
def Evald (d : Nat) (P : Nat → NodeOp ℝ) (g : Graph (Tensor ℝ)) (root : Nat) (θ : Nat × Nat → Arr ℝ) (E : Nat → Oper (Tensor ℝ)) (gk : Graph (Tensor ℝ)) : Prop :=
  ∀ i, Needs g root i → ∃ o : OpInfo (Tensor ℝ), gk[i]? = some o ∧ o.oper = E i ∧ o.args = g.argsOf i ∧
    HoldsAll d o.vals (g.outShapes i) (evalR g P θ i) ∧ o.init.map Tensor.shape = g.outShapes i ∧ o.grads.length = g.results i

theorem Evald.of_same {gk gk' : Graph (Tensor ℝ)} (h : Evald d P g root θ E gk) (hs : SameValues gk gk') : Evald d P g root θ E gk' := by
  intro i hi
  obtain ⟨o, ho, h1, h2, h3, h4, h5⟩ := h i hi
  obtain ⟨gr, sk, hl, e⟩ := hs.2 i o ho
  exact ⟨_, e, h1, h2, h3, h4, hl.trans h5⟩

/-- A node needed for the root. -/
def Node (g : Graph (Tensor ℝ)) (root : Nat) (a : Nat × Nat) : Prop := Needs g root a.1 ∧ a.2 < g.results a.1

/-- The gradients in `gk` are `H`; those in `U` may not have been allocated, and are 0 in `H`. -/
def Grads (d : Nat) (g : Graph (Tensor ℝ)) (root : Nat) (gk : Graph (Tensor ℝ)) (H : Nat × Nat → Arr ℝ) (U : Nat × Nat → Prop) : Prop :=
  ∀ a, Node g root a → ∃ t, gk.grad a = ok t ∧
    (t.Holds d (g.nodeShape a) (H a) ∨ (t = Tensor.new d (g.nodeShape a) ∧ H a = (fun _ _ => 0) ∧ U a))

theorem allocReset_ok {s : Shape} (hs : s.WF) (hsz : s.size ≤ 2 ^ 31) (p : Profile) (d : Nat) (m : Nat → ℝ) (k : ℝ) :
    Yields (allocReset p m k (Tensor.new d s)) d s (fun _ _ => k) := by
  obtain ⟨y, e, hr⟩ := Tensor.alloc_new hs hsz p d m
  obtain ⟨y', e', h⟩ := K.resetTensor_ok (p := p) (c := k) (xs := []) (u := []) (f := []) hr
  refine ⟨y', ?_, h.holds fun _ _ _ => rfl⟩
  show (Tensor.new d s).alloc p m >>= _ = _
  rw [e, ok_bind]
  simp only [Tensor.reset, Tensor.dev, hr.device, unwrap, ok_bind]
  exact e'

theorem Holds.isValid {t : Tensor ℝ} {s : Shape} {f : Arr ℝ} (h : t.Holds d s f) : t.valid = true := by
  obtain ⟨l, h, _⟩ := h.buf
  simp [Tensor.valid, h]

theorem ensure_step {gk : Graph (Tensor ℝ)} {H : Nat × Nat → Arr ℝ} {U : Nat × Nat → Prop} (h : Grads d g root gk H U)
    (hw : ∀ a, Node g root a → (g.nodeShape a).WF ∧ (g.nodeShape a).size ≤ 2 ^ 31) {a : Nat × Nat} (ha : Node g root a) :
    ∃ g', ensure (tensorLike p m0) gk a = ok g' ∧ OnlyGrads gk g' ∧ Grads d g root g' H (fun b => U b ∧ b ≠ a) := by
  obtain ⟨t, ht, hc⟩ := h a ha
  rcases hc with hh | ⟨rfl, hz, hu⟩
  · refine ⟨gk, ?_, OnlyGrads.refl _, fun b hb => ?_⟩
    · have : (tensorLike p m0).valid t = true := Holds.isValid hh
      simp only [ensure, ht, ok_bind, this, if_true]
    · obtain ⟨u, hu, hc⟩ := h b hb
      refine ⟨u, hu, ?_⟩
      rcases hc with hc | ⟨h1, h2, h3⟩
      · exact .inl hc
      · by_cases hab : b = a
        · subst hab
          rw [hu] at ht
          obtain rfl := Res.ok.inj ht
          exact .inl hh
        · exact .inr ⟨h1, h2, h3, hab⟩
  · obtain ⟨y, e, hy⟩ := allocReset_ok (hw a ha).1 (hw a ha).2 p d m0 0
    refine ⟨gk.setGrad a y, ?_, setGrad_only _ _ _, fun b hb => ?_⟩
    · have : (tensorLike p m0).valid (Tensor.new d (g.nodeShape a)) = false := rfl
      simp only [ensure, ht, ok_bind, this]
      show (allocReset p m0 0 (Tensor.new d (g.nodeShape a)) >>= _) = _
      rw [e]; rfl
    · rw [setGrad_grad ht]
      by_cases hab : b = a
      · subst hab
        rw [if_pos rfl]
        exact ⟨y, rfl, .inl (by rw [hz]; exact hy)⟩
      · rw [if_neg hab]
        obtain ⟨u, hu, hc⟩ := h b hb
        exact ⟨u, hu, hc.imp id fun ⟨h1, h2, h3⟩ => ⟨h1, h2, h3, hab⟩⟩

theorem Grads.mono {gk : Graph (Tensor ℝ)} {H : Nat × Nat → Arr ℝ} {U U' : Nat × Nat → Prop} (h : Grads d g root gk H U)
    (hU : ∀ a, Node g root a → U a → U' a) : Grads d g root gk H U' := fun a ha => by
  obtain ⟨t, ht, hc⟩ := h a ha
  exact ⟨t, ht, hc.imp id fun ⟨h1, h2, h3⟩ => ⟨h1, h2, hU a ha h3⟩⟩

theorem ensures_step (args : List (Nat × Nat)) {gk : Graph (Tensor ℝ)} {H : Nat × Nat → Arr ℝ} {U : Nat × Nat → Prop} (h : Grads d g root gk H U)
    (hw : ∀ a, Node g root a → (g.nodeShape a).WF ∧ (g.nodeShape a).size ≤ 2 ^ 31) (ha : ∀ a ∈ args, Node g root a) :
    ∃ g', foldR (ensure (tensorLike p m0)) args gk = ok g' ∧ OnlyGrads gk g' ∧ Grads d g root g' H (fun b => U b ∧ b ∉ args) := by
  induction args generalizing gk U with
  | nil => exact ⟨gk, rfl, OnlyGrads.refl _, h.mono fun a _ hu => ⟨hu, by simp⟩⟩
  | cons a l ih =>
    obtain ⟨g1, e1, o1, h1⟩ := ensure_step (p := p) (m0 := m0) h hw (ha a (by simp))
    obtain ⟨g2, e2, o2, h2⟩ := ih h1 fun b hb => ha b (by simp [hb])
    refine ⟨g2, ?_, o1.trans o2, h2.mono fun b _ ⟨⟨hu, h3⟩, h4⟩ => ⟨hu, by simp [h3, h4]⟩⟩
    simp only [foldR, e1, ok_bind, e2]

/-- The gradients after the contributions `cs` to the arguments `args`. -/
def addAll (args : List (Nat × Nat)) (cs : List (Nat × Arr ℝ)) (H : Nat × Nat → Arr ℝ) : Nat × Nat → Arr ℝ :=
  cs.foldl (fun H c => fun b => if args[c.1]? = some b then (fun i j => H b i j + c.2 i j) else H b) H

theorem updates_step (args : List (Nat × Nat)) {us : List (Nat × (Tensor ℝ → Res (Tensor ℝ)))} {cs : List (Nat × Arr ℝ)} {gk : Graph (Tensor ℝ)}
    {H : Nat × Nat → Arr ℝ} {U : Nat × Nat → Prop} (h : Grads d g root gk H U) (ha : ∀ a ∈ args, Node g root a ∧ ¬ U a)
    (hf : List.Forall₂ (fun u c => u.1 = c.1 ∧ ∃ s, (args.map g.nodeShape)[c.1]? = some s ∧
          ∀ gx H, gx.Holds d s H → Yields (u.2 gx) d s (fun i b => H i b + c.2 i b)) us cs) :
    ∃ g', foldR (update args) us gk = ok g' ∧ OnlyGrads gk g' ∧ Grads d g root g' (addAll args cs H) U := by
  induction hf generalizing gk H with
  | nil => exact ⟨gk, rfl, OnlyGrads.refl _, h⟩
  | @cons u c us cs hu _ ih =>
    obtain ⟨e, s, hs, hy⟩ := hu
    rw [List.getElem?_map] at hs
    cases hk : args[c.1]? with
    | none => rw [hk] at hs; cases hs
    | some a =>
      rw [hk] at hs
      obtain rfl := Option.some.inj hs
      obtain ⟨hn, hnu⟩ := ha a (List.mem_of_getElem? hk)
      obtain ⟨t, ht, hc⟩ := h a hn
      rcases hc with hh | ⟨-, -, hu⟩
      · obtain ⟨y, ey, hyh⟩ := hy t _ hh
        obtain ⟨g2, e2, o2, h2⟩ := ih (gk := gk.setGrad a y)
          (H := fun b => if args[c.1]? = some b then (fun i j => H b i j + c.2 i j) else H b) (by
          intro b hb
          rw [setGrad_grad ht]
          by_cases hab : b = a
          · subst hab
            rw [if_pos rfl]
            refine ⟨y, rfl, .inl ?_⟩
            simp only [hk, if_true]
            exact hyh
          · rw [if_neg hab]
            have : ¬ (some a = some b) := fun e => hab (Option.some.inj e).symm
            simp only [hk, this, if_false]
            exact h b hb)
        refine ⟨g2, ?_, (setGrad_only gk a y).trans o2, h2⟩
        rw [foldR]
        have : update args gk u = ok (gk.setGrad a y) := by
          simp only [update, e, at'_eq_ok.mpr hk, ok_bind, ht, ey]
        rw [this, ok_bind, e2]
      · exact absurd hu hnu

/-! ### The potential -/

/-- Inner product of the gradients of the results of `i` with `δ`. -/
noncomputable def wt (g : Graph (Tensor ℝ)) (H δ : Nat × Nat → Arr ℝ) (i : Nat) : ℝ :=
  ∑ v ∈ Finset.range (g.results i), dot (g.nodeShape (i, v)) (H (i, v)) (δ (i, v))

theorem pot_add (A : Finset Nat) (H δ : Nat × Nat → Arr ℝ) (a : Nat × Nat) (ha : a.1 ∈ A) (hv : a.2 < g.results a.1) (c : Arr ℝ) :
    ∑ i ∈ A, wt g (fun b => if some a = some b then (fun i j => H b i j + c i j) else H b) δ i = ∑ i ∈ A, wt g H δ i + dot (g.nodeShape a) c (δ a) := by
  have h1 : ∀ i v, dot (g.nodeShape (i, v)) ((fun b => if some a = some b then (fun i j => H b i j + c i j) else H b) (i, v)) (δ (i, v)) =
      dot (g.nodeShape (i, v)) (H (i, v)) (δ (i, v)) + if a.1 = i then (if a.2 = v then dot (g.nodeShape a) c (δ a) else 0) else 0 := by
    intro i v
    by_cases h : a = (i, v)
    · subst h
      simp only [if_true]
      exact dot_add _ _ _
    · have : ¬ some a = some (i, v) := fun e => h (Option.some.inj e)
      simp only [this, if_false]
      by_cases h1 : a.1 = i
      · have h2 : a.2 ≠ v := fun h2 => h (Prod.ext h1 h2)
        simp [h2]
      · simp [h1]
  unfold wt
  simp only [h1, Finset.sum_add_distrib]
  congr 1
  rw [Finset.sum_eq_single_of_mem a.1 ha]
  · simp [hv]
  · intro i _ hi
    simp [Ne.symm hi]

theorem pot_addAll (A : Finset Nat) (args : List (Nat × Nat)) (ha : ∀ a ∈ args, a.1 ∈ A ∧ a.2 < g.results a.1) (cs : List (Nat × Arr ℝ))
    (hc : ∀ c ∈ cs, c.1 < args.length) (H δ : Nat × Nat → Arr ℝ) :
    ∑ i ∈ A, wt g (addAll args cs H) δ i = ∑ i ∈ A, wt g H δ i +
      (cs.map fun c => dot (shp (args.map g.nodeShape) c.1) c.2 (match args[c.1]? with | some a => δ a | none => fun _ _ => 0)).sum := by
  induction cs generalizing H with
  | nil => simp [addAll]
  | cons c cs ih =>
    have hl := hc c (by simp)
    have hk : args[c.1]? = some args[c.1] := by simp [hl]
    obtain ⟨h1, h2⟩ := ha _ (List.getElem_mem hl)
    have e := pot_add A H δ args[c.1] h1 h2 c.2
    have e2 : addAll args (c :: cs) H = addAll args cs (fun b => if some args[c.1] = some b then (fun i j => H b i j + c.2 i j) else H b) := by
      unfold addAll; rw [List.foldl_cons, hk]
    rw [e2, ih (fun c hc' => hc c (by simp [hc'])), e, List.map_cons, List.sum_cons, hk]
    simp [shp, hl]
    ring

theorem addAll_other (args : List (Nat × Nat)) (cs : List (Nat × Arr ℝ)) (H : Nat × Nat → Arr ℝ) {b : Nat × Nat} (hb : b ∉ args) :
    addAll args cs H b = H b := by
  unfold addAll
  induction cs generalizing H with
  | nil => rfl
  | cons c cs ih =>
    rw [List.foldl_cons, ih]
    have : ¬ args[c.1]? = some b := fun e => hb (List.mem_of_getElem? e)
    simp only [this, if_false]

end Graph
end Verif
