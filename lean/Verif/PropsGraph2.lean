import Verif.GraphValid
import Verif.IntInst
import Verif.PropsSafety

/-!
# C30-C35 for graphs of library operators: examples, and the parts that depend on the library's tensors and operators
-/

set_option linter.unusedSectionVars false

namespace Verif
open Res
namespace Graph

section general
variable {T : Type} {C : TensorLike T}

/-- The updates of the operators of `g` never make a gradient null. -/
def KeepsValid (C : TensorLike T) (g : Graph T) : Prop :=
  ∀ (i : Nat) (o : OpInfo T), g[i]? = some o → ∀ xs ys gys ss u, u ∈ o.oper.bw xs ys gys ss → ∀ t t', u.2 t = ok t' → C.valid t = true → C.valid t' = true

theorem foldR_inv {A S : Type} {f : S → A → Res S} (P : S → Prop) {l : List A} {s s' : S} (hs : P s) (hP : ∀ a ∈ l, ∀ s s', P s → f s a = ok s' → P s')
    (h : foldR f l s = ok s') : P s' := by
  induction l generalizing s with
  | nil => simp only [foldR, Res.ok.injEq] at h; exact h ▸ hs
  | cons b l ih =>
    simp only [foldR, Res.bind_eq_ok] at h
    obtain ⟨s1, h1, h2⟩ := h
    exact ih (hP b (by simp) _ _ hs h1) (fun a ha => hP a (by simp [ha])) h2

theorem contribs_valid {g : Graph T} (hk : KeepsValid C g) {gys : List T} {i : Nat} {a : Nat × Nat} {f : T → Res T} (hf : f ∈ contribs C g gys i a) {t t' : T}
    (e : f t = ok t') (hv : C.valid t = true) : C.valid t' = true := by
  unfold contribs at hf
  split at hf
  · simp at hf
  · next o ho =>
    split at hf
    · obtain ⟨u, hu, h⟩ := List.mem_filterMap.mp hf
      split at h
      · cases h; exact hk i o ho _ _ _ _ u hu _ _ e hv
      · cases h
    · simp at hf

theorem receive_valid {g : Graph T} (hk : KeepsValid C g) {gys : List T} {i : Nat} {a : Nat × Nat} {t t' : T} (e : receive C g gys a t i = ok t')
    (hv : C.valid t = true ∨ a ∈ g.argsOf i) : C.valid t' = true := by
  unfold receive at e
  split at e
  · simp only [Res.bind_eq_ok] at e
    obtain ⟨t1, h1, h2⟩ := e
    have hv1 : C.valid t1 = true := by
      unfold ens at h1
      split at h1
      · next hv => cases h1; exact hv
      · exact C.zeros_valid _ _ h1
    exact foldR_inv (fun t => C.valid t = true) hv1 (fun f hf s s' hs e => contribs_valid hk hf e hs) h2
  · next ha =>
    cases e
    rcases hv with hv | hv
    · exact hv
    · exact absurd hv ha

theorem receives_valid {g : Graph T} (hk : KeepsValid C g) {gys : Nat → List T} {a : Nat × Nat} {t t' : T} {l : List Nat} (e : foldR (fun t i => receive C g (gys i) a t i) l t = ok t')
    {j : Nat} (hj : j ∈ l) (ha : a ∈ g.argsOf j) : C.valid t' = true := by
  induction l generalizing t with
  | nil => simp at hj
  | cons b l ih =>
    simp only [foldR, Res.bind_eq_ok] at e
    obtain ⟨t1, h1, h2⟩ := e
    rcases List.mem_cons.mp hj with rfl | hm
    · exact foldR_inv (fun t => C.valid t = true) (receive_valid hk h1 (.inr ha)) (fun i _ s s' hs e => receive_valid hk e (.inl hs)) h2
    · exact ih h2 hm

theorem KeepsValid.same {g g' : Graph T} (h : KeepsValid C g) (hs : SameOps g.length g g') (hl : g'.length = g.length) : KeepsValid C g' := by
  intro i o ho
  obtain ⟨o', ho', e, _⟩ := hs.symm.some (by rw [← hl]; exact mem_lt ho) ho
  rw [← e]
  exact h i o' ho'

/-- After a completed `backward`, every argument of an ancestor of the root has a gradient. -/
theorem backward_valid {g : Graph T} {tr : List Nat} (h : Hist C g tr) (hk : KeepsValid C g) {root : Nat} (hr : root < g.length) {g' : Graph T}
    {tr' order : List Nat} (hb : Backward C g root tr' order (ok g')) {j : Nat} (hj : Needs g root j) {a : Nat × Nat} (ha : a ∈ g.argsOf j) {t' : T}
    (ht : g'.grad a = ok t') : C.valid t' = true := by
  obtain ⟨g1, hf, _, hmem, _, hacc⟩ := C32_backward_accumulates h hr hb
  obtain ⟨_, _, _, _, _, hran, _⟩ := forward_spec h.inv hr hf
  have hjl : j < g.length := by have := hj.le h.inv.wf; omega
  obtain ⟨o', ho', hg'⟩ := grad_eq_ok.mp ht
  have hal : a.1 < g1.length := by rw [hacc.same.1]; exact mem_lt ho'
  obtain ⟨o1, ho1⟩ : ∃ o1 : OpInfo T, g1[a.1]? = some o1 := ⟨g1[a.1], by simp [hal]⟩
  obtain ⟨gr, sk, hlen, e⟩ := hacc.same.2 a.1 o1 ho1
  rw [ho'] at e
  obtain rfl := Option.some.inj e
  have hlt : a.2 < o1.grads.length := by
    rw [← hlen]
    by_contra hc
    simp only at hg'
    rw [List.getElem?_eq_none (by omega)] at hg'; cases hg'
  obtain ⟨t0, t2, _, ht2, hfold⟩ := hacc.grads a o1.grads[a.2] (grad_eq_ok.mpr ⟨o1, ho1, by simp [hlt]⟩)
  rw [ht] at ht2
  obtain rfl := Res.ok.inj ht2
  exact receives_valid (hk.same (hran.same _) hran.len) hfold ((hmem j).mpr hj) (by rw [← (hran.same g.length).argsOf hjl]; exact ha)

theorem Needs.cases_user {g : Graph T} {i j : Nat} (h : Needs g i j) : i = j ∨ ∃ k a, Needs g i k ∧ a ∈ g.argsOf k ∧ a.1 = j := by
  induction h with
  | refl => exact .inl rfl
  | @arg i j a ha hn ih =>
    right
    rcases ih with rfl | ⟨k, b, h1, h2, h3⟩
    · exact ⟨i, a, .refl _, ha, rfl⟩
    · exact ⟨k, b, .arg ha h1, h2, h3⟩

end general

section library
variable {α : Type} [Flt α]

/-- All operators of `g` are operators of the library (on whatever device). -/
def Library (p : Profile) (g : Graph (Tensor α)) : Prop :=
  ∀ (i : Nat) (o : OpInfo (Tensor α)), g[i]? = some o → ∃ (op : NodeOp α) (d : Nat) (m : Mem α), o.oper = op.oper p d m

theorem Library.keepsValid {p : Profile} {g : Graph (Tensor α)} (h : Library p g) (m0 : Nat → α) : KeepsValid (tensorLike p m0) g := by
  intro i o ho xs ys gys ss u hu t t' e hv
  obtain ⟨op, d, m, hop⟩ := h i o ho
  rw [hop] at hu
  exact (NodeOp.bw_valid (op := op) hu e).trans hv

theorem ones_never {p : Profile} {m0 : Nat → α} (t : Tensor α) (h : (tensorLike p m0).valid t = true) (t' : Tensor α) : (tensorLike p m0).ones t ≠ ok t' := by
  show allocReset p m0 1 t ≠ ok t'
  rw [ones_valid h]
  exact fun e => by cases e

theorem hist_backward {p : Profile} {m0 : Nat → α} {g g' : Graph (Tensor α)} {tr : List Nat} (h : Hist (tensorLike p m0) g tr) {root : Nat} (hr : root < g.length)
    {ta oa : List Nat} (hb : Backward (tensorLike p m0) g root ta oa (ok g')) : Hist (tensorLike p m0) g' (tr ++ ta) := by
  obtain ⟨g1, r, hf, hb⟩ := hb
  rcases hb with ⟨rfl, hb⟩ | ⟨rfl, hb, _⟩ | ⟨rfl, hb, _⟩
  · exact .backward h hr hf hb
  · cases hb
  · cases hb

/-- C33: with the library's tensors and operators, after a completed `backward`, a second `backward` on the same operator (that has some
result) or on any of its ancestors never completes. -/
theorem C33_backward_again_never_completes {p : Profile} {m0 : Nat → α} {g : Graph (Tensor α)} {tr : List Nat} (h : Hist (tensorLike p m0) g tr) (hlib : Library p g)
    {r1 : Nat} (hr : r1 < g.length) {ga : Graph (Tensor α)} {ta oa : List Nat} (h1 : Backward (tensorLike p m0) g r1 ta oa (ok ga)) {r2 : Nat}
    (hn : Needs g r1 r2) (hres : ∃ o, g[r2]? = some o ∧ o.grads ≠ []) {tb ob : List Nat} {gb : Graph (Tensor α)} :
    ¬ Backward (tensorLike p m0) ga r2 tb ob (ok gb) := by
  have hh := hist_backward h hr h1
  obtain ⟨g1, hf, _, _, _, hacc⟩ := C32_backward_accumulates h hr h1
  obtain ⟨_, _, _, _, _, hran, _⟩ := forward_spec h.inv hr hf
  have hlen : ga.length = g.length := by rw [← hacc.same.1, hran.len]
  have hle := hn.le h.inv.wf
  have hr2 : r2 < ga.length := by omega
  obtain ⟨v, t, ht, hv⟩ : ∃ v t, ga.grad (r2, v) = ok t ∧ (tensorLike p m0).valid t = true := by
    rcases hn.cases_user with e | ⟨k, a, h1', h2', h3'⟩
    · subst e
      obtain ⟨o, ho, hne⟩ := hres
      obtain ⟨t, l, hl⟩ := List.exists_cons_of_ne_nil hne
      obtain ⟨t', ht', hon⟩ := C34_all_results_seeded h hr h1 (v := 0) (t := t) (grad_eq_ok.mpr ⟨o, ho, by simp [hl]⟩)
      refine ⟨0, t', ht', ?_⟩
      simp only [tensorLike, allocReset, Res.bind_eq_ok] at hon
      obtain ⟨_, _, h⟩ := hon
      exact reset_valid h
    · have hkl : k < g.length := by have := h1'.le h.inv.wf; omega
      have ha' : a ∈ ga.argsOf k := by
        rw [← ((hran.same g.length).trans (hacc.same.same _)).argsOf hkl]; exact h2'
      have ho : ∃ t, ga.grad a = ok t := by
        obtain ⟨ok', hok⟩ : ∃ o : OpInfo (Tensor α), ga[k]? = some o := ⟨ga[k]'(by omega), by simp⟩
        rw [argsOf_some hok] at ha'
        obtain ⟨_, oa, hoa, hlt, _⟩ := hh.inv.wf.args k ok' hok a ha'
        have := (hh.inv.wf.lens a.1 oa hoa).2
        exact ⟨oa.grads[a.2]'(by omega), grad_eq_ok.mpr ⟨oa, hoa, by simp⟩⟩
      obtain ⟨t, ht⟩ := ho
      refine ⟨a.2, t, by rw [← h3']; exact ht, backward_valid h (hlib.keepsValid m0) hr h1 h1' h2' ht⟩
  exact C33_seeded_root_never_completes hh hr2 ones_never ht hv

/-- C34: with the library's tensors, `backward` through a `split` of which some result is used by no ancestor of the root (and has no
gradient from before) never completes. -/
theorem C34_unused_result_of_split_never_completes {p : Profile} {m0 : Nat → α} {g : Graph (Tensor α)} {tr : List Nat} (h : Hist (tensorLike p m0) g tr)
    {root : Nat} (hr : root < g.length) {i : Nat} (hn : Needs g root i) (hi : i ≠ root) {o : OpInfo (Tensor α)} (ho : g[i]? = some o) {dim n d : Nat}
    {m : Mem α} (hop : o.oper = (NodeOp.split dim n).oper p d m) {v : Nat} (hv : v < n) {t : Tensor α} (ht : g.grad (i, v) = ok t) (hnull : t.valid = false)
    (hu : ∀ j, Needs g root j → (i, v) ∉ g.argsOf j) {tr' order : List Nat} {g' : Graph (Tensor α)} : ¬ Backward (tensorLike p m0) g root tr' order (ok g') := by
  intro hb
  have hun := C34_unused_result_untouched h hr hb (a := (i, v)) hi hu ht
  obtain ⟨g1, hf, _, hmem, _, hacc⟩ := C32_backward_accumulates h hr hb
  obtain ⟨hinv1, _, _, _, _, hran, _⟩ := forward_spec h.inv hr hf
  obtain ⟨gm, om, xs, gys, ss, hf', hom, hoper, hargs, hxs, hss, hups⟩ := backward_update_ok h hr hb hn ho
  have hio : i ∈ order := (hmem i).mpr hn
  obtain ⟨o1, ho1, hoper1, hargs1, _⟩ := (hran.same g.length).some (mem_lt ho) ho
  -- the split has an argument
  have hne : ∃ a, o.args[0]? = some a := by
    cases ha : o.args[0]? with
    | some a => exact ⟨a, rfl⟩
    | none =>
      have he : o.args = [] := by cases hl : o.args with
        | nil => rfl
        | cons _ _ => rw [hl] at ha; cases ha
      rw [he] at hxs hss
      simp only [mapR, Res.ok.injEq] at hxs hss
      rw [hop] at hups
      replace hups : ∀ u ∈ (NodeOp.split dim n).bw p d m xs om.vals gys ss, ∃ t t', u.2 t = ok t' := hups
      simp only [NodeOp.bw, if_neg (show ¬ n = 0 by omega)] at hups
      obtain ⟨t1, t2, e⟩ := hups _ (List.mem_map.mpr ⟨v, List.mem_range.mpr hv, rfl⟩)
      simp only [Res.bind_eq_ok] at e
      obtain ⟨_, _, s, hs, _⟩ := e
      rw [← hss] at hs
      simp [Graph.at'] at hs
  obtain ⟨a, ha⟩ := hne
  have haa : a ∈ g1.argsOf i := by rw [argsOf_some ho1, hargs1]; exact List.mem_of_getElem? ha
  -- the gradient of that argument
  obtain ⟨oa, hoa, hlta⟩ : ∃ oa : OpInfo (Tensor α), g1[a.1]? = some oa ∧ a.2 < oa.grads.length := by
    rw [argsOf_some ho1] at haa
    obtain ⟨_, oa, hoa, hlt, _⟩ := hinv1.wf.args i o1 ho1 a haa
    exact ⟨oa, hoa, by have := (hinv1.wf.lens a.1 oa hoa).2; omega⟩
  obtain ⟨t0, tf, _, _, hfold⟩ := hacc.grads a oa.grads[a.2] (grad_eq_ok.mpr ⟨oa, hoa, by simp [hlta]⟩)
  obtain ⟨s1, s2, _, hrec⟩ := foldR_member (fun _ => True) (fun _ _ _ _ _ => trivial) trivial hfold hio
  unfold receive at hrec
  rw [if_pos haa, Res.bind_eq_ok] at hrec
  obtain ⟨s3, _, hcs⟩ := hrec
  -- its update number `v` reads the null gradient
  have hvals : ∃ xs1, mapR g1.val o1.args = ok xs1 := mapR_ok fun b hb => by
    obtain ⟨_, ob, hob, hlt, _⟩ := hinv1.wf.args i o1 ho1 b hb
    exact ⟨ob.vals[b.2]'(by have := (hinv1.wf.lens b.1 ob hob).1; omega), val_eq_ok.mpr ⟨ob, hob, by simp⟩⟩
  have hshs : ∃ ss1, mapR (shapeOf (tensorLike p m0) g1) o1.args = ok ss1 := mapR_ok fun b hb => by
    obtain ⟨_, ob, hob, hlt, _⟩ := hinv1.wf.args i o1 ho1 b hb
    exact ⟨(ob.init[b.2]'hlt).shape, by simp [shapeOf, at', hob, hlt, tensorLike]⟩
  obtain ⟨xs1, hxs1⟩ := hvals
  obtain ⟨ss1, hss1⟩ := hshs
  have hmemc : (fun gx => do
      let gy ← Graph.at' (g'.gradsOf i) v
      let s ← Graph.at' ss1 0
      let skip := s.get dim / n
      Dev.bw (.slice dim (v * skip)) p d m [] [] gy gx) ∈ contribs (tensorLike p m0) g1 (g'.gradsOf i) i a := by
    unfold contribs
    simp only [ho1, hxs1, hss1]
    refine List.mem_filterMap.mpr ⟨(0, _), ?_, by rw [hargs1, ha, if_pos rfl]⟩
    rw [hoper1, hop]
    show _ ∈ (NodeOp.split dim n).bw p d m xs1 o1.vals (g'.gradsOf i) ss1
    simp only [NodeOp.bw, if_neg (show ¬ n = 0 by omega)]
    exact List.mem_map.mpr ⟨v, List.mem_range.mpr hv, rfl⟩
  obtain ⟨u1, u2, _, hup⟩ := foldR_member (fun _ => True) (fun _ _ _ _ _ => trivial) trivial hcs hmemc
  simp only [Res.bind_eq_ok, at'_eq_ok] at hup
  obtain ⟨gy, hgy, s, _, hbw⟩ := hup
  have hgy' : gy = t := by
    obtain ⟨o', ho', hg'⟩ := grad_eq_ok.mp hun
    simp only [gradsOf, ho'] at hgy
    rw [hgy] at hg'
    exact Option.some.inj hg'
  subst hgy'
  simp only [Dev.bw, Dev.callBw, BwOp.name, Res.bind_eq_ok] at hbw
  obtain ⟨_, _, _, _, _, _, _, _, _, _, hk⟩ := hbw
  have hptr : gy.ptr = panic := by
    cases hb : gy.buf with
    | none => exact ptr_none hb
    | some l => simp [Tensor.valid, hb] at hnull
  obtain ⟨kf, hkf, hk⟩ := hk
  obtain rfl : K.sliceBw = kf := Res.ok.inj hkf
  replace hk : K.sliceBw p m [] [] [gy] (BwOp.u32data (.slice dim (v * (s.get dim / n)) : BwOp α)) (BwOp.f32data (.slice dim (v * (s.get dim / n)) : BwOp α)) u1 = ok u2 := hk
  simp only [K.sliceBw, Res.bind_eq_ok] at hk
  obtain ⟨gy', hgy', _, _, _, _, _, _, _, _, src, hsrc, _⟩ := hk
  obtain rfl : gy = gy' := Res.ok.inj hgy'
  rw [hptr] at hsrc
  cases hsrc

/-- Creates the operators of a list one after the other on device 0 (new memory contains zeros). -/
def build (p : Profile) (g : Graph (Tensor α)) : List (NodeOp α × Option (Tensor α) × List (Nat × Nat)) → Res (Graph (Tensor α))
  | [] => ok g
  | (op, sink, args) :: l => create (tensorLike p fun _ => 0) g (op.oper p 0 fun _ _ => 0) sink args >>= fun g => build p g l

theorem build_hist {p : Profile} : ∀ {l : List (NodeOp α × Option (Tensor α) × List (Nat × Nat))} {g g' : Graph (Tensor α)} {tr : List Nat},
    Hist (tensorLike p fun _ => 0) g tr → Library p g → build p g l = ok g' → Hist (tensorLike p fun _ => 0) g' tr ∧ Library p g' := by
  intro l
  induction l with
  | nil => intro g g' tr h hl e; cases e; exact ⟨h, hl⟩
  | cons a l ih =>
    obtain ⟨op, sink, args⟩ := a
    intro g g' tr h hl e
    simp only [build, Res.bind_eq_ok] at e
    obtain ⟨g1, e1, e2⟩ := e
    refine ih (h.create e1) (fun i o ho => ?_) e2
    simp only [create, Res.bind_eq_ok, Res.ok.injEq] at e1
    obtain ⟨_, _, _, _, rfl⟩ := e1
    by_cases hi : i < g.length
    · exact hl i o (by rwa [List.getElem?_append_left hi] at ho)
    · rw [List.getElem?_append_right (by omega)] at ho
      have : i - g.length = 0 := by
        have := mem_lt ho
        simp at this; omega
      rw [this] at ho
      obtain rfl := Option.some.inj ho
      exact ⟨op, 0, _, rfl⟩

end library

/-! ### Examples, over the integers -/

attribute [local instance] intFlt

/-- A tensor `[a, b]` as the library makes it. -/
def vec2 (a b : ℤ) : Tensor ℤ := ⟨some 0, vecShape 2 1, some ([a, b] ++ List.replicate 62 0), none⟩

example : Dev.newBySlice .debug 0 (fun _ => 0) (vecShape 2 1) [4, 5] = ok (vec2 4 5) := rfl

instance (g : Graph (Tensor ℤ)) (a b : List Nat) : Decidable (g.PopsMin a b) := inferInstanceAs (Decidable (_ ∧ _))
instance (g : Graph (Tensor ℤ)) (a b : List Nat) : Decidable (g.PopsMax a b) := inferInstanceAs (Decidable (_ ∧ _))

/-- The graph in a result that is not a panic. -/
def gOf {T : Type} : Res (Graph T) → Graph T
  | ok g => g
  | _ => []

/-- Whether it is a graph. -/
def isOk {T : Type} : Res T → Bool
  | ok _ => true
  | _ => false

theorem gOf_eq {T : Type} {r : Res (Graph T)} (h : isOk r = true) : r = ok (gOf r) := by
  cases r with
  | ok g => rfl
  | panic => cases h
  | ub => cases h

/-- The graph after running the operators `l`. -/
def fwd (g : Graph (Tensor ℤ)) (l : List Nat) : Graph (Tensor ℤ) := (fwRun l g).1

/-- The graph after differentiating through the operators `l`. -/
def bwd (g : Graph (Tensor ℤ)) (root : Nat) (l : List Nat) : Res (Graph (Tensor ℤ)) :=
  do let g ← g.seed (tensorLike .debug fun _ => 0) root; foldR (bwOne (tensorLike .debug fun _ => 0)) l g

theorem Forward.mk' {g : Graph (Tensor ℤ)} {root : Nat} {tr : List Nat} {r : Res Unit} {pushed popped : List Nat} (h1 : g.collect root = some pushed)
    (h2 : decide (g.PopsMin pushed popped) = true) (h3 : (fwRun popped g).2 = (tr, r)) : Forward g root (fwd g popped) tr r :=
  ⟨pushed, popped, h1, of_decide_eq_true h2, Prod.ext rfl h3⟩

theorem Backward.mk' {g : Graph (Tensor ℤ)} {root : Nat} {tr pushed popped fpopped : List Nat}
    (hf : Forward g root (fwd g fpopped) tr (ok ())) (h1 : (fwd g fpopped).collect root = some pushed)
    (h2 : decide ((fwd g fpopped).PopsMax pushed popped) = true) (h3 : isOk (bwd (fwd g fpopped) root popped) = true) :
    Backward (tensorLike .debug fun _ => 0) g root tr popped (ok (gOf (bwd (fwd g fpopped) root popped))) :=
  ⟨_, ok (), hf, .inl ⟨rfl, pushed, h1, of_decide_eq_true h2, gOf_eq h3⟩⟩

/-- `w` (0), `k1 * w` (1), `w + k1 * w` (2), `k2 * w` (3), with a parameter `w`. -/
def exOps (k1 k2 : ℤ) : List (NodeOp ℤ × Option (Tensor ℤ) × List (Nat × Nat)) :=
  [(.parameter (vec2 2 3), some (vec2 0 0), []), (.cn .mul k1, none, [(0, 0)]), (.bi .add, none, [(0, 0), (1, 0)]), (.cn .mul k2, none, [(0, 0)])]

/-- What `to_vec` returns for the gradient of the parameter of operator `i`. -/
def sinkShows (g : Graph (Tensor ℤ)) (i : Nat) : Option (Res (List ℤ)) := (g.sinkOf i).map fun t => t.toVec .debug

/-- The graph with factors 5 and 7. -/
def exG5 : Graph (Tensor ℤ) := gOf (build .debug [] (exOps 5 7))

theorem exG5_built : build .debug [] (exOps 5 7) = ok exG5 := gOf_eq (by decide +kernel)

theorem exG5_hist : Hist (tensorLike .debug fun _ => 0) exG5 [] ∧ Library .debug exG5 :=
  build_hist (p := .debug) .empty (fun i o h => by cases h) exG5_built

theorem exG5_forward : Forward exG5 2 (fwd exG5 [0, 1, 2]) [0, 1, 2] (ok ()) :=
  Forward.mk' (pushed := [2, 0, 1]) (by decide +kernel) (by decide +kernel) (by decide +kernel)

theorem exG5_fresh : ∀ j, isForwarded exG5 j = false := by
  intro j
  by_cases hj : j < 4
  · have : ∀ j < 4, isForwarded exG5 j = false := by decide +kernel
    exact this j hj
  · have hl : exG5.length = 4 := by decide +kernel
    have : exG5[j]? = none := List.getElem?_eq_none (by omega)
    simp [isForwarded, this]

theorem exG5_backward : Backward (tensorLike .debug fun _ => 0) exG5 2 [0, 1, 2] [2, 1, 0] (ok (gOf (bwd (fwd exG5 [0, 1, 2]) 2 [2, 1, 0]))) :=
  Backward.mk' exG5_forward (pushed := [2, 0, 1]) (by decide +kernel) (by decide +kernel) (by decide +kernel)

/-- C30-C32 have instances: `forward` and `backward` on `w + 5 * w`; the parameter receives `1 + 5`. -/
example : Evaluable exG5 2 ∧ (∃ g', Forward exG5 2 g' [0, 1, 2] (ok ())) ∧
    ∃ order g', Backward (tensorLike .debug fun _ => 0) exG5 2 [0, 1, 2] order (ok g') ∧ sinkShows g' 0 = some (ok [6, 6]) := by
  refine ⟨?_, ⟨_, exG5_forward⟩, _, _, exG5_backward, by decide +kernel⟩
  by_contra hc
  exact C30_forward_fails exG5_hist.1 (root := 2) (by decide +kernel) exG5_forward hc (fun j _ h => by rw [exG5_fresh] at h; cases h) rfl

/-- `backward` on `5 * w` (1). -/
def exGa : Graph (Tensor ℤ) := gOf (bwd (fwd exG5 [0, 1]) 1 [1, 0])
/-- then on `7 * w` (3) -/
def exGb : Graph (Tensor ℤ) := gOf (bwd (fwd exGa [0, 3]) 3 [3, 0])

theorem exGa_backward : Backward (tensorLike .debug fun _ => 0) exG5 1 [0, 1] [1, 0] (ok exGa) :=
  Backward.mk' (Forward.mk' (pushed := [1, 0]) (popped := [0, 1]) (by decide +kernel) (by decide +kernel) (by decide +kernel)) (pushed := [1, 0])
    (by decide +kernel) (by decide +kernel) (by decide +kernel)

theorem exGb_backward : Backward (tensorLike .debug fun _ => 0) exGa 3 [3] [3, 0] (ok exGb) :=
  Backward.mk' (Forward.mk' (pushed := [3, 0]) (popped := [0, 3]) (by decide +kernel) (by decide +kernel) (by decide +kernel)) (pushed := [3, 0])
    (by decide +kernel) (by decide +kernel) (by decide +kernel)

/-- C33, negation of the additive claim: a parameter `w` (gradient 0), `backward` on `5 * w`, then on `7 * w`, in one graph.  After the
first call its gradient is 5; after the second it is `2 * 5 + 7 = 17` in each element, not `5 + 7 = 12`. -/
theorem C33_gradients_counted_twice : ∃ (g ga gb : Graph (Tensor ℤ)) (ta oa tb ob : List Nat), build .debug [] (exOps 5 7) = ok g ∧
    Hist (tensorLike .debug fun _ => 0) g [] ∧ Library .debug g ∧ sinkShows g 0 = some (ok [0, 0]) ∧
    Backward (tensorLike .debug fun _ => 0) g 1 ta oa (ok ga) ∧ sinkShows ga 0 = some (ok [5, 5]) ∧
    Backward (tensorLike .debug fun _ => 0) ga 3 tb ob (ok gb) ∧ sinkShows gb 0 = some (ok [17, 17]) :=
  ⟨exG5, exGa, exGb, _, _, _, _, exG5_built, exG5_hist.1, exG5_hist.2, by decide +kernel, exGa_backward, by decide +kernel, exGb_backward, by decide +kernel⟩

/-- C33: the hypotheses of `C33_backward_again_never_completes` and `C33_second_root` are met by this graph. -/
example : Needs exG5 1 0 ∧ Needs exG5 3 0 ∧ ∀ tb ob gb, ¬ Backward (tensorLike .debug fun _ => 0) exGa 0 tb ob (ok gb) := by
  have h1 : Needs exG5 1 0 := .arg (a := (0, 0)) (by decide +kernel) (.refl 0)
  refine ⟨h1, .arg (a := (0, 0)) (by decide +kernel) (.refl 0), fun tb ob gb => ?_⟩
  exact C33_backward_again_never_completes exG5_hist.1 exG5_hist.2 (r1 := 1) (by decide +kernel) exGa_backward h1
    ⟨exG5[0]'(by decide +kernel), by simp, fun h => by
      have h2 : (exG5[0]'(by decide +kernel)).grads.length = 1 := by decide +kernel
      rw [h] at h2; cases h2⟩

/-! ### C34 and C35 -/

/-- `x` (0), `x.split(0, 2)` (1), `5 * first part` (2), `x.reshape([3])` of a tensor with 2 elements (3), `5 * that` (4). -/
def exOps2 : List (NodeOp ℤ × Option (Tensor ℤ) × List (Nat × Nat)) :=
  [(.input (vec2 2 3), none, []), (.split 0 2, none, [(0, 0)]), (.cn .mul 5, none, [(1, 0)]), (.reshape (vecShape 3 1), none, [(0, 0)]), (.cn .mul 5, none, [(3, 0)])]

/-- Its graph: all five nodes are created without complaint. -/
def exG6 : Graph (Tensor ℤ) := gOf (build .debug [] exOps2)

theorem exG6_built : build .debug [] exOps2 = ok exG6 := gOf_eq (by decide +kernel)

theorem exG6_hist : Hist (tensorLike .debug fun _ => 0) exG6 [] ∧ Library .debug exG6 :=
  build_hist (p := .debug) .empty (fun i o h => by cases h) exG6_built

/-- C34, an instance: the second part of the split is not used; `forward` on `5 * first part` completes, `backward` never does. -/
example : Forward exG6 2 (fwd exG6 [0, 1, 2]) [0, 1, 2] (ok ()) ∧ ∀ tr order g', ¬ Backward (tensorLike .debug fun _ => 0) exG6 2 tr order (ok g') := by
  refine ⟨Forward.mk' (pushed := [2, 1, 0]) (by decide +kernel) (by decide +kernel) (by decide +kernel), fun tr order g' => ?_⟩
  have hn : Needs exG6 2 1 := .arg (a := (1, 0)) (by decide +kernel) (.refl 1)
  have ho : exG6[1]? = some (exG6[1]'(by decide +kernel)) := by simp
  have hle : ∀ j, Needs exG6 2 j → j ≤ 2 := fun j h => h.le exG6_hist.1.inv.wf
  refine C34_unused_result_of_split_never_completes exG6_hist.1 (root := 2) (by decide +kernel) hn (by decide) (o := exG6[1]'(by decide +kernel)) ho (dim := 0) (n := 2)
    (d := 0) (m := fun _ _ => 0) ?_ (v := 1) (by decide) (t := (exG6[1]'(by decide +kernel)).grads[1]'(by decide +kernel)) (grad_eq_ok.mpr ⟨_, ho, by simp⟩) (by decide +kernel) ?_
  · rfl
  · intro j hj
    have := hle j hj
    have key : ∀ j ≤ 2, (1, 1) ∉ exG6.argsOf j := by decide +kernel
    exact key j this

/-- C35, an instance for the library: a `reshape` to a wrong size is accepted when the node is created; `forward` on it panics; after that
`forward` on it returns without running anything, its value stays null so that reading it panics, and so does every operator that uses it. -/
theorem C35_reshape_wrong_size : ∃ (g g' : Graph (Tensor ℤ)), build .debug [] exOps2 = ok g ∧ Hist (tensorLike .debug fun _ => 0) g [] ∧
    Forward g 3 g' [0, 3] panic ∧
    (∀ (g'' : Graph (Tensor ℤ)) (tr : List Nat) (r : Res Unit), Forward g' 3 g'' tr r → r = ok () ∧ tr = [] ∧ g'' = g') ∧
    (g'.val (3, 0) >>= fun t => t.toVec .debug) = panic ∧ Forward g' 4 (fwd g' [0, 3, 4]) [4] panic := by
  have hf : Forward exG6 3 (fwd exG6 [0, 3]) [0, 3] panic := Forward.mk' (pushed := [3, 0]) (by decide +kernel) (by decide +kernel) (by decide +kernel)
  have hh : Hist (tensorLike .debug fun _ => 0) (fwd exG6 [0, 3]) ([] ++ [0, 3]) := exG6_hist.1.forward (by decide +kernel) hf
  refine ⟨exG6, fwd exG6 [0, 3], exG6_built, exG6_hist.1, hf, ?_, by decide +kernel, ?_⟩
  · intro g'' tr r h2
    obtain ⟨pushed, popped, hc, hp, hrun⟩ := h2
    have hc' : (fwd exG6 [0, 3]).collect 3 = some [3, 0] := by decide +kernel
    rw [hc'] at hc
    obtain rfl := Option.some.inj hc
    have hall : ∀ i ∈ popped, i = 0 ∨ i = 3 := by
      intro i hi
      have := hp.1.subset hi
      simp only [List.mem_cons, List.not_mem_nil, or_false] at this
      omega
    have key : ∀ l : List Nat, (∀ i ∈ l, i = 0 ∨ i = 3) → fwRun l (fwd exG6 [0, 3]) = (fwd exG6 [0, 3], [], ok ()) := by
      intro l
      induction l with
      | nil => intro _; rfl
      | cons a l ih =>
        intro hl
        have ha : fwOne (fwd exG6 [0, 3]) a = (fwd exG6 [0, 3], false, ok ()) := by
          rcases hl a (by simp) with rfl | rfl <;> rfl
        simp only [fwRun, ha, ih fun i hi => hl i (by simp [hi])]
        rfl
    rw [key popped hall] at hrun
    simp only [Prod.mk.injEq] at hrun
    exact ⟨hrun.2.2.symm, hrun.2.1.symm, hrun.1.symm⟩
  · exact Forward.mk' (pushed := [4, 3, 0]) (by decide +kernel) (by decide +kernel) (by decide +kernel)

end Graph
end Verif
