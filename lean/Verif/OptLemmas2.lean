import Verif.SerdeLemmas

/-!
# Lemmas about configuration, runs of updates, and updates that panic
-/

set_option linter.unusedSectionVars false

namespace Verif
open Res
variable {α : Type} [Flt α] {d : Nat} {q : Param α} {a : PArr α} {p : Profile}

/-! ## Configuration -/

theorem hasStat_iff (h : q.Is d a) (n : String) : q.hasStat n = (a.stat n).isSome := by
  unfold Param.hasStat
  cases hs : a.stat n with
  | none => rw [h.stat_none n hs]; rfl
  | some e =>
    obtain ⟨t, ht, -⟩ := h.stat_some n e.1 e.2 hs
    rw [ht]; rfl

theorem configured_cons (name : String) (names : List String) (a : PArr α) :
    (a.configured [name]).configured names = a.configured (name :: names) := by
  unfold PArr.configured
  simp only [PArr.mk.injEq, true_and]
  funext n
  by_cases h1 : n = name <;> by_cases h2 : a.stat n = none <;> by_cases h3 : n ∈ names <;> simp_all

theorem configured_nil (a : PArr α) : a.configured [] = a := by
  unfold PArr.configured
  simp

theorem ensureStat_ok (h : q.Is d a) (p : Profile) (m : Nat → α) (name : String) :
    ∃ q', Opt.ensureStat p m name q = ok q' ∧ q'.Is d (a.configured [name]) := by
  unfold Opt.ensureStat
  rw [hasStat_iff h]
  cases hs : a.stat name with
  | some e =>
    refine ⟨q, rfl, ?_⟩
    have : a.configured [name] = a := by
      unfold PArr.configured
      congr 1
      funext n
      by_cases hn : n = name <;> simp_all
    rw [this]; exact h
  | none =>
    obtain ⟨t, et, ht⟩ := Dev.newByConstant_ok h.value.wf h.value.small p d m (0 : α)
    refine ⟨{ q with stats := (name, t) :: q.stats }, ?_, h.batch, h.value, h.grad, fun n hn => ?_, ?_, fun n s f hn => ?_⟩
    · simp only [Option.isSome]
      unfold Param.addStat Tensor.dev
      rw [if_neg (by simp), check_true _ (by rw [hasStat_iff h, hs]; rfl), ok_bind, h.value.device, h.value.shape]
      simp only [unwrap, ok_bind, et]
    · unfold PArr.configured at hn
      simp only at hn
      split at hn
      · simp at hn
      · rename_i hc
        have hne : n ≠ name := fun e => hc ⟨by simp [e], hn⟩
        have hb : (n == name) = false := by simpa using hne
        unfold Param.stat
        rw [List.lookup_cons, hb]
        exact h.stat_none n hn
    · simp only [List.map_cons, List.nodup_cons]
      exact ⟨lookup_none.mp (h.stat_none name hs), h.nodup⟩
    · unfold PArr.configured at hn
      simp only at hn
      unfold Param.stat
      split at hn
      · rename_i hc
        simp only [Option.some.injEq, Prod.mk.injEq] at hn
        obtain ⟨rfl, rfl⟩ := hn
        have : n = name := by simpa using hc.1
        subst this
        exact ⟨t, by simp, ht⟩
      · have hne : n ≠ name := fun e => by rw [e, hs] at hn; simp at hn
        have hb : (n == name) = false := by simpa using hne
        rw [List.lookup_cons, hb]
        exact h.stat_some n s f hn

theorem configureParameter_ok (h : q.Is d a) (o : Opt α) (p : Profile) (m : Mem α) :
    ∃ q', o.configureParameter p m q = ok q' ∧ q'.Is d (a.configured o.kind.names) := by
  unfold Opt.configureParameter
  cases o.kind with
  | sgd eta => exact ⟨q, rfl, by simp only [OptKind.names, configured_nil]; exact h⟩
  | momentum eta mu => exact ensureStat_ok h p (m 0) _
  | adam alpha beta1 beta2 eps =>
    obtain ⟨q1, e1, h1⟩ := ensureStat_ok h p (m 0) "Adam.m1"
    obtain ⟨q2, e2, h2⟩ := ensureStat_ok h1 p (m 1) "Adam.m2"
    refine ⟨q2, by simp only [e1, ok_bind, e2], ?_⟩
    rw [configured_cons] at h2
    exact h2

theorem configured_ready (k : OptKind α) (h : ∀ n s f, a.stat n = some (s, f) → n ∈ k.names → s = a.shape) :
    (a.configured k.names).Ready k := by
  have key : ∀ name, name ∈ k.names → ∃ m, (a.configured k.names).Has name m := by
    intro name hn
    unfold PArr.Has PArr.configured
    simp only
    cases hs : a.stat name with
    | none => exact ⟨fun _ _ => 0, by rw [if_pos ⟨hn, rfl⟩]⟩
    | some e =>
      obtain ⟨s, f⟩ := e
      refine ⟨f, ?_⟩
      rw [if_neg (by simp), h name s f hs hn]
  unfold PArr.Ready
  cases k with
  | sgd eta => trivial
  | momentum eta mu => exact key _ (by simp [OptKind.names])
  | adam alpha beta1 beta2 eps => exact ⟨key _ (by simp [OptKind.names]), key _ (by simp [OptKind.names])⟩

/-! ## Facts about the rules -/

theorem rule_shape (k : OptKind α) (t sc : α) (a : PArr α) : (a.rule k t sc).shape = a.shape := by cases k <;> rfl

theorem rule_stat (k : OptKind α) (t sc : α) (a : PArr α) {n : String} (hn : n ∉ k.names) : (a.rule k t sc).stat n = a.stat n := by
  cases k with
  | sgd eta => rfl
  | momentum eta mu =>
    simp only [OptKind.names, List.mem_singleton] at hn
    simp [PArr.rule, PArr.put, hn]
  | adam alpha beta1 beta2 eps =>
    simp only [OptKind.names, List.mem_cons, List.not_mem_nil, or_false, not_or] at hn
    simp [PArr.rule, PArr.put, hn.1, hn.2]

theorem rule_ready (k : OptKind α) (t sc : α) (a : PArr α) : a.Ready k → (a.rule k t sc).Ready k := by
  intro h
  cases k with
  | sgd eta => trivial
  | momentum eta mu => exact ⟨_, by unfold PArr.Has PArr.rule PArr.put; simp; rfl⟩
  | adam alpha beta1 beta2 eps =>
    exact ⟨⟨_, by unfold PArr.Has PArr.rule PArr.put; simp; rfl⟩, _, by unfold PArr.Has PArr.rule PArr.put; simp; rfl⟩

/-- The contents after the gradients have been computed. -/
def PArr.setGrads (G : Nat → Arr α) (as : List (PArr α)) : List (PArr α) := as.mapIdx fun k a => a.withGrad (G k)

theorem params_iff {qs : List (Param α)} {as : List (PArr α)} :
    Params d qs as ↔ qs.length = as.length ∧ ∀ (k : Nat) (q : Param α) (a : PArr α), qs[k]? = some q → as[k]? = some a → q.Is d a := by
  constructor
  · intro h
    refine ⟨h.length_eq, ?_⟩
    induction h with
    | nil => intro k q a hq; simp at hq
    | cons h1 _ ih =>
      intro k q a hq ha
      cases k with
      | zero => simp at hq ha; subst hq ha; exact h1
      | succ k => exact ih k q a (by simpa using hq) (by simpa using ha)
  · rintro ⟨hl, h⟩
    induction qs generalizing as with
    | nil =>
      cases as with
      | nil => exact .nil
      | cons => simp at hl
    | cons q qs ih =>
      cases as with
      | nil => simp at hl
      | cons a as =>
        exact .cons (h 0 q a rfl rfl) (ih (by simpa using hl) fun k q' a' hq ha => h (k + 1) q' a' (by simpa using hq) (by simpa using ha))

theorem GradsSet.params {G : Nat → Arr α} {qs qs' : List (Param α)} {as : List (PArr α)} (hg : GradsSet d G qs qs') (h : Params d qs as) :
    Params d qs' (PArr.setGrads G as) := by
  obtain ⟨hl, hq⟩ := params_iff.mp h
  obtain ⟨gl, hg⟩ := hg
  rw [params_iff]
  refine ⟨by unfold PArr.setGrads; simp; omega, fun k q a h1 h2 => ?_⟩
  unfold PArr.setGrads at h2
  rw [List.getElem?_mapIdx, Option.map_eq_some_iff] at h2
  obtain ⟨a0, ha0, rfl⟩ := h2
  have hk : k < qs.length := by
    have := (List.getElem?_eq_some_iff.mp h1).1
    omega
  obtain ⟨e1, e2, e3⟩ := hg k qs[k] q (List.getElem?_eq_getElem hk) h1
  have := hq k qs[k] a0 (List.getElem?_eq_getElem hk) ha0
  rw [this.value.shape] at e3
  refine ⟨this.batch, e1 ▸ this.value, e3, fun n hn => ?_, e2 ▸ this.nodup, fun n s f hn => ?_⟩
  · have := this.stat_none n hn
    unfold Param.stat at *; rw [e2]; exact this
  · have := this.stat_some n s f hn
    unfold Param.stat at *; rw [e2]; exact this

theorem trains_step (hmul : ∀ u v : α, u * v = v * u) {o : Opt α} {scale : Nat → α} {G : Nat → Nat → Arr α} {N : Nat} {qs : Nat → List (Param α)}
    (ht : o.Trains p d scale G N qs) (he : o.epoch + N < U32) {n : Nat} (hn : n < N) {as : List (PArr α)} (h : Params d (qs n) as)
    (hr : ∀ a, a ∈ as → a.Ready o.kind) :
    Params d (qs (n + 1)) (PArr.updated { o with epoch := o.epoch + n, lrScale := scale n } (PArr.setGrads (G n) as)) := by
  obtain ⟨qs', m, hg, e⟩ := ht n hn
  have hr' : ∀ a, a ∈ PArr.setGrads (G n) as → a.Ready o.kind := by
    intro a ha
    unfold PArr.setGrads at ha
    rw [List.mem_iff_getElem?] at ha
    obtain ⟨k, hk⟩ := ha
    rw [List.getElem?_mapIdx, Option.map_eq_some_iff] at hk
    obtain ⟨a0, ha0, rfl⟩ := hk
    exact hr a0 (List.mem_iff_getElem?.mpr ⟨k, ha0⟩)
  obtain ⟨qs'', e', h'⟩ := updateParameters_ok hmul { o with epoch := o.epoch + n, lrScale := scale n } (by simp only; omega) (hg.params h) hr' p m
  rw [e] at e'
  cases e'
  exact h'

/-! ## Updates that panic -/

theorem forEach_panic {R R' : Param α → PArr α → Prop} {f : Nat → Param α → Res (Param α)} {h : PArr α → PArr α}
    {as1 as2 : List (PArr α)} {a0 : PArr α} {qs : List (Param α)}
    (hq : List.Forall₂ R qs (as1 ++ a0 :: as2)) (hf : ∀ i q a, a ∈ as1 → R q a → ∃ q', f i q = ok q' ∧ R' q' (h a))
    (hp : ∀ i q, R q a0 → f i q = panic) (i : Nat) :
    ∃ qs', Opt.forEach f i qs = (qs', panic) ∧ List.Forall₂ R' qs' (as1.map h) ∧
      ∃ rest, qs.drop qs'.length = rest ∧ List.Forall₂ R rest (a0 :: as2) := by
  induction as1 generalizing qs i with
  | nil =>
    cases hq with
    | @cons q _ qs _ h1 h2 =>
      refine ⟨[], ?_, .nil, _, rfl, .cons h1 h2⟩
      unfold Opt.forEach
      simp only [hp i q h1]
  | cons a as1 ih =>
    cases hq with
    | @cons q _ qs _ h1 h2 =>
      obtain ⟨q', e, hr⟩ := hf i q a (by simp) h1
      obtain ⟨qs', e', hr', rest, e2, hr2⟩ := ih h2 (fun i q a ha => hf i q a (by simp [ha])) (i + 1)
      refine ⟨q' :: qs', ?_, .cons hr hr', rest, by simpa using e2, hr2⟩
      unfold Opt.forEach
      simp only [e, e']

theorem updateParameter_missing (h : q.Is d a) (o : Opt α) (he : o.epoch + 1 < U32) {n : String} (hn : n ∈ o.kind.names) (hs : a.stat n = none) (p : Profile)
    (m : Mem α) (scale : α) : o.updateParameter p m scale q = panic := by
  obtain ⟨epoch, lr, l2, clip, kind⟩ := o
  have hq := h.stat_none n hs
  cases kind with
  | sgd eta => simp [OptKind.names] at hn
  | momentum eta mu =>
    simp only [OptKind.names, List.mem_singleton] at hn
    subst hn
    obtain ⟨t, e, ht⟩ := TF.cn_yields .mul (scale * eta) h.grad p (m 0)
    unfold Opt.updateParameter TF.cMul
    simp only [e, ok_bind, hq, unwrap, panic_bind]
  | adam alpha beta1 beta2 eps =>
    simp only [OptKind.names, List.mem_cons, List.not_mem_nil, or_false] at hn
    unfold Opt.updateParameter
    simp only [uadd_ok p he, ok_bind]
    rcases hn with rfl | rfl
    · simp only [hq, unwrap, panic_bind]
    · cases h1 : q.stat "Adam.m1" with
      | none => simp only [unwrap, panic_bind]
      | some t => simp only [unwrap, ok_bind, hq, panic_bind]

end Verif
