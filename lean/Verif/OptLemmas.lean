import Verif.OptSpec
import Verif.TFMore
import Verif.PropsFw2

/-!
# Lemmas about parameters and optimizers
-/

set_option linter.unusedSectionVars false

namespace Verif
open Res
variable {α : Type} [Flt α] {d : Nat} {q : Param α} {a : PArr α} {p : Profile}

theorem uadd_ok {x y : Nat} (p : Profile) (h : x + y < U32) : uadd p x y = ok (x + y) := Shape.u32_ok h

/-! ## flatten, sum of squares -/

theorem TF.flatten_ok {x : Tensor α} {s : Shape} {f : Arr α} (hx : x.Holds d s f) (p : Profile) (m : Nat → α) :
    ∃ t : Shape, t.Is (fun i => if i = 0 then s.volume else 1) s.batch ∧
      Yields (TF.flatten p m x) d t (fun c b => Arr.flat s f (c 0 + b * s.volume)) := by
  have hv1 : 1 ≤ s.volume := by rw [hx.wf.vol]; exact volN_pos (fun i _ => hx.wf.get_pos i)
  have hraw : ∀ i, Shape.raw [s.volume] i = if i = 0 then s.volume else 1 := by
    intro i; cases i <;> simp [Shape.raw, List.getD]
  obtain ⟨t, et, ht, hb, hg⟩ := Shape.new_of (dims := [s.volume]) (b := s.batch) p
    ⟨by simp, hx.wf.batch_pos, fun i hi => by
      have : i = 0 := by simpa using hi
      subst this; rw [hraw, if_pos rfl]; omega, by
      show volN _ 1 < _
      simp only [volN, Nat.one_mul, hraw, if_pos]; exact hx.wf.vol_lt⟩
  have his : t.Is (fun i => if i = 0 then s.volume else 1) s.batch := ⟨ht, fun i => by rw [hg, hraw], hb⟩
  have hvol : t.volume = s.volume := by
    rw [ht.vol, volN_congr (fun i _ => his.2.1 i)]; simp [volN]
  have hsz : t.size = s.size := by unfold Shape.size; rw [hvol, hb]
  refine ⟨t, his, ?_⟩
  have h := TF.reshape_ok hx ht hsz p m
  have e : TF.flatten p m x = TF.reshape p m x t := by
    unfold TF.flatten; rw [hx.shape, et, ok_bind]
  rw [e]
  refine h.congr fun c b hv => ?_
  have hc : ∀ i, i ≠ 0 → c i = 0 := fun i hi => by
    have := hv.1 i; rw [his.2.1 i] at this; simp only [if_neg hi] at this; omega
  have : t.offset c b = c 0 + b * s.volume := by
    rw [ht.offset_eq, hvol]
    congr 1
    simp [offN, volN, hc]
  rw [this]

theorem foldN_foldl {σ : Type} (n : Nat) (t : Nat → σ) (f : σ → σ → σ) (z : σ) :
    foldN n (fun j a => f a (t j)) z = ((List.range n).map t).foldl f z := by
  induction n with
  | zero => rfl
  | succ n ih => rw [foldN_succ, ih, List.range_succ, List.map_append, List.foldl_append]; rfl

theorem sqNorm_ok (hmul : ∀ u v : α, u * v = v * u) (h : q.Is d a) (p : Profile) (m : Mem α) :
    Opt.sqNorm p m q = ok ((PArr.elems a.shape fun c b => a.grad c b * a.grad c b).foldl (· + ·) 0) := by
  obtain ⟨t1, e1, h1⟩ := TF.mul_same hmul h.grad h.grad p (m 0)
  obtain ⟨s2, is2, t2, e2, h2⟩ := TF.flatten_ok h1 p (m 1)
  obtain ⟨s3, is3, t3, e3, h3⟩ := C21_sum h2 (dim := 0) (by omega) p (m 2)
  have hsize : s3.size = 1 := by
    unfold Shape.size
    rw [is3.2.2, is2.2.2, h.batch, Nat.one_mul, is3.1.vol, volN_congr (fun i _ => is3.2.1 i)]
    simp [volN, cset, is2.2.1]
  have h4 := h3.toFloat hsize p
  unfold Opt.sqNorm
  rw [e1, ok_bind, e2, ok_bind, e3, ok_bind]
  unfold TF.toFloat Tensor.dev
  rw [h3.device]
  simp only [unwrap, ok_bind, h4]
  congr 1
  unfold sumTo
  rw [(is2.2.1 0).trans (if_pos rfl)]
  unfold PArr.elems
  rw [← foldN_foldl a.shape.size (Arr.flat a.shape fun c b => a.grad c b * a.grad c b) (· + ·) 0]
  have : a.shape.size = a.shape.volume := by unfold Shape.size; rw [h.batch, Nat.one_mul]
  rw [this]
  refine foldN_congr fun i _ t => ?_
  simp [cset]

theorem sqNorms_ok (hmul : ∀ u v : α, u * v = v * u) {qs : List (Param α)} {as : List (PArr α)} (h : Params d qs as) (p : Profile)
    (m : Nat → Mem α) (i : Nat) (acc : α) :
    Opt.sqNorms p m i qs acc =
      ok (as.foldl (fun acc a => acc + (PArr.elems a.shape fun c b => a.grad c b * a.grad c b).foldl (· + ·) 0) acc) := by
  induction h generalizing i acc with
  | nil => rfl
  | cons hq _ ih =>
    unfold Opt.sqNorms
    rw [sqNorm_ok hmul hq p (m i), ok_bind, ih]
    rfl

/-! ## The loops over the parameters -/

theorem forEach_ok {R R' : Param α → PArr α → Prop} {f : Nat → Param α → Res (Param α)} {h : PArr α → PArr α} {qs : List (Param α)}
    {as : List (PArr α)} (hq : List.Forall₂ R qs as) (hf : ∀ i q a, a ∈ as → R q a → ∃ q', f i q = ok q' ∧ R' q' (h a)) (i : Nat) :
    ∃ qs', Opt.forEach f i qs = (qs', ok ()) ∧ List.Forall₂ R' qs' (as.map h) := by
  induction hq generalizing i with
  | nil => exact ⟨[], rfl, .nil⟩
  | @cons q a qs as hqa _ ih =>
    obtain ⟨q', e, hr⟩ := hf i q a (by simp) hqa
    obtain ⟨qs', e', hr'⟩ := ih (fun i q a ha => hf i q a (by simp [ha])) (i + 1)
    refine ⟨q' :: qs', ?_, .cons hr hr'⟩
    unfold Opt.forEach
    simp only [e, e']

/-! ## Statistics -/

theorem setStat_same {name : String} {t t' : Tensor α} (h : q.stat name = some t) : (q.setStat name t').stat name = some t' := by
  unfold Param.stat at h
  show List.lookup name (q.stats.map _) = _
  revert h
  induction q.stats with
  | nil => intro h; simp at h
  | cons e l ih =>
    obtain ⟨n, x⟩ := e
    intro h
    by_cases hn : name = n
    · subst hn; simp
    · have hb : (name == n) = false := by simpa using hn
      simp only [List.lookup_cons, hb, List.map_cons, if_neg (Ne.symm hn)] at *
      exact ih h

theorem setStat_keys {name : String} {t' : Tensor α} : (q.setStat name t').stats.map Prod.fst = q.stats.map Prod.fst := by
  show (q.stats.map _).map Prod.fst = _
  rw [List.map_map]
  refine List.map_congr_left fun e _ => ?_
  simp only [Function.comp]
  split <;> rfl

theorem setStat_other {name n : String} {t' : Tensor α} (h : n ≠ name) : (q.setStat name t').stat n = q.stat n := by
  show List.lookup n (q.stats.map _) = List.lookup n q.stats
  induction q.stats with
  | nil => rfl
  | cons e l ih =>
    obtain ⟨k, x⟩ := e
    by_cases hk : k = name
    · subst hk
      have hb : (n == k) = false := by simpa using h
      simp only [List.map_cons, if_pos, List.lookup_cons, hb, ih]
    · simp only [List.map_cons, if_neg hk, List.lookup_cons, ih]

theorem Param.Is.put (h : q.Is d a) {name : String} {f0 f : Arr α} {t : Tensor α} (hf : a.Has name f0) (ht : t.Holds d a.shape f) :
    (q.setStat name t).Is d (a.put name f) := by
  obtain ⟨t0, ht0, -⟩ := h.stat_some name _ _ hf
  refine ⟨h.batch, h.value, h.grad, fun n hn => ?_, by rw [setStat_keys]; exact h.nodup, fun n s g hn => ?_⟩
  · unfold PArr.put at hn
    simp only at hn
    split at hn
    · simp at hn
    · rename_i hne
      rw [setStat_other hne]; exact h.stat_none n hn
  · unfold PArr.put at hn
    simp only at hn
    split at hn
    · rename_i he
      simp only [Option.some.injEq, Prod.mk.injEq] at hn
      obtain ⟨rfl, rfl⟩ := hn
      subst he
      exact ⟨t, setStat_same ht0, ht⟩
    · rename_i hne
      rw [setStat_other hne]; exact h.stat_some n s g hn

theorem Param.Is.withValue (h : q.Is d a) {f : Arr α} {t : Tensor α} (ht : t.Holds d a.shape f) :
    ({ q with value := t } : Param α).Is d { a with value := f } := ⟨h.batch, ht, h.grad, h.stat_none, h.nodup, h.stat_some⟩

theorem Param.Is.withGrad (h : q.Is d a) {f : Arr α} {t : Tensor α} (ht : t.Holds d a.shape f) :
    ({ q with gradient := t } : Param α).Is d (a.withGrad f) := ⟨h.batch, h.value, ht, h.stat_none, h.nodup, h.stat_some⟩

/-! ## One parameter -/

theorem resetGradient_ok (h : q.Is d a) (p : Profile) : ∃ q', q.resetGradient p = ok q' ∧ q'.Is d a.zeroed := by
  obtain ⟨t, e, ht⟩ := Tensor.reset_ok h.grad p 0
  exact ⟨_, by unfold Param.resetGradient; rw [e]; rfl, h.withGrad ht⟩

theorem decay_ok (h : q.Is d a) (p : Profile) (m : Nat → α) (l2 : α) :
    ∃ q', Opt.decay p m l2 q = ok q' ∧ q'.Is d (a.withGrad fun c b => a.grad c b + a.value c b * l2) := by
  obtain ⟨t, e, ht⟩ := TF.cn_yields .mul l2 h.value p m
  obtain ⟨g, e2, hg⟩ := TF.addAssign_same h.grad ht p
  refine ⟨_, ?_, h.withGrad hg⟩
  unfold Opt.decay TF.cMul
  rw [e, ok_bind, e2]; rfl

theorem scaleGrad_ok (h : q.Is d a) (p : Profile) (k : α) :
    ∃ q', Opt.scaleGrad p k q = ok q' ∧ q'.Is d (a.withGrad fun c b => a.grad c b * k) := by
  obtain ⟨g, e, hg⟩ := TF.mulAssign_ok h.grad p k
  refine ⟨_, ?_, h.withGrad hg⟩
  unfold Opt.scaleGrad
  rw [e]; rfl

theorem PArr.Has.read {name : String} {f : Arr α} (h : a.Has name f) : a.read name = f := by
  unfold PArr.read; rw [show a.stat name = _ from h]

theorem updateParameter_ok (hmul : ∀ u v : α, u * v = v * u) (o : Opt α) (he : o.epoch + 1 < U32) (h : q.Is d a) (hr : a.Ready o.kind) (p : Profile)
    (m : Mem α) (scale : α) :
    ∃ q', o.updateParameter p m scale q = ok q' ∧ q'.Is d (a.rule o.kind (Flt.ofInt (o.epoch + 1)) scale) := by
  obtain ⟨epoch, lr, l2, clip, kind⟩ := o
  cases kind with
  | sgd eta =>
    obtain ⟨t, e, ht⟩ := TF.cn_yields .mul (scale * eta) h.grad p (m 0)
    obtain ⟨v, e2, hv⟩ := TF.subAssign_same h.value ht p
    refine ⟨{ q with value := v }, ?_, h.withValue hv⟩
    unfold Opt.updateParameter TF.cMul
    simp only [e, ok_bind, e2]
  | momentum eta mu =>
    obtain ⟨mm, hm⟩ := hr
    obtain ⟨t, e, ht⟩ := TF.cn_yields .mul (scale * eta) h.grad p (m 0)
    obtain ⟨t0, es, ht0⟩ := h.stat_some _ _ _ hm
    obtain ⟨t1, e1, ht1⟩ := TF.mulAssign_ok ht0 p mu
    obtain ⟨t2, e2, ht2⟩ := TF.subAssign_same ht1 ht p
    obtain ⟨v, e3, hv⟩ := TF.addAssign_same h.value ht2 p
    refine ⟨{ (q.setStat "MomentumSGD.m" t2) with value := v }, ?_, ?_⟩
    · unfold Opt.updateParameter TF.cMul
      simp only [e, ok_bind, es, unwrap, e1, e2, e3]
    · have := (h.put hm ht2).withValue hv
      unfold PArr.rule
      simp only [hm.read]
      exact this
  | adam alpha beta1 beta2 eps =>
    obtain ⟨⟨f1, hm1⟩, f2, hm2⟩ := hr
    obtain ⟨m1, es1, hm1h⟩ := h.stat_some _ _ _ hm1
    obtain ⟨m2, es2, hm2h⟩ := h.stat_some _ _ _ hm2
    obtain ⟨m1', e1, hm1'⟩ := TF.mulAssign_ok hm1h p beta1
    obtain ⟨t0, e2, ht0⟩ := TF.cn_yields .mul (1 - beta1) h.grad p (m 0)
    obtain ⟨m1'', e3, hm1''⟩ := TF.addAssign_same hm1' ht0 p
    obtain ⟨m2', e4, hm2'⟩ := TF.mulAssign_ok hm2h p beta2
    obtain ⟨t1, e5, ht1⟩ := TF.cn_yields .mul (1 - beta2) h.grad p (m 1)
    obtain ⟨t2, e6, ht2⟩ := TF.mul_same hmul ht1 h.grad p (m 2)
    obtain ⟨m2'', e7, hm2''⟩ := TF.addAssign_same hm2' ht2 p
    obtain ⟨mm1, e8, hmm1⟩ := TF.cn_yields .divR (1 - Flt.powf beta1 (Flt.ofInt (epoch + 1))) hm1'' p (m 3)
    obtain ⟨mm2, e9, hmm2⟩ := TF.cn_yields .divR (1 - Flt.powf beta2 (Flt.ofInt (epoch + 1))) hm2'' p (m 4)
    obtain ⟨ta, e10, hta⟩ := TF.cn_yields .mul (scale * alpha) hmm1 p (m 5)
    obtain ⟨tb, e11, htb⟩ := TF.un_yields .sqrt hmm2 p (m 6)
    obtain ⟨tc, e12, htc⟩ := TF.cn_yields .add eps htb p (m 7)
    obtain ⟨td, e13, htd⟩ := TF.div_same hta htc p (m 8)
    obtain ⟨v, e14, hv⟩ := TF.subAssign_same h.value htd p
    refine ⟨{ ((q.setStat "Adam.m1" m1'').setStat "Adam.m2" m2'') with value := v }, ?_, ?_⟩
    · unfold Opt.updateParameter
      simp only [uadd_ok p he, ok_bind, es1, es2, unwrap, e1, TF.cMul, TF.divC, TF.sqrt, TF.addC, e2, e3, e4, e5, e6, e7]
      push_cast
      simp only [ok_bind, e8, e9, e10, e11, e12, e13, e14]
    · have hm2p : (a.put "Adam.m1" fun c b => f1 c b * beta1 + (Cn.mul).fn (a.grad c b) (1 - beta1)).Has "Adam.m2" f2 := by
        unfold PArr.Has PArr.put
        simp only
        rw [if_neg (by decide)]
        exact hm2
      have := ((h.put hm1 hm1'').put hm2p hm2'').withValue hv
      unfold PArr.rule
      simp only [hm1.read, hm2.read]
      exact this

theorem step_ok (hmul : ∀ u v : α, u * v = v * u) (o : Opt α) (he : o.epoch + 1 < U32) (h : q.Is d a) (hr : a.Ready o.kind) (p : Profile)
    (m : Mem α) :
    ∃ q', o.step p m q = ok q' ∧ q'.Is d (a.rule o.kind (Flt.ofInt (o.epoch + 1)) o.lrScale).zeroed := by
  obtain ⟨q1, e1, h1⟩ := updateParameter_ok hmul o he h hr p m o.lrScale
  obtain ⟨q2, e2, h2⟩ := resetGradient_ok h1 p
  exact ⟨q2, by unfold Opt.step; rw [e1]; exact e2, h2⟩

/-! ## The whole update -/

theorem andThen_ok {qs qs' : List (Param α)} {k : List (Param α) → List (Param α) × Res Nat} :
    Opt.andThen qs (qs', ok ()) k = k qs' := rfl

theorem updateParameters_ok (hmul : ∀ u v : α, u * v = v * u) (o : Opt α) (he : o.epoch + 1 < U32) {qs : List (Param α)} {as : List (PArr α)}
    (h : Params d qs as) (hr : ∀ a, a ∈ as → a.Ready o.kind) (p : Profile) (m : Nat → Nat → Mem α) :
    ∃ qs', o.updateParameters p m qs = (qs', ok (o.epoch + 1)) ∧ Params d qs' (PArr.updated o as) := by
  -- weight decay
  have h1 : ∃ qs1, (if Flt.gt o.l2 0 then Opt.forEach (fun i q => Opt.decay p (m 0 i 0) o.l2 q) 0 qs else (qs, ok ())) = (qs1, ok ()) ∧
      Params d qs1 (as.map (PArr.decayed o.l2)) := by
    unfold PArr.decayed
    split
    · rename_i hg
      exact forEach_ok h (fun i q a _ hq => decay_ok hq p _ _) 0
    · rename_i hg
      simp only [List.map_id']
      exact ⟨qs, rfl, h⟩
  obtain ⟨qs1, e1, hq1⟩ := h1
  have hr1 : ∀ a, a ∈ as.map (PArr.decayed o.l2) → a.Ready o.kind := by
    intro a ha
    obtain ⟨a0, ha0, rfl⟩ := List.mem_map.mp ha
    have := hr a0 ha0
    unfold PArr.decayed; split
    · exact this
    · exact this
  generalize has1 : as.map (PArr.decayed o.l2) = as1 at *
  -- the last loop
  have h3 : ∀ qs2 as2, Params d qs2 as2 → (∀ a, a ∈ as2 → a.Ready o.kind) →
      ∃ qs', Opt.andThen qs2 (Opt.forEach (fun i q => Opt.step p (m 2 i) o q) 0 qs2) (fun qs => (qs, uadd p o.epoch 1)) =
        (qs', ok (o.epoch + 1)) ∧ Params d qs' (as2.map fun a => (a.rule o.kind (Flt.ofInt (o.epoch + 1)) o.lrScale).zeroed) := by
    intro qs2 as2 hq2 hr2
    obtain ⟨qs', e, hq'⟩ := forEach_ok (R' := fun q a => q.Is d a) hq2 (fun i q a ha hq => step_ok hmul o he hq (hr2 a ha) p (m 2 i)) 0
    refine ⟨qs', ?_, hq'⟩
    rw [e, andThen_ok, uadd_ok p he]
  unfold Opt.updateParameters
  rw [e1, andThen_ok]
  simp only
  unfold PArr.updated
  rw [has1]
  unfold PArr.clipped
  by_cases hc : Flt.gt o.clip 0 = true
  · simp only [hc, if_true, Bool.true_and]
    rw [sqNorms_ok hmul hq1]
    simp only
    rw [show List.foldl _ 0 as1 = PArr.sqTotal as1 from rfl]
    by_cases hs : Flt.gt (PArr.sqTotal as1) (o.clip * o.clip) = true
    · simp only [hs, if_true]
      obtain ⟨qs2, e2, hq2⟩ := forEach_ok (R' := fun q a => q.Is d a) hq1
        (fun i q a _ hq => scaleGrad_ok hq p (o.clip / Flt.sqrt (PArr.sqTotal as1))) 0
      rw [e2, andThen_ok]
      refine h3 qs2 _ hq2 fun a ha => ?_
      obtain ⟨a0, ha0, rfl⟩ := List.mem_map.mp ha
      exact hr1 a0 ha0
    · simp only [hs]
      exact h3 qs1 as1 hq1 hr1
  · simp only [hc]
    exact h3 qs1 as1 hq1 hr1

end Verif
