import Verif.GraphFw

/-! # `backward` on graphs -/

namespace Verif
open Res
namespace Graph
variable {T : Type}

/-- `b` was made of `a` by changing gradients only, and has the same sinks. -/
def OnlyGrads (g g' : Graph T) : Prop :=
  g'.length = g.length ∧ ∀ (i : Nat) (o : OpInfo T), g[i]? = some o →
    ∃ gr : List T, gr.length = o.grads.length ∧ g'[i]? = some { o with grads := gr }

theorem OnlyGrads.refl (g : Graph T) : OnlyGrads g g := ⟨rfl, fun _ o ho => ⟨o.grads, rfl, ho⟩⟩

theorem OnlyGrads.trans {g g' g'' : Graph T} (h : OnlyGrads g g') (h' : OnlyGrads g' g'') : OnlyGrads g g'' := by
  refine ⟨h'.1.trans h.1, fun i o ho => ?_⟩
  obtain ⟨gr, hl, e⟩ := h.2 i o ho
  obtain ⟨gr', hl', e'⟩ := h'.2 i _ e
  exact ⟨gr', by rw [hl', hl], e'⟩

theorem OnlyGrads.sameValues {g g' : Graph T} (h : OnlyGrads g g') : SameValues g g' := by
  refine ⟨h.1.symm, fun i o ho => ?_⟩
  obtain ⟨gr, hl, e⟩ := h.2 i o ho
  exact ⟨gr, o.sink, hl, e⟩

theorem SameValues.refl (g : Graph T) : SameValues g g := ⟨rfl, fun _ o ho => ⟨o.grads, o.sink, rfl, ho⟩⟩

theorem SameValues.trans {g g' g'' : Graph T} (h : SameValues g g') (h' : SameValues g' g'') : SameValues g g'' := by
  refine ⟨h.1.trans h'.1, fun i o ho => ?_⟩
  obtain ⟨gr, sk, hl, e⟩ := h.2 i o ho
  obtain ⟨gr', sk', hl', e'⟩ := h'.2 i _ e
  exact ⟨gr', sk', by rw [hl', hl], e'⟩

theorem SameValues.none {g g' : Graph T} (h : SameValues g g') {i : Nat} (hi : g[i]? = none) : g'[i]? = none := by
  rw [List.getElem?_eq_none_iff] at hi ⊢; rw [← h.1]; exact hi

theorem SameValues.same {g g' : Graph T} (h : SameValues g g') (n : Nat) : SameOps n g g' := by
  intro i _
  cases ho : g[i]? with
  | none => simp [h.none ho]
  | some o =>
    obtain ⟨gr, sk, _, e⟩ := h.2 i o ho
    simp [e, stat]

theorem SameValues.val {g g' : Graph T} (h : SameValues g g') (a : Nat × Nat) : g'.val a = g.val a := by
  cases ho : g[a.1]? with
  | none => simp [Graph.val, at', ho, h.none ho]
  | some o =>
    obtain ⟨gr, sk, _, e⟩ := h.2 _ o ho
    simp [Graph.val, at', ho, e]

theorem SameValues.argsOf {g g' : Graph T} (h : SameValues g g') (i : Nat) : g'.argsOf i = g.argsOf i :=
  ((h.same (i + 1)).argsOf (by omega)).symm

theorem SameValues.shapeOf (C : TensorLike T) {g g' : Graph T} (h : SameValues g g') (a : Nat × Nat) :
    shapeOf C g' a = shapeOf C g a := by
  cases ho : g[a.1]? with
  | none => simp [Graph.shapeOf, at', ho, h.none ho]
  | some o =>
    obtain ⟨gr, sk, _, e⟩ := h.2 _ o ho
    simp [Graph.shapeOf, at', ho, e]

theorem SameValues.contribs (C : TensorLike T) {g g' : Graph T} (h : SameValues g g') (gys : List T) (i : Nat) (a : Nat × Nat) :
    contribs C g' gys i a = contribs C g gys i a := by
  cases ho : g[i]? with
  | none => simp [Graph.contribs, ho, h.none ho]
  | some o =>
    obtain ⟨gr, sk, _, e⟩ := h.2 _ o ho
    simp only [Graph.contribs, ho, e]
    rw [mapR_congr (fun a _ => h.val a), mapR_congr (fun a _ => h.shapeOf C a)]

theorem SameValues.receive (C : TensorLike T) {g g' : Graph T} (h : SameValues g g') (gys : List T) (i : Nat) (a : Nat × Nat) (t : T) :
    receive C g' gys a t i = receive C g gys a t i := by
  unfold Graph.receive
  rw [h.argsOf, h.contribs]

theorem SameValues.wf {g g' : Graph T} (h : SameValues g g') (hg : WF g) : WF g' := by
  refine SameOps.wf (h.same _) h.1.symm hg ?_
  intro i o ho
  have hi : i < g.length := by rw [h.1]; exact mem_lt ho
  obtain ⟨o1, h1⟩ : ∃ o1, g[i]? = some o1 := ⟨g[i], by simp [hi]⟩
  obtain ⟨gr, sk, hl, e⟩ := h.2 i o1 h1
  rw [ho] at e
  obtain rfl := Option.some.inj e
  have := hg.lens i o1 h1
  exact ⟨this.1, by simpa [hl] using this.2⟩

theorem SameValues.inv {g g' : Graph T} (h : SameValues g g') {tr : List Nat} (hg : Inv g tr) : Inv g' tr := by
  have hwf := h.wf hg.wf
  have back : ∀ (i : Nat) (o : OpInfo T), g'[i]? = some o → ∃ o1 : OpInfo T, g[i]? = some o1 ∧ o1.oper = o.oper ∧ o1.args = o.args ∧
      o1.init = o.init ∧ o1.vals = o.vals ∧ o1.forwarded = o.forwarded := by
    intro i o ho
    have hi : i < g.length := by rw [h.1]; exact mem_lt ho
    obtain ⟨o1, h1⟩ : ∃ o1, g[i]? = some o1 := ⟨g[i], by simp [hi]⟩
    obtain ⟨gr, sk, hl, e⟩ := h.2 i o1 h1
    rw [ho] at e
    obtain rfl := Option.some.inj e
    exact ⟨o1, h1, rfl, rfl, rfl, rfl, rfl⟩
  have fwd : ∀ i : Nat, (∃ o : OpInfo T, g[i]? = some o ∧ o.forwarded = true) → ∃ o : OpInfo T, g'[i]? = some o ∧ o.forwarded = true := by
    rintro i ⟨o, ho, hf⟩
    obtain ⟨gr, sk, hl, e⟩ := h.2 i o ho
    exact ⟨_, e, hf⟩
  refine ⟨hwf, ?_, ?_, ?_, hg.trace.1, ?_⟩
  · intro i o ho hf
    obtain ⟨o1, h1, _, _, e3, e4, e5⟩ := back i o ho
    rw [← e4, ← e3]; exact hg.fresh i o1 h1 (by rw [e5]; exact hf)
  · intro i o ho hf a ha
    obtain ⟨o1, h1, _, e2, _, _, e5⟩ := back i o ho
    exact fwd _ (hg.closed i o1 h1 (by rw [e5]; exact hf) a (by rw [e2]; exact ha))
  · intro i o ho hf hev
    obtain ⟨o1, h1, _, _, _, e4, e5⟩ := back i o ho
    have hi := mem_lt h1
    rw [← (h.same g.length).den hi, ← e4]
    exact hg.value i o1 h1 (by rw [e5]; exact hf) (((h.same g.length).evaluable_iff hg.wf hwf hi).mpr hev)
  · intro i
    rw [hg.trace.2]
    refine ⟨fwd i, ?_⟩
    rintro ⟨o, ho, hf⟩
    obtain ⟨o1, h1, _, _, _, _, e5⟩ := back i o ho
    exact ⟨o1, h1, by rw [e5]; exact hf⟩

theorem setGrad_grad {g : Graph T} {a : Nat × Nat} {t t0 : T} (h : g.grad a = ok t0) (b : Nat × Nat) :
    (g.setGrad a t).grad b = if b = a then ok t else g.grad b := by
  obtain ⟨o, ho, hg⟩ := grad_eq_ok.mp h
  have hlt : a.2 < o.grads.length := (List.getElem?_eq_some_iff.mp hg).1
  by_cases hb : b = a
  · subst hb
    simp only [if_true]
    exact grad_eq_ok.mpr ⟨{ o with grads := o.grads.set b.2 t }, by simp [setGrad, ho], by simp [hlt]⟩
  · rw [if_neg hb]
    by_cases h1 : b.1 = a.1
    · have h2 : b.2 ≠ a.2 := fun h2 => hb (Prod.ext h1 h2)
      simp [grad, setGrad, at', h1, ho, h2.symm]
    · simp [grad, setGrad, at', Ne.symm h1]

theorem setGrad_only (g : Graph T) (a : Nat × Nat) (t : T) : OnlyGrads g (g.setGrad a t) := by
  refine ⟨by simp [setGrad], fun i o ho => ?_⟩
  by_cases hi : i = a.1
  · subst hi
    exact ⟨o.grads.set a.2 t, by simp, by simp [setGrad, ho]⟩
  · exact ⟨o.grads, rfl, by simp [setGrad, Ne.symm hi, ho]⟩

theorem ens_twice {C : TensorLike T} {t t' : T} (h : ens C t = ok t') : ens C t' = ok t' := by
  unfold ens at h ⊢
  by_cases hv : C.valid t = true
  · simp [hv] at h; subst h; simp [hv]
  · simp [hv] at h; simp [C.zeros_valid _ _ h]

theorem ensure_spec {C : TensorLike T} {g g' : Graph T} {a : Nat × Nat} (h : ensure C g a = ok g') : OnlyGrads g g' ∧
    ∀ b t, g.grad b = ok t → ∃ t', g'.grad b = ok t' ∧ (if b = a then ens C t else ok t) = ok t' := by
  simp only [ensure, Res.bind_eq_ok] at h
  obtain ⟨t, ht, h⟩ := h
  by_cases hv : C.valid t = true
  · simp [hv] at h
    subst h
    refine ⟨OnlyGrads.refl _, fun b t1 hb => ⟨t1, hb, ?_⟩⟩
    by_cases hba : b = a
    · subst hba
      rw [ht] at hb
      obtain rfl := Res.ok.inj hb
      simp [ens, hv]
    · simp [hba]
  · simp only [hv, Bool.false_eq_true, if_false, Res.bind_eq_ok, Res.ok.injEq] at h
    obtain ⟨t', hz, rfl⟩ := h
    refine ⟨setGrad_only _ _ _, fun b t1 hb => ?_⟩
    rw [setGrad_grad ht]
    by_cases hba : b = a
    · subst hba
      rw [ht] at hb
      obtain rfl := Res.ok.inj hb
      exact ⟨t', by simp, by simp [ens, hv, hz]⟩
    · exact ⟨t1, by simp [hba, hb], by simp [hba]⟩

theorem ensures_spec {C : TensorLike T} {args : List (Nat × Nat)} {g g' : Graph T} (h : foldR (ensure C) args g = ok g') :
    OnlyGrads g g' ∧ ∀ b t, g.grad b = ok t → ∃ t', g'.grad b = ok t' ∧ (if b ∈ args then ens C t else ok t) = ok t' := by
  induction args generalizing g with
  | nil =>
    simp only [foldR, Res.ok.injEq] at h
    subst h
    exact ⟨OnlyGrads.refl _, fun b t hb => ⟨t, hb, by simp⟩⟩
  | cons a args ih =>
    simp only [foldR, Res.bind_eq_ok] at h
    obtain ⟨g1, h1, h2⟩ := h
    obtain ⟨k1, e1⟩ := ensure_spec h1
    obtain ⟨k2, e2⟩ := ih h2
    refine ⟨k1.trans k2, fun b t hb => ?_⟩
    obtain ⟨t1, ht1, e1⟩ := e1 b t hb
    obtain ⟨t2, ht2, e2⟩ := e2 b t1 ht1
    refine ⟨t2, ht2, ?_⟩
    by_cases hba : b = a
    · subst hba
      simp only [if_true] at e1
      simp only [List.mem_cons, true_or, if_true]
      by_cases hb' : b ∈ args
      · simp only [hb', if_true] at e2
        rw [ens_twice e1] at e2
        rw [e1, e2]
      · simp only [hb', if_false, Res.ok.injEq] at e2
        rw [e1, e2]
    · simp only [hba, if_false, Res.ok.injEq] at e1
      subst e1
      simp only [List.mem_cons, hba, false_or]
      exact e2

theorem updates_spec {args : List (Nat × Nat)} {us : List (Nat × (T → Res T))} {g g' : Graph T} (h : foldR (update args) us g = ok g') :
    OnlyGrads g g' ∧ ∀ b t, g.grad b = ok t → ∃ t', g'.grad b = ok t' ∧
      foldR (fun t f => f t) (us.filterMap fun u => if args[u.1]? = some b then some u.2 else none) t = ok t' := by
  induction us generalizing g with
  | nil =>
    simp only [foldR, Res.ok.injEq] at h
    subst h
    exact ⟨OnlyGrads.refl _, fun b t hb => ⟨t, hb, rfl⟩⟩
  | cons u us ih =>
    simp only [foldR, Res.bind_eq_ok] at h
    obtain ⟨g1, h1, h2⟩ := h
    obtain ⟨k2, e2⟩ := ih h2
    simp only [update, Res.bind_eq_ok, Res.ok.injEq, at'_eq_ok] at h1
    obtain ⟨a, ha, t0, ht0, t1, ht1, rfl⟩ := h1
    refine ⟨(setGrad_only _ _ _).trans k2, fun b t hb => ?_⟩
    by_cases hba : b = a
    · subst hba
      rw [ht0] at hb
      obtain rfl := Res.ok.inj hb
      obtain ⟨t', ht', e⟩ := e2 b t1 (by rw [setGrad_grad ht0]; simp)
      refine ⟨t', ht', ?_⟩
      simp only [List.filterMap_cons, ha, if_true, foldR, ht1, ok_bind]
      exact e
    · obtain ⟨t', ht', e⟩ := e2 b t (by rw [setGrad_grad ht0]; simp [hba, hb])
      refine ⟨t', ht', ?_⟩
      have hne : ¬ (some a = some b) := fun h => hba (Option.some.inj h).symm
      simp only [List.filterMap_cons, ha, if_neg hne]
      exact e

theorem OnlyGrads.sinkOf {g g' : Graph T} (h : OnlyGrads g g') (i : Nat) : g'.sinkOf i = g.sinkOf i := by
  cases ho : g[i]? with
  | none => simp [Graph.sinkOf, ho, h.sameValues.none ho]
  | some o =>
    obtain ⟨gr, _, e⟩ := h.2 i o ho
    simp [Graph.sinkOf, ho, e]

/-- Setting the sink of an operator. -/
theorem setSink_spec (g : Graph T) (i : Nat) (t : T) : SameValues g (g.setSink i t) ∧
    (∀ b, (g.setSink i t).grad b = g.grad b) ∧
    (∀ j, (g.setSink i t).sinkOf j = if j = i ∧ i < g.length then some t else g.sinkOf j) := by
  refine ⟨⟨by simp [setSink], fun j o ho => ?_⟩, fun b => ?_, fun j => ?_⟩
  · by_cases hj : j = i
    · subst hj; exact ⟨o.grads, some t, rfl, by simp [setSink, ho]⟩
    · exact ⟨o.grads, o.sink, rfl, by simp [setSink, Ne.symm hj, ho]⟩
  · by_cases hb : b.1 = i
    · subst hb
      cases ho : g[b.1]? <;> simp [grad, at', setSink, ho]
    · simp [grad, at', setSink, Ne.symm hb]
  · by_cases hj : j = i
    · subst hj
      by_cases hl : j < g.length
      · simp [sinkOf, setSink, hl]
      · simp [sinkOf, setSink, hl]
    · simp [sinkOf, setSink, Ne.symm hj, hj]

theorem bwOne_spec {C : TensorLike T} {g g' : Graph T} {i : Nat} (h : bwOne C g i = ok g') : SameValues g g' ∧
    (∀ b t, g.grad b = ok t → ∃ t', g'.grad b = ok t' ∧ receive C g (g.gradsOf i) b t i = ok t') ∧
    (∀ j, j ≠ i → g'.sinkOf j = g.sinkOf j) ∧
    (g.sinkOf i = none → g'.sinkOf i = none) ∧
    (∀ t, g.sinkOf i = some t → ∃ gy t', (g.gradsOf i)[0]? = some gy ∧ C.addTo t gy = ok t' ∧ g'.sinkOf i = some t') := by
  simp only [bwOne, Res.bind_eq_ok, at'_eq_ok] at h
  obtain ⟨o, ho, xs, hxs, ss, hss, g1, h1, g2, h2, h3⟩ := h
  obtain ⟨k1, e1⟩ := ensures_spec h1
  obtain ⟨k2, e2⟩ := updates_spec h2
  have k := k1.trans k2
  have hrec : ∀ b t, g.grad b = ok t → ∃ t', g2.grad b = ok t' ∧ receive C g (g.gradsOf i) b t i = ok t' := by
    intro b t hb
    obtain ⟨t1, ht1, e1⟩ := e1 b t hb
    obtain ⟨t2, ht2, e2⟩ := e2 b t1 ht1
    refine ⟨t2, ht2, ?_⟩
    unfold receive
    rw [argsOf_some ho]
    by_cases hb' : b ∈ o.args
    · simp only [hb', if_true] at e1 ⊢
      rw [e1]
      simp only [ok_bind, contribs, ho, hxs, hss, gradsOf]
      exact e2
    · simp only [hb', if_false, Res.ok.injEq] at e1 ⊢
      subst e1
      have : (o.oper.bw xs o.vals o.grads ss).filterMap (fun u => if o.args[u.1]? = some b then some u.2 else none) = [] := by
        rw [List.filterMap_eq_nil_iff]
        intro u _
        rw [if_neg]
        intro hu
        exact hb' (List.mem_of_getElem? hu)
      rw [this] at e2
      simpa [foldR] using e2
  have hso : g.sinkOf i = o.sink := by simp [sinkOf, ho]
  cases hs : o.sink with
  | none =>
    rw [hs] at h3
    simp only [Res.ok.injEq] at h3
    subst h3
    refine ⟨k.sameValues, hrec, fun j _ => k.sinkOf j, fun _ => by rw [k.sinkOf, hso, hs], fun t ht => ?_⟩
    rw [hso, hs] at ht; cases ht
  | some t =>
    rw [hs] at h3
    simp only [Res.bind_eq_ok, at'_eq_ok, Res.ok.injEq] at h3
    obtain ⟨gy, hgy, t', ht', rfl⟩ := h3
    obtain ⟨s1, s2, s3⟩ := setSink_spec g2 i t'
    refine ⟨k.sameValues.trans s1, fun b t hb => ?_, fun j hj => ?_, fun hn => ?_, fun t1 ht1 => ?_⟩
    · rw [s2]; exact hrec b t hb
    · rw [s3, if_neg (by simp [hj])]; exact k.sinkOf j
    · rw [hso, hs] at hn; cases hn
    · rw [hso, hs] at ht1
      obtain rfl := Option.some.inj ht1
      refine ⟨gy, t', by simp [gradsOf, ho, hgy], ht', ?_⟩
      rw [s3, if_pos ⟨rfl, by rw [k.1]; exact mem_lt ho⟩]

/-- An operator that is not an argument keeps the gradients of its results. -/
theorem receive_not_arg {C : TensorLike T} {g : Graph T} {gys : List T} {a : Nat × Nat} {t : T} {i : Nat} (h : a ∉ g.argsOf i) :
    receive C g gys a t i = ok t := by simp [receive, h]

theorem gradsOf_congr {g g' : Graph T} {i : Nat} (hl : (g'.gradsOf i).length = (g.gradsOf i).length)
    (h : ∀ v t, g.grad (i, v) = ok t → g'.grad (i, v) = ok t) : g'.gradsOf i = g.gradsOf i := by
  apply List.ext_getElem? 
  intro v
  by_cases hv : v < (g.gradsOf i).length
  · cases ho : g[i]? with
    | none => simp [gradsOf, ho] at hv
    | some o =>
      have e : g.gradsOf i = o.grads := by simp [gradsOf, ho]
      rw [e] at hv ⊢
      have := h v (o.grads[v]) (grad_eq_ok.mpr ⟨o, ho, by simp [hv]⟩)
      obtain ⟨o', ho', hg'⟩ := grad_eq_ok.mp this
      have e' : g'.gradsOf i = o'.grads := by simp only [gradsOf]; simp only at ho'; rw [ho']
      rw [e', hg']
      simp [hv]
  · rw [List.getElem?_eq_none (by omega), List.getElem?_eq_none (by omega)]

theorem SameValues.gradsOf_length {g g' : Graph T} (h : SameValues g g') (i : Nat) :
    (g'.gradsOf i).length = (g.gradsOf i).length := by
  cases ho : g[i]? with
  | none => simp [gradsOf, ho, h.none ho]
  | some o =>
    obtain ⟨gr, sk, hl, e⟩ := h.2 i o ho
    simp [gradsOf, ho, e, hl]

theorem bwRun_spec {C : TensorLike T} (order : List Nat) {g g' : Graph T} (hg : WF g) (hnd : order.Nodup)
    (hord : ∀ l1 i l2, order = l1 ++ i :: l2 → ∀ j ∈ l2, ∀ v, (i, v) ∉ g.argsOf j)
    (h : foldR (bwOne C) order g = ok g') : SameValues g g' ∧
    (∀ a t, g.grad a = ok t → ∃ t', g'.grad a = ok t' ∧
      foldR (fun t i => receive C g (g'.gradsOf i) a t i) order t = ok t') ∧
    (∀ i, i ∉ order → g'.sinkOf i = g.sinkOf i) ∧
    (∀ i t, i ∈ order → g.sinkOf i = some t → ∃ gy t', (g'.gradsOf i)[0]? = some gy ∧ C.addTo t gy = ok t' ∧
      g'.sinkOf i = some t') ∧
    (∀ i, i ∈ order → g.sinkOf i = none → g'.sinkOf i = none) := by
  induction order generalizing g with
  | nil =>
    simp only [foldR, Res.ok.injEq] at h
    subst h
    exact ⟨SameValues.refl _, fun a t ha => ⟨t, ha, rfl⟩, fun _ _ => rfl, by simp, by simp⟩
  | cons i order ih =>
    simp only [foldR, Res.bind_eq_ok] at h
    obtain ⟨g1, h1, h2⟩ := h
    obtain ⟨s1, r1, n1, z1, k1⟩ := bwOne_spec h1
    obtain ⟨s2, r2, n2, k2, z2⟩ := ih (s1.wf hg) (List.nodup_cons.mp hnd).2 (by
      intro l1 j l2 e k hk v
      rw [s1.argsOf]
      exact hord (i :: l1) j l2 (by rw [e]; rfl) k hk v) h2
    have hni : i ∉ order := (List.nodup_cons.mp hnd).1
    -- gradients of operator `i` are final
    have hself : ∀ v, (i, v) ∉ g.argsOf i := fun v hv => by have := hg.lt hv; simp at this
    have hlater : ∀ j ∈ order, ∀ v, (i, v) ∉ g.argsOf j := hord [] i order rfl
    have hfold : ∀ (gf : Nat → List T) (l : List Nat) (v : Nat) (t : T), (∀ j ∈ l, (i, v) ∉ g.argsOf j) →
        foldR (fun t j => receive C g1 (gf j) (i, v) t j) l t = ok t := by
      intro gf l v t hl
      induction l with
      | nil => rfl
      | cons j l ihl =>
        simp only [foldR]
        rw [receive_not_arg (by rw [s1.argsOf]; exact hl j (by simp))]
        exact ihl (fun k hk => hl k (by simp [hk]))
    have hfin : g'.gradsOf i = g.gradsOf i := by
      apply gradsOf_congr (by rw [s2.gradsOf_length, s1.gradsOf_length])
      intro v t ht
      obtain ⟨t1, ht1, e1⟩ := r1 (i, v) t ht
      rw [receive_not_arg (hself v)] at e1
      obtain rfl := Res.ok.inj e1
      obtain ⟨t2, ht2, e2⟩ := r2 (i, v) t ht1
      rw [hfold _ _ _ _ (fun j hj => hlater j hj v)] at e2
      obtain rfl := Res.ok.inj e2
      exact ht2
    refine ⟨s1.trans s2, ?_, ?_, ?_, ?_⟩
    · intro a t ha
      obtain ⟨t1, ht1, e1⟩ := r1 a t ha
      obtain ⟨t2, ht2, e2⟩ := r2 a t1 ht1
      refine ⟨t2, ht2, ?_⟩
      simp only [foldR]
      rw [hfin, e1]
      simp only [ok_bind]
      rw [← e2]
      exact foldR_congr (fun j _ s => (s1.receive C _ _ _ _).symm) t1
    · intro j hj
      rw [n2 j (fun h => hj (by simp [h])), n1 j (fun h => hj (by simp [h]))]
    · intro j t hj ht
      rcases List.mem_cons.mp hj with rfl | hj
      · obtain ⟨gy, t', hgy, hadd, hs⟩ := k1 t ht
        exact ⟨gy, t', by rw [hfin]; exact hgy, hadd, by rw [n2 j hni]; exact hs⟩
      · exact k2 j t hj (by rw [n1 j (fun h => hni (h ▸ hj))]; exact ht)
    · intro j hj hn
      rcases List.mem_cons.mp hj with rfl | hj
      · rw [n2 j hni]; exact z1 hn
      · exact z2 j hj (by rw [n1 j (fun h => hni (h ▸ hj))]; exact hn)

theorem seed_spec {C : TensorLike T} {g g' : Graph T} {root : Nat} (h : seed C g root = ok g') : OnlyGrads g g' ∧
    ∀ a t, g.grad a = ok t → ∃ t', g'.grad a = ok t' ∧ (if a.1 = root then C.ones t else ok t) = ok t' := by
  simp only [seed, Res.bind_eq_ok, at'_eq_ok, Res.ok.injEq] at h
  obtain ⟨o, ho, gs, hgs, rfl⟩ := h
  have hl := mapR_length hgs
  have hlt := mem_lt ho
  refine ⟨⟨by simp, fun i o' ho' => ?_⟩, fun a t ha => ?_⟩
  · by_cases hi : i = root
    · subst hi
      rw [ho] at ho'
      obtain rfl := Option.some.inj ho'
      exact ⟨gs, hl, by simp [hlt]⟩
    · exact ⟨o'.grads, rfl, by rw [List.getElem?_set_ne (Ne.symm hi)]; exact ho'⟩
  · obtain ⟨o', ho', hg'⟩ := grad_eq_ok.mp ha
    by_cases hi : a.1 = root
    · subst hi
      rw [ho] at ho'
      obtain rfl := Option.some.inj ho'
      obtain ⟨b, hb, hob⟩ := mapR_get hgs hg'
      exact ⟨b, grad_eq_ok.mpr ⟨{ o with grads := gs }, by simp [hlt], hb⟩, by simp [hob]⟩
    · exact ⟨t, grad_eq_ok.mpr ⟨o', by rw [List.getElem?_set_ne (Ne.symm hi)]; exact ho', hg'⟩, by simp [hi]⟩

/-- `backward`. -/
theorem backward_spec {C : TensorLike T} {g g' : Graph T} (hg : WF g) {root : Nat} (hroot : root < g.length) {order : List Nat}
    (h : BackwardOnly C g root order (ok g')) : order.Nodup ∧ (∀ j, j ∈ order ↔ Needs g root j) ∧
      (∀ l1 i l2, order = l1 ++ i :: l2 → ∀ a ∈ g.argsOf i, a.1 ∈ l2) ∧ Accumulated C g root order g' := by
  obtain ⟨pushed, hc, hp, hrun⟩ := h
  obtain ⟨hnd, hmem, hord⟩ := popsMax_spec hg hroot hc hp
  refine ⟨hnd, hmem, hord, ?_⟩
  simp only [Res.bind_eq_ok] at hrun
  obtain ⟨g1, hs, hrun⟩ := hrun
  obtain ⟨k, ke⟩ := seed_spec hs
  obtain ⟨s2, r2, n2, k2, z2⟩ := bwRun_spec order (k.sameValues.wf hg) hnd (by
    intro l1 i l2 e j hj v hv
    rw [k.sameValues.argsOf] at hv
    obtain ⟨m1, m2, rfl⟩ := List.append_of_mem hj
    have := hord (l1 ++ i :: m1) j m2 (by rw [e]; simp) _ hv
    rw [e] at hnd
    have h1 := (List.nodup_append.mp hnd).2.1
    have h2 := (List.nodup_cons.mp h1).1
    exact h2 (by simp at this; simp [this])) hrun
  refine ⟨k.sameValues.trans s2, ?_, ?_, ?_⟩
  · intro a t ha
    obtain ⟨t1, ht1, e1⟩ := ke a t ha
    obtain ⟨t2, ht2, e2⟩ := r2 a t1 ht1
    refine ⟨t1, t2, e1, ht2, ?_⟩
    rw [← e2]
    exact foldR_congr (fun j _ s => (k.sameValues.receive C _ _ _ _).symm) t1
  · intro i
    by_cases hi : i ∈ order
    · exact Or.inr hi
    · left; rw [n2 i hi, k.sinkOf]
  · intro i t hi ht
    exact k2 i t hi (by rw [k.sinkOf]; exact ht)

/-! ### Histories -/

theorem create_inv {C : TensorLike T} {g g' : Graph T} {tr : List Nat} {op : Oper T} {sink : Option T} {args : List (Nat × Nat)}
    (hg : Inv g tr) (h : create C g op sink args = ok g') : Inv g' tr := by
  simp only [create, Res.bind_eq_ok, Res.ok.injEq] at h
  obtain ⟨xs, hxs, ss, hss, rfl⟩ := h
  have hold : ∀ i, i < g.length → ∀ o : OpInfo T, (g ++ [o])[i]? = g[i]? := fun i hi o => List.getElem?_append_left hi
  have hcase : ∀ (i : Nat) (o n : OpInfo T), (g ++ [n])[i]? = some o → (g[i]? = some o ∧ i < g.length) ∨ (i = g.length ∧ o = n) := by
    intro i o n ho
    have hl := mem_lt ho
    simp at hl
    by_cases hi : i < g.length
    · rw [hold i hi] at ho; exact Or.inl ⟨ho, hi⟩
    · have : i = g.length := by omega
      subst this
      simp at ho
      exact Or.inr ⟨rfl, ho.symm⟩
  have hfold : ∀ (l : List Nat) (d : Nat), d ≤ l.foldl max d ∧ ∀ x ∈ l, x ≤ l.foldl max d := by
    intro l
    induction l with
    | nil => simp
    | cons y l ih =>
      intro d
      obtain ⟨h1, h2⟩ := ih (max d y)
      refine ⟨by simp; omega, ?_⟩
      intro x hx
      rcases List.mem_cons.mp hx with rfl | hx
      · simp; omega
      · exact h2 x hx
  generalize hn : (⟨op, args, ss.map op.null, ss.map op.null, ss.map op.null, false,
    (args.map fun a => g.depthOf a.1).foldl max 0 + 1, sink⟩ : OpInfo T) = n
  have hargs : ∀ a ∈ args, ∃ o' : OpInfo T, g[a.1]? = some o' ∧ a.2 < o'.init.length ∧ o'.depth < n.depth := by
    intro a ha
    obtain ⟨x, hx⟩ := mapR_mem hxs ha
    obtain ⟨o', ho', hv⟩ := val_eq_ok.mp hx
    refine ⟨o', ho', ?_, ?_⟩
    · rw [← (hg.wf.lens _ _ ho').1]; exact (List.getElem?_eq_some_iff.mp hv).1
    · have := (hfold (args.map fun a => g.depthOf a.1) 0).2 (g.depthOf a.1) (List.mem_map_of_mem ha)
      rw [depthOf_some ho'] at this
      subst hn
      simp only
      omega
  have hwf : WF (g ++ [n]) := by
    refine ⟨fun i o ho a ha => ?_, fun i o ho => ?_⟩
    · rcases hcase i o n ho with ⟨h1, h2⟩ | ⟨rfl, rfl⟩
      · obtain ⟨hlt, o', ho', hv⟩ := hg.wf.args i o h1 a ha
        exact ⟨hlt, o', by rw [hold _ (by omega)]; exact ho', hv⟩
      · have ha' : a ∈ args := by subst hn; exact ha
        obtain ⟨o', ho', hv⟩ := hargs a ha'
        exact ⟨mem_lt ho', o', by rw [hold _ (mem_lt ho')]; exact ho', hv⟩
    · rcases hcase i o n ho with ⟨h1, _⟩ | ⟨rfl, rfl⟩
      · exact hg.wf.lens i o h1
      · subst hn; simp
  have hsame : SameOps g.length g (g ++ [n]) := fun i hi => by rw [hold i hi]
  have hnf : n.forwarded = false := by subst hn; rfl
  refine ⟨hwf, ?_, ?_, ?_, hg.trace.1, ?_⟩
  · intro i o ho hf
    rcases hcase i o n ho with ⟨h1, _⟩ | ⟨rfl, rfl⟩
    · exact hg.fresh i o h1 hf
    · subst hn; rfl
  · intro i o ho hf a ha
    rcases hcase i o n ho with ⟨h1, _⟩ | ⟨rfl, rfl⟩
    · obtain ⟨o', ho', hf'⟩ := hg.closed i o h1 hf a ha
      exact ⟨o', by rw [hold _ (mem_lt ho')]; exact ho', hf'⟩
    · rw [hnf] at hf; cases hf
  · intro i o ho hf hev
    rcases hcase i o n ho with ⟨h1, hi⟩ | ⟨rfl, rfl⟩
    · rw [← hsame.den hi]
      exact hg.value i o h1 hf ((hsame.evaluable_iff hg.wf hwf hi).mpr hev)
    · rw [hnf] at hf; cases hf
  · intro i
    rw [hg.trace.2]
    constructor
    · rintro ⟨o, ho, hf⟩
      exact ⟨o, by rw [hold _ (mem_lt ho)]; exact ho, hf⟩
    · rintro ⟨o, ho, hf⟩
      rcases hcase i o n ho with ⟨h1, hi⟩ | ⟨rfl, rfl⟩
      · exact ⟨o, h1, hf⟩
      · rw [hnf] at hf; cases hf

theorem Hist.inv {C : TensorLike T} {g : Graph T} {tr : List Nat} (h : Hist C g tr) : Inv g tr := by
  induction h with
  | empty => refine ⟨⟨?_, ?_⟩, ?_, ?_, ?_, ?_, ?_⟩ <;> simp
  | create _ hc ih => exact create_inv ih hc
  | forward _ hr hf ih => exact (forward_spec ih hr hf).1
  | backward _ hr hf hb ih =>
    have h1 := (forward_spec ih hr hf)
    obtain ⟨h2, popped, _, _, _, hran, _⟩ := h1
    exact (backward_spec h2.wf (by rw [hran.len]; exact hr) hb).2.2.2.same.inv h2
  | backwardPanic _ hr hf _ hs ih => exact hs.inv (forward_spec ih hr hf).1

end Graph
end Verif
