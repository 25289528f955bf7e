import Verif.GraphLemmas

/-! # `forward` on graphs: invariant and effect -/

namespace Verif
open Res
namespace Graph
variable {T : Type}

/-- What holds after every history. -/
structure Inv (g : Graph T) (tr : List Nat) : Prop where
  wf : WF g
  fresh : ∀ (i : Nat) (o : OpInfo T), g[i]? = some o → o.forwarded = false → o.vals = o.init
  closed : ∀ (i : Nat) (o : OpInfo T), g[i]? = some o → o.forwarded = true →
    ∀ a ∈ o.args, ∃ o' : OpInfo T, g[a.1]? = some o' ∧ o'.forwarded = true
  value : ∀ (i : Nat) (o : OpInfo T), g[i]? = some o → o.forwarded = true → Evaluable g i → den g i = ok o.vals
  trace : tr.Nodup ∧ ∀ i, i ∈ tr ↔ ∃ o : OpInfo T, g[i]? = some o ∧ o.forwarded = true

/-- Effect of going through the operators `l`, of which `tr` were run. -/
structure Ran (g g' : Graph T) (l tr : List Nat) (r : Res Unit) : Prop where
  len : g'.length = g.length
  frame : ∀ j, j ∉ tr → g'[j]? = g[j]?
  run : ∀ (j : Nat) (o : OpInfo T), j ∈ tr → g[j]? = some o → o.forwarded = false ∧ ∃ ys : List T, ys.length = o.init.length ∧
    g'[j]? = some { o with forwarded := true, vals := ys }
  sub : tr.Sublist l
  done : r = ok () → ∀ j ∈ l, ∃ o : OpInfo T, g'[j]? = some o ∧ o.forwarded = true

theorem Ran.same {g g' : Graph T} {l tr : List Nat} {r : Res Unit} (h : Ran g g' l tr r) (n : Nat) : SameOps n g g' := by
  intro i _
  by_cases hi : i ∈ tr
  · cases ho : g[i]? with
    | none =>
      have : g'[i]? = none := by
        rw [List.getElem?_eq_none_iff] at ho ⊢; rw [h.len]; exact ho
      simp [this]
    | some o =>
      obtain ⟨_, ys, _, e⟩ := h.run i o hi ho
      simp [e, stat]
  · rw [h.frame i hi]

theorem Inv.needs_forwarded {g : Graph T} {tr : List Nat} (h : Inv g tr) {i j : Nat} (hn : Needs g i j) {o : OpInfo T} (ho : g[i]? = some o)
    (hf : o.forwarded = true) : ∃ o' : OpInfo T, g[j]? = some o' ∧ o'.forwarded = true := by
  induction hn generalizing o with
  | refl => exact ⟨o, ho, hf⟩
  | arg ha _ ih =>
    rw [argsOf_some ho] at ha
    obtain ⟨o', ho', hf'⟩ := h.closed _ _ ho hf _ ha
    exact ih ho' hf'

theorem mem_lt {g : Graph T} {i : Nat} {o : OpInfo T} (h : g[i]? = some o) : i < g.length := (List.getElem?_eq_some_iff.mp h).1

/-- Running an operator whose arguments have been evaluated gives its denotation. -/
theorem run_eq_den {g : Graph T} {tr : List Nat} (h : Inv g tr) {i : Nat} {o : OpInfo T} (ho : g[i]? = some o)
    (hf : o.forwarded = false) (ha : ∀ a ∈ o.args, ∃ o' : OpInfo T, g[a.1]? = some o' ∧ o'.forwarded = true)
    (he : ∀ a ∈ o.args, Evaluable g a.1) : (do let xs ← mapR g.val o.args; o.oper.fw xs o.vals) = den g i := by
  rw [den_some ho, h.fresh i o ho hf]
  congr 1
  apply mapR_congr
  intro a haa
  obtain ⟨hlt, _⟩ := h.wf.args i o ho a haa
  obtain ⟨o', ho', hf'⟩ := ha a haa
  rw [dif_pos hlt, h.value _ _ ho' hf' (he a haa)]
  simp [val, at', ho']

theorem SameOps.inv_part {g g' : Graph T} {l tr : List Nat} {r : Res Unit} (hr : Ran g g' l tr r) (hg : WF g) : WF g' := by
  refine SameOps.wf (hr.same _) hr.len hg ?_
  intro i o ho
  have hi : i < g.length := by rw [← hr.len]; exact mem_lt ho
  obtain ⟨o1, h1⟩ : ∃ o1, g[i]? = Option.some o1 := ⟨g[i], by simp [hi]⟩
  by_cases hm : i ∈ tr
  · obtain ⟨_, ys, hy, e⟩ := hr.run i o1 hm h1
    rw [ho] at e
    obtain rfl := Option.some.inj e
    exact ⟨hy, (hg.lens i o1 h1).2⟩
  · rw [hr.frame i hm] at ho
    exact hg.lens i o ho

/-- One operator. -/
theorem fwOne_spec {g : Graph T} {tr : List Nat} (h : Inv g tr) {i : Nat} (hi : i < g.length)
    (ha : ∀ a ∈ g.argsOf i, ∃ o' : OpInfo T, g[a.1]? = some o' ∧ o'.forwarded = true) :
    ∃ g' b r, fwOne g i = (g', b, r) ∧ Inv g' (tr ++ if b then [i] else []) ∧ Ran g g' [i] (if b then [i] else []) r ∧
      (∃ o' : OpInfo T, g'[i]? = some o' ∧ o'.forwarded = true) ∧
      ((∀ a ∈ g.argsOf i, Evaluable g a.1) → (∀ o : OpInfo T, g[i]? = some o → o.forwarded = false) →
        (r = ok () ↔ ∃ ys, den g i = ok ys)) ∧
      (∀ o : OpInfo T, g[i]? = some o → o.forwarded = true → r = ok ()) := by
  obtain ⟨o, ho⟩ : ∃ o, g[i]? = some o := ⟨g[i], by simp [hi]⟩
  rw [argsOf_some ho] at ha ⊢
  by_cases hf : o.forwarded = true
  · refine ⟨g, false, ok (), by simp [fwOne, ho, hf], by simpa using h, ?_, ⟨o, ho, hf⟩, ?_, fun _ _ _ => rfl⟩
    · refine ⟨rfl, fun _ _ => rfl, ?_, by simp, ?_⟩
      · intro j o' hj; simp at hj
      · intro _ j hj
        simp at hj; subst hj
        exact ⟨o, ho, hf⟩
    · intro _ hcon
      have := hcon o ho
      rw [hf] at this; cases this
  · have hf' : o.forwarded = false := by simpa using hf
    -- the three outcomes are treated alike: `vs` are the values afterwards
    have key : ∀ (vs : List T) (r : Res Unit), vs.length = o.init.length →
        ((do let xs ← mapR g.val o.args; o.oper.fw xs o.vals) = ok vs ∨
          ¬ ∃ ys, (do let xs ← mapR g.val o.args; o.oper.fw xs o.vals) = ok ys) →
        Inv (g.set i { o with forwarded := true, vals := vs }) (tr ++ [i]) ∧
        Ran g (g.set i { o with forwarded := true, vals := vs }) [i] [i] r ∧
        (∃ o' : OpInfo T, (g.set i { o with forwarded := true, vals := vs })[i]? = some o' ∧ o'.forwarded = true) := by
      intro vs r hl hcase
      have hself : (g.set i { o with forwarded := true, vals := vs })[i]? = some { o with forwarded := true, vals := vs } := by
        simp [hi]
      have hother : ∀ j, j ≠ i → (g.set i { o with forwarded := true, vals := vs })[j]? = g[j]? := by
        intro j hj; simp [hj.symm]
      have hran : Ran g (g.set i { o with forwarded := true, vals := vs }) [i] [i] r := by
        refine ⟨by simp, ?_, ?_, List.Sublist.refl _, ?_⟩
        · intro j hj; exact hother j (by simpa using hj)
        · intro j o' hj ho'
          simp at hj; subst hj
          rw [ho] at ho'
          obtain rfl := Option.some.inj ho'
          exact ⟨hf', vs, hl, hself⟩
        · intro _ j hj
          simp at hj; subst hj
          exact ⟨_, hself, rfl⟩
      have hwf := SameOps.inv_part hran h.wf
      refine ⟨⟨hwf, ?_, ?_, ?_, ?_⟩, hran, ⟨_, hself, rfl⟩⟩
      · intro j o' ho' hff
        by_cases hj : j = i
        · subst hj
          rw [hself] at ho'
          obtain rfl := Option.some.inj ho'
          cases hff
        · rw [hother j hj] at ho'
          exact h.fresh j o' ho' hff
      · intro j o' ho' hff a haa
        have mono : ∀ k : Nat, (∃ o2 : OpInfo T, g[k]? = some o2 ∧ o2.forwarded = true) →
            ∃ o2 : OpInfo T, (g.set i { o with forwarded := true, vals := vs })[k]? = some o2 ∧ o2.forwarded = true := by
          rintro k ⟨o2, h2, hf2⟩
          by_cases hk : k = i
          · subst hk; exact ⟨_, hself, rfl⟩
          · exact ⟨o2, by rw [hother k hk]; exact h2, hf2⟩
        by_cases hj : j = i
        · subst hj
          rw [hself] at ho'
          obtain rfl := Option.some.inj ho'
          exact mono _ (ha a haa)
        · rw [hother j hj] at ho'
          exact mono _ (h.closed j o' ho' hff a haa)
      · intro j o' ho' hff hev
        have hjl : j < g.length := by have := mem_lt ho'; simpa using this
        have hev' : Evaluable g j := ((hran.same g.length).evaluable_iff h.wf hwf hjl).mpr hev
        rw [← (hran.same g.length).den hjl]
        by_cases hj : j = i
        · subst hj
          rw [hself] at ho'
          obtain rfl := Option.some.inj ho'
          have e := run_eq_den h ho hf' ha (fun a haa k hk => hev' k (.arg (by rw [argsOf_some ho]; exact haa) hk))
          obtain ⟨ys, hys⟩ := hev' j (.refl j)
          rcases hcase with hc | hc
          · rw [← e]; exact hc
          · exact absurd ⟨ys, by rw [e]; exact hys⟩ hc
        · rw [hother j hj] at ho'
          exact h.value j o' ho' hff hev'
      · constructor
        · refine List.nodup_append.mpr ⟨h.trace.1, by simp, ?_⟩
          intro x hx y hy
          simp at hy; subst hy
          rintro rfl
          obtain ⟨o2, h2, hf2⟩ := (h.trace.2 x).mp hx
          rw [ho] at h2
          obtain rfl := Option.some.inj h2
          rw [hf'] at hf2; cases hf2
        · intro j
          rw [List.mem_append, h.trace.2]
          by_cases hj : j = i
          · subst hj
            exact ⟨fun _ => ⟨_, hself, rfl⟩, fun _ => Or.inr (by simp)⟩
          · rw [hother j hj]
            simp [hj]
    have hlen := (h.wf.lens i o ho).1
    cases hx : (do let xs ← mapR g.val o.args; o.oper.fw xs o.vals) with
    | ok ys =>
      have hl : ys.length = o.init.length := by
        simp only [Res.bind_eq_ok] at hx
        obtain ⟨xs, _, hy⟩ := hx
        rw [o.oper.fw_len _ _ _ hy, hlen]
      obtain ⟨k1, k2, k3⟩ := key ys (ok ()) hl (Or.inl hx)
      refine ⟨_, true, ok (), by simp [fwOne, ho, hf', hx], k1, k2, k3, ?_, ?_⟩
      · intro hev _
        have e := run_eq_den h ho hf' ha hev
        exact ⟨fun _ => ⟨ys, by rw [← e]; exact hx⟩, fun _ => rfl⟩
      · intro o' ho' hff
        rfl
    | panic =>
      have hno : ¬ ∃ ys, (do let xs ← mapR g.val o.args; o.oper.fw xs o.vals) = ok ys := by rw [hx]; simp
      obtain ⟨k1, k2, k3⟩ := key (g.leftOf o) panic ((g.leftOf_length o).trans hlen) (Or.inr hno)
      refine ⟨_, true, panic, by simp [fwOne, ho, hf', hx], k1, k2, k3, ?_, ?_⟩
      · intro hev _
        have e := run_eq_den h ho hf' ha hev
        rw [← e]
        exact ⟨fun h => (nomatch h), fun h => absurd h hno⟩
      · intro o' ho' hff
        rw [ho] at ho'
        obtain rfl := Option.some.inj ho'
        exact absurd hff hf
    | ub =>
      have hno : ¬ ∃ ys, (do let xs ← mapR g.val o.args; o.oper.fw xs o.vals) = ok ys := by rw [hx]; simp
      obtain ⟨k1, k2, k3⟩ := key (g.leftOf o) ub ((g.leftOf_length o).trans hlen) (Or.inr hno)
      refine ⟨_, true, ub, by simp [fwOne, ho, hf', hx], k1, k2, k3, ?_, ?_⟩
      · intro hev _
        have e := run_eq_den h ho hf' ha hev
        rw [← e]
        exact ⟨fun h => (nomatch h), fun h => absurd h hno⟩
      · intro o' ho' hff
        rw [ho] at ho'
        obtain rfl := Option.some.inj ho'
        exact absurd hff hf

/-- The loop of `forward`. -/
theorem fwRun_spec (root : Nat) (l : List Nat) {g : Graph T} {tr : List Nat} (h : Inv g tr) (hroot : root < g.length)
    (hl : ∀ i ∈ l, Needs g root i)
    (hord : ∀ l1 i l2, l = l1 ++ i :: l2 → ∀ a ∈ g.argsOf i, a.1 ∈ l1 ∨ ∃ o' : OpInfo T, g[a.1]? = some o' ∧ o'.forwarded = true) :
    ∃ g' tr' r, fwRun l g = (g', tr', r) ∧ Inv g' (tr ++ tr') ∧ Ran g g' l tr' r ∧
      ((∀ i ∈ l, Evaluable g i) → r = ok ()) ∧
      (r = ok () → (∀ (j : Nat) (o : OpInfo T), Needs g root j → g[j]? = some o → o.forwarded = true → Evaluable g j) →
        ∀ i ∈ l, Evaluable g i) := by
  induction l generalizing g tr with
  | nil =>
    exact ⟨g, [], ok (), rfl, by simpa using h, ⟨rfl, fun _ _ => rfl, by simp, by simp, by simp⟩, fun _ => rfl, by simp⟩
  | cons i l ih =>
    have hil : i < g.length := by have := (hl i (by simp)).le h.wf; omega
    obtain ⟨o, ho⟩ : ∃ o, g[i]? = some o := ⟨g[i], by simp [hil]⟩
    have hargs : ∀ a ∈ g.argsOf i, ∃ o' : OpInfo T, g[a.1]? = some o' ∧ o'.forwarded = true := by
      intro a ha
      rcases hord [] i l rfl a ha with h' | h'
      · simp at h'
      · exact h'
    obtain ⟨g1, b, r1, e1, hinv1, hran1, hself1, hden1, hold1⟩ := fwOne_spec h hil hargs
    have hnone : ∀ j, j ∉ (if b then [i] else []) → g1[j]? = g[j]? := hran1.frame
    have hfwd : ∀ k : Nat, (∃ o2 : OpInfo T, g[k]? = some o2 ∧ o2.forwarded = true) →
        ∃ o2 : OpInfo T, g1[k]? = some o2 ∧ o2.forwarded = true := by
      rintro k ⟨o2, h2, hf2⟩
      by_cases hk : k ∈ (if b then [i] else [])
      · have := (hran1.run k o2 hk h2).1
        rw [hf2] at this; cases this
      · exact ⟨o2, by rw [hnone k hk]; exact h2, hf2⟩
    have hback : ∀ k, k ≠ i → ∀ o2 : OpInfo T, g1[k]? = some o2 → g[k]? = some o2 := by
      intro k hk o2 h2
      rw [← hnone k (by cases b <;> simp [hk])]; exact h2
    by_cases hr1 : r1 = ok ()
    · subst hr1
      have hsame := hran1.same g.length
      have hwf1 := hinv1.wf
      obtain ⟨g2, tr2, r2, e2, hinv2, hran2, hok2, hev2⟩ := ih hinv1 (by rw [hran1.len]; exact hroot)
        (fun j hj => hsame.needs h.wf hroot (hl j (by simp [hj])))
        (by
          intro l1 j l2 e a ha
          have hjl : j < g.length := by
            have := (hl j (by rw [e]; simp)).le h.wf; omega
          rw [← hsame.argsOf hjl] at ha
          rcases hord (i :: l1) j l2 (by rw [e]; rfl) a ha with h' | h'
          · rcases List.mem_cons.mp h' with h' | h'
            · right; rw [h']; exact hself1
            · exact Or.inl h'
          · exact Or.inr (hfwd _ h'))
      have hlt : ∀ j ∈ l, j < g.length := fun j hj => by
        have := (hl j (by simp [hj])).le h.wf; omega
      refine ⟨g2, if b then i :: tr2 else tr2, r2, ?_, ?_, ?_, ?_, ?_⟩
      · simp [fwRun, e1, e2]
      · have : tr ++ (if b then i :: tr2 else tr2) = (tr ++ (if b then [i] else [])) ++ tr2 := by cases b <;> simp
        rw [this]; exact hinv2
      · have hsplit : ∀ j, j ∈ (if b then i :: tr2 else tr2) ↔ j ∈ (if b then [i] else []) ∨ j ∈ tr2 := by
          intro j; cases b <;> simp
        refine ⟨by rw [hran2.len, hran1.len], ?_, ?_, ?_, ?_⟩
        · intro j hj
          rw [hsplit] at hj
          rw [hran2.frame j (fun h => hj (Or.inr h)), hran1.frame j (fun h => hj (Or.inl h))]
        · intro j o' hj ho'
          rw [hsplit] at hj
          by_cases hji : j ∈ (if b then [i] else [])
          · obtain ⟨hf, ys, hy, e⟩ := hran1.run j o' hji ho'
            have hj2 : j ∉ tr2 := by
              intro hj2
              have := (hran2.run j _ hj2 e).1
              cases this
            exact ⟨hf, ys, hy, by rw [hran2.frame j hj2]; exact e⟩
          · have hj2 := hj.resolve_left hji
            have := hran2.run j o' hj2 (by rw [hran1.frame j hji]; exact ho')
            exact this
        · cases b
          · exact (hran2.sub).cons i
          · exact (hran2.sub).cons_cons i
        · intro hr j hj
          rcases List.mem_cons.mp hj with rfl | hj
          · obtain ⟨o', ho', hf'⟩ := hself1
            by_cases hj2 : j ∈ tr2
            · have := (hran2.run j o' hj2 ho').1
              rw [hf'] at this; cases this
            · exact ⟨o', by rw [hran2.frame j hj2]; exact ho', hf'⟩
          · exact hran2.done hr j hj
      · intro hev
        apply hok2
        intro j hj
        exact (hsame.evaluable_iff h.wf hwf1 (hlt j hj)).mp (hev j (by simp [hj]))
      · intro hr hold
        -- the operator just treated is evaluable
        have hi_ev : Evaluable g i := by
          by_cases hf : o.forwarded = true
          · exact hold i o (hl i (by simp)) ho hf
          · have hargs_ev : ∀ a ∈ g.argsOf i, Evaluable g a.1 := by
              intro a ha
              obtain ⟨o', ho', hf'⟩ := hargs a ha
              exact hold a.1 o' ((hl i (by simp)).snoc ha) ho' hf'
            have := (hden1 hargs_ev (fun o' ho' => by
              rw [ho] at ho'
              obtain rfl := Option.some.inj ho'
              simpa using hf)).mp rfl
            intro k hk
            cases hk with
            | refl => exact this
            | arg ha hk => exact hargs_ev _ ha k hk
        intro j hj
        rcases List.mem_cons.mp hj with rfl | hj
        · exact hi_ev
        · refine (hsame.evaluable_iff h.wf hwf1 (hlt j hj)).mpr (hev2 hr ?_ j hj)
          intro k o' hk ho' hf'
          have hk' : Needs g root k := by
            have := SameOps.needs (n := g.length) (hsame.symm) hwf1 hroot hk
            exact this
          have hkl : k < g.length := by have := hk'.le h.wf; omega
          refine (hsame.evaluable_iff h.wf hwf1 hkl).mp ?_
          by_cases hki : k = i
          · subst hki; exact hi_ev
          · exact hold k o' hk' (hback k hki o' ho') hf'
    · have hfr : fwRun (i :: l) g = (g1, if b then [i] else [], r1) := by
        cases r1 with
        | ok u => exact absurd rfl hr1
        | panic => simp [fwRun, e1]
        | ub => simp [fwRun, e1]
      refine ⟨g1, if b then [i] else [], r1, hfr, hinv1, ?_, ?_, fun hr => absurd hr hr1⟩
      · refine ⟨hran1.len, hran1.frame, hran1.run, ?_, fun hr => absurd hr hr1⟩
        cases b <;> simp
      · intro hev
        exfalso
        apply hr1
        by_cases hf : o.forwarded = true
        · exact hold1 o ho hf
        · refine (hden1 ?_ ?_).mpr (hev i (by simp) i (.refl i))
          · intro a ha k hk
            exact hev i (by simp) k (.arg ha hk)
          · intro o' ho'
            rw [ho] at ho'
            obtain rfl := Option.some.inj ho'
            simpa using hf

/-- `forward`: invariant and effect. -/
theorem forward_spec {g : Graph T} {tr : List Nat} (h : Inv g tr) {root : Nat} (hroot : root < g.length) {g' : Graph T} {tr' : List Nat}
    {r : Res Unit} (hf : Forward g root g' tr' r) :
    Inv g' (tr ++ tr') ∧ ∃ popped, popped.Nodup ∧ (∀ j, j ∈ popped ↔ Needs g root j) ∧
      popped.Pairwise (fun i j => g.depthOf i ≤ g.depthOf j) ∧ Ran g g' popped tr' r ∧
      (Evaluable g root → r = ok ()) ∧
      (r = ok () → (∀ (j : Nat) (o : OpInfo T), Needs g root j → g[j]? = some o → o.forwarded = true → Evaluable g j) →
        Evaluable g root) := by
  obtain ⟨pushed, popped, hc, hp, hrun⟩ := hf
  obtain ⟨hnd, hmem, hord⟩ := popsMin_spec h.wf hroot hc hp
  obtain ⟨g2, tr2, r2, e2, hinv, hran, hok, hev⟩ := fwRun_spec root popped h hroot (fun i hi => (hmem i).mp hi)
    (fun l1 i l2 e a ha => Or.inl (hord l1 i l2 e a ha))
  rw [hrun] at e2
  simp only [Prod.mk.injEq] at e2
  obtain ⟨rfl, rfl, rfl⟩ := e2
  refine ⟨hinv, popped, hnd, hmem, hp.2, hran, ?_, ?_⟩
  · intro he
    apply hok
    intro i hi j hj
    exact he j (((hmem i).mp hi).trans hj)
  · intro hr hold
    exact hev hr hold root ((hmem root).mpr (.refl root))

theorem forward_exists {g : Graph T} (h : WF g) {root : Nat} (hroot : root < g.length) : ∃ g' tr r, Forward g root g' tr r := by
  obtain ⟨pushed, hc, _⟩ := collect_spec h hroot
  obtain ⟨popped, hp⟩ := popsMin_exists g pushed
  exact ⟨_, _, _, pushed, popped, hc, hp, rfl⟩

end Graph
end Verif
