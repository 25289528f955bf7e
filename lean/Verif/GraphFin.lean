import Verif.PropsGraph

/-!
# What is in the results of an operator that was run, also when it panicked
-/

namespace Verif
open Res

namespace Graph
variable {T : Type}

/-- What the results of operator `i` contain once it was run: its arguments were run before; when its `forward` does not come to its end,
what it left in its slots.  (An argument is always an earlier operator.) -/
def fin (g : Graph T) (i : Nat) : List T :=
  match g[i]? with
  | none => []
  | some o =>
    match mapR (fun a => if _h : a.1 < i then at' (fin g a.1) a.2 else panic) o.args with
    | .ok xs =>
      match o.oper.fw xs o.init with
      | .ok ys => ys
      | _ => o.oper.left xs o.init
    | _ => o.init
termination_by i
decreasing_by assumption

theorem fin_some {g : Graph T} {i : Nat} {o : OpInfo T} (h : g[i]? = some o) : fin g i =
    match mapR (fun a => if _h : a.1 < i then at' (fin g a.1) a.2 else panic) o.args with
    | .ok xs =>
      match o.oper.fw xs o.init with
      | .ok ys => ys
      | _ => o.oper.left xs o.init
    | _ => o.init := by
  rw [fin, h]

theorem fin_length {g : Graph T} {i : Nat} {o : OpInfo T} (h : g[i]? = some o) : (fin g i).length = o.init.length := by
  rw [fin_some h]
  split
  · split
    · rename_i h; exact o.oper.fw_len _ _ _ h
    · exact o.oper.left_len _ _
  · rfl

theorem SameOps.fin {n : Nat} {g g' : Graph T} (h : SameOps n g g') : ∀ {i : Nat}, i < n → fin g i = fin g' i := by
  intro i
  induction i using Nat.strongRecOn with
  | _ i ih =>
    intro hi
    cases ho : g[i]? with
    | none =>
      have h2 := h i hi
      rw [ho] at h2
      cases ho' : g'[i]? with
      | none => rw [Graph.fin, Graph.fin, ho, ho']
      | some o' => rw [ho'] at h2; cases h2
    | some o =>
      obtain ⟨o', ho', h1, h2, h3, _⟩ := h.some hi ho
      rw [fin_some ho, fin_some ho', h1, h2, h3]
      have : mapR (fun a => if _h : a.1 < i then at' (Graph.fin g a.1) a.2 else panic) o.args =
          mapR (fun a => if _h : a.1 < i then at' (Graph.fin g' a.1) a.2 else panic) o.args := by
        apply mapR_congr
        intro a _
        split
        · rename_i hlt; rw [ih a.1 hlt (by omega)]
        · rfl
      rw [this]

/-- Operators that were run have the results they have to have. -/
def Settled (g : Graph T) : Prop := ∀ (i : Nat) (o : OpInfo T), g[i]? = some o → o.forwarded = true → o.vals = fin g i

theorem Settled.val {g : Graph T} (h : Settled g) {i : Nat} {o : OpInfo T} (ho : g[i]? = some o) (hf : o.forwarded = true) (k : Nat) :
    g.val (i, k) = at' (fin g i) k := by
  simp [Graph.val, at', ho, h i o ho hf]

theorem fwOne_settled {g : Graph T} {tr : List Nat} (hi : Inv g tr) (h : Settled g) {i : Nat} (hlt : i < g.length)
    (ha : ∀ a ∈ g.argsOf i, ∃ o' : OpInfo T, g[a.1]? = some o' ∧ o'.forwarded = true) : Settled (fwOne g i).1 := by
  obtain ⟨g1, b, r, e1, _, hran, _⟩ := fwOne_spec hi hlt ha
  obtain ⟨o, ho⟩ : ∃ o, g[i]? = some o := ⟨g[i], by simp [hlt]⟩
  rw [argsOf_some ho] at ha
  by_cases hf : o.forwarded = true
  · simp only [fwOne, ho, hf, if_true]; exact h
  · have hxs : mapR g.val o.args = mapR (fun a => if _h : a.1 < i then at' (fin g a.1) a.2 else panic) o.args := by
      apply mapR_congr
      intro a haa
      obtain ⟨o', ho', hf'⟩ := ha a haa
      rw [dif_pos (hi.wf.args i o ho a haa).1]
      exact h.val ho' hf' a.2
    have hv := hi.fresh i o ho (by simpa using hf)
    -- the values afterwards
    have hself : ∃ vs, (fwOne g i).1 = g.set i { o with forwarded := true, vals := vs } ∧ vs = fin g i := by
      unfold fwOne
      rw [ho]
      simp only [hf]
      rw [fin_some ho, ← hxs]
      obtain ⟨xs, hxs'⟩ := hi.wf.vals_ok ho
      simp only [leftOf, hxs', ok_bind, hv]
      cases hfw : o.oper.fw xs o.init with
      | ok ys => exact ⟨_, rfl, rfl⟩
      | panic => exact ⟨_, rfl, rfl⟩
      | ub => exact ⟨_, rfl, rfl⟩
    obtain ⟨vs, e2, hvs⟩ := hself
    have hg1 : (fwOne g i).1 = g1 := by rw [e1]
    intro j oj hoj hfj
    rw [hg1] at hoj ⊢
    have hjl : j < g.length := by rw [← hran.len]; exact mem_lt hoj
    rw [← (hran.same g.length).fin hjl]
    rw [← hg1, e2] at hoj
    by_cases hj : j = i
    · subst hj
      simp [hlt] at hoj
      rw [← hoj]; exact hvs
    · rw [List.getElem?_set_ne (Ne.symm hj)] at hoj
      exact h j oj hoj hfj

theorem fwRun_settled (q : List Nat) : ∀ (g : Graph T) (tr : List Nat), Inv g tr → Settled g → (∀ i ∈ q, i < g.length) →
    (∀ l1 i l2, q = l1 ++ i :: l2 → ∀ a ∈ g.argsOf i, a.1 ∈ l1 ∨ ∃ o' : OpInfo T, g[a.1]? = some o' ∧ o'.forwarded = true) →
    Settled (fwRun q g).1 := by
  induction q with
  | nil => intro g tr _ h _ _; exact h
  | cons k q ih =>
    intro g tr hinv h hql hqo
    have hargs : ∀ a ∈ g.argsOf k, ∃ o' : OpInfo T, g[a.1]? = some o' ∧ o'.forwarded = true := by
      intro a ha
      rcases hqo [] k q rfl a ha with h' | h'
      · simp at h'
      · exact h'
    have hs1 := fwOne_settled hinv h (hql k (by simp)) hargs
    obtain ⟨g1, b, r1, e1, hinv1, hran1, hself1, hden1, hold1⟩ := fwOne_spec hinv (hql k (by simp)) hargs
    rw [e1] at hs1
    unfold fwRun
    rw [e1]
    cases r1 with
    | ok u =>
      cases u
      refine ih g1 _ hinv1 hs1 (fun i hi => by rw [hran1.len]; exact hql i (by simp [hi])) ?_
      intro l1 j l2 e a ha
      have hjl := hql j (by rw [e]; simp)
      rw [← (hran1.same g.length).argsOf hjl] at ha
      rcases hqo (k :: l1) j l2 (by rw [e]; rfl) a ha with h' | h'
      · rcases List.mem_cons.mp h' with h' | h'
        · right; rw [h']; exact hself1
        · exact Or.inl h'
      · right
        obtain ⟨o2, h2, hf2⟩ := h'
        by_cases hk : a.1 ∈ (if b then [k] else [])
        · have := (hran1.run a.1 o2 hk h2).1
          rw [hf2] at this; cases this
        · exact ⟨o2, by rw [hran1.frame _ hk]; exact h2, hf2⟩
    | panic => exact hs1
    | ub => exact hs1

theorem forward_settled {g g' : Graph T} {tr : List Nat} (hi : Inv g tr) (h : Settled g) {root : Nat} (hr : root < g.length) {tr' : List Nat}
    {r : Res Unit} (hf : Forward g root g' tr' r) : Settled g' := by
  obtain ⟨pushed, popped, hc, hp, hrun⟩ := hf
  obtain ⟨hnd, hmem, hord⟩ := popsMin_spec hi.wf hr hc hp
  have := fwRun_settled popped g tr hi h (fun i hin => by have := ((hmem i).mp hin).le hi.wf; omega)
    (fun l1 i l2 e a ha => Or.inl (hord l1 i l2 e a ha))
  rw [hrun] at this
  exact this

theorem SameValues.settled {g g' : Graph T} (h : SameValues g g') (hg : Settled g) : Settled g' := by
  intro i o' ho' hf
  have hi : i < g.length := by rw [h.1]; exact mem_lt ho'
  obtain ⟨gr, sk, _, e⟩ := h.2 i g[i] (List.getElem?_eq_getElem hi)
  rw [ho'] at e
  obtain rfl := Option.some.inj e
  rw [← (h.same g.length).fin hi]
  exact hg i g[i] (List.getElem?_eq_getElem hi) hf

theorem create_settled {C : TensorLike T} {g g' : Graph T} (hg : Settled g) {op : Oper T} {sink : Option T} {args : List (Nat × Nat)}
    (hc : create C g op sink args = ok g') : Settled g' := by
  simp only [create, Res.bind_eq_ok, Res.ok.injEq] at hc
  obtain ⟨xs, _, ss, _, rfl⟩ := hc
  intro i o ho hf
  by_cases hi : i < g.length
  · have hs : SameOps g.length g (g ++ [⟨op, args, ss.map op.null, ss.map op.null, ss.map op.null, false,
        (args.map fun a => g.depthOf a.1).foldl max 0 + 1, sink⟩]) := fun j hj => by rw [List.getElem?_append_left hj]
    rw [← hs.fin hi]
    rw [List.getElem?_append_left hi] at ho
    exact hg i o ho hf
  · have hl := (List.getElem?_eq_some_iff.mp ho).1
    simp at hl
    have : i = g.length := by omega
    subst this
    simp at ho
    subst ho
    cases hf

theorem Hist.settled {C : TensorLike T} {g : Graph T} {tr : List Nat} (h : Hist C g tr) : Settled g := by
  induction h with
  | empty => intro i o h; simp at h
  | create _ hc ih => exact create_settled ih hc
  | forward hh hr hf ih => exact forward_settled hh.inv ih hr hf
  | backward hh hr hf hb ih =>
    obtain ⟨h1, _, _, _, _, hran, _⟩ := forward_spec hh.inv hr hf
    exact (backward_spec h1.wf (by rw [hran.len]; exact hr) hb).2.2.2.same.settled (forward_settled hh.inv ih hr hf)
  | backwardPanic hh hr hf _ hs ih => exact hs.settled (forward_settled hh.inv ih hr hf)

/-- An expression with a value: the results are this value. -/
theorem fin_of_den {g : Graph T} (hg : WF g) {i : Nat} {ys : List T} (h : den g i = ok ys) : fin g i = ys := by
  induction i using Nat.strongRecOn generalizing ys with
  | _ i ih =>
    cases ho : g[i]? with
    | none => rw [den, ho] at h; cases h
    | some o =>
      rw [den_some ho, Res.bind_eq_ok] at h
      obtain ⟨xs, hxs, hfw⟩ := h
      have : mapR (fun a => if _h : a.1 < i then at' (fin g a.1) a.2 else panic) o.args = ok xs := by
        rw [← hxs]
        apply mapR_congr
        intro a ha
        have hlt := (hg.args i o ho a ha).1
        obtain ⟨b, hb⟩ := mapR_mem hxs ha
        rw [dif_pos hlt] at hb ⊢
        rw [dif_pos hlt]
        rw [Res.bind_eq_ok] at hb
        obtain ⟨zs, hz, _⟩ := hb
        rw [hz, ok_bind, ih a.1 hlt hz]
      rw [fin_some ho, this]
      simp only [hfw]

end Graph
end Verif
