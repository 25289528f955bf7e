import Verif.GraphSpec
import Mathlib.Data.List.Nodup
import Mathlib.Data.List.Perm.Basic
import Mathlib.Data.List.Sort

/-! # Lemmas about the computation graph -/

namespace Verif
open Res

theorem mapR_congr {A B : Type} {f h : A → Res B} {l : List A} (e : ∀ a ∈ l, f a = h a) : mapR f l = mapR h l := by
  induction l with
  | nil => rfl
  | cons a l ih =>
    simp only [mapR]
    rw [e a (by simp), ih (fun b hb => e b (by simp [hb]))]

theorem mapR_ok {A B : Type} {f : A → Res B} {l : List A} (h : ∀ a ∈ l, ∃ b, f a = ok b) : ∃ bs, mapR f l = ok bs := by
  induction l with
  | nil => exact ⟨[], rfl⟩
  | cons a l ih =>
    obtain ⟨b, hb⟩ := h a (by simp)
    obtain ⟨bs, hbs⟩ := ih (fun c hc => h c (by simp [hc]))
    exact ⟨b :: bs, by simp [mapR, hb, hbs]⟩

theorem mapR_length {A B : Type} {f : A → Res B} {l : List A} {bs : List B} (h : mapR f l = ok bs) : bs.length = l.length := by
  induction l generalizing bs with
  | nil => simp only [mapR, Res.ok.injEq] at h; subst h; rfl
  | cons a l ih =>
    simp only [mapR, Res.bind_eq_ok, Res.ok.injEq] at h
    obtain ⟨b, _, bs', hbs, rfl⟩ := h
    simp [ih hbs]

theorem mapR_get {A B : Type} {f : A → Res B} {l : List A} {bs : List B} (h : mapR f l = ok bs) {k : Nat} {a : A}
    (ha : l[k]? = some a) : ∃ b, bs[k]? = some b ∧ f a = ok b := by
  induction l generalizing bs k with
  | nil => simp at ha
  | cons c l ih =>
    simp only [mapR, Res.bind_eq_ok, Res.ok.injEq] at h
    obtain ⟨b, hb, bs', hbs, rfl⟩ := h
    cases k with
    | zero => simp at ha; subst ha; exact ⟨b, by simp, hb⟩
    | succ k => simpa using ih hbs (by simpa using ha)

theorem mapR_mem {A B : Type} {f : A → Res B} {l : List A} {bs : List B} (h : mapR f l = ok bs) {a : A} (ha : a ∈ l) :
    ∃ b, f a = ok b := by
  obtain ⟨k, hk⟩ := List.getElem?_of_mem ha
  obtain ⟨b, _, hb⟩ := mapR_get h hk
  exact ⟨b, hb⟩

theorem foldR_append {A S : Type} (f : S → A → Res S) (l l' : List A) (s : S) :
    foldR f (l ++ l') s = (foldR f l s >>= foldR f l') := by
  induction l generalizing s with
  | nil => rfl
  | cons a l ih =>
    simp only [List.cons_append, foldR, Res.bind_assoc]
    exact Res.bind_congr (fun s _ => ih s)

theorem foldR_congr {A S : Type} {f h : S → A → Res S} {l : List A} (e : ∀ a ∈ l, ∀ s, f s a = h s a) (s : S) :
    foldR f l s = foldR h l s := by
  induction l generalizing s with
  | nil => rfl
  | cons a l ih =>
    simp only [foldR]
    rw [e a (by simp)]
    exact Res.bind_congr (fun s _ => ih (fun b hb => e b (by simp [hb])) s)

namespace Graph
variable {T : Type}

theorem at'_eq_ok {B : Type} {l : List B} {i : Nat} {b : B} : at' l i = ok b ↔ l[i]? = some b := by
  unfold at'
  cases h : l[i]? <;> simp

theorem val_eq_ok {g : Graph T} {a : Nat × Nat} {t : T} : g.val a = ok t ↔ ∃ o, g[a.1]? = some o ∧ o.vals[a.2]? = some t := by
  simp [val, Res.bind_eq_ok, at'_eq_ok]

theorem grad_eq_ok {g : Graph T} {a : Nat × Nat} {t : T} : g.grad a = ok t ↔ ∃ o, g[a.1]? = some o ∧ o.grads[a.2]? = some t := by
  simp [grad, Res.bind_eq_ok, at'_eq_ok]

theorem argsOf_some {g : Graph T} {i : Nat} {o : OpInfo T} (h : g[i]? = some o) : g.argsOf i = o.args := by simp [argsOf, h]
theorem depthOf_some {g : Graph T} {i : Nat} {o : OpInfo T} (h : g[i]? = some o) : g.depthOf i = o.depth := by simp [depthOf, h]

/-- The part of an operator that never changes. -/
def stat (o : OpInfo T) : Oper T × List (Nat × Nat) × List T × Nat := (o.oper, o.args, o.init, o.depth)

/-- The first `n` operators are the same but for values, gradients and flags. -/
def SameOps (n : Nat) (g g' : Graph T) : Prop := ∀ i, i < n → (g[i]?).map stat = (g'[i]?).map stat

theorem SameOps.refl (n : Nat) (g : Graph T) : SameOps n g g := fun _ _ => rfl
theorem SameOps.symm {n : Nat} {g g' : Graph T} (h : SameOps n g g') : SameOps n g' g := fun i hi => (h i hi).symm
theorem SameOps.trans {n : Nat} {g g' g'' : Graph T} (h : SameOps n g g') (h' : SameOps n g' g'') : SameOps n g g'' :=
  fun i hi => (h i hi).trans (h' i hi)

theorem SameOps.some {n : Nat} {g g' : Graph T} (h : SameOps n g g') {i : Nat} (hi : i < n) {o : OpInfo T} (ho : g[i]? = some o) :
    ∃ o', g'[i]? = Option.some o' ∧ o'.oper = o.oper ∧ o'.args = o.args ∧ o'.init = o.init ∧ o'.depth = o.depth := by
  have := h i hi
  rw [ho] at this
  cases h' : g'[i]? with
  | none => simp [h'] at this
  | some o' =>
    simp [h', stat] at this
    exact ⟨o', rfl, this.1.symm, this.2.1.symm, this.2.2.1.symm, this.2.2.2.symm⟩

theorem SameOps.argsOf {n : Nat} {g g' : Graph T} (h : SameOps n g g') {i : Nat} (hi : i < n) : g.argsOf i = g'.argsOf i := by
  cases h1 : g[i]? with
  | none =>
    have := h i hi
    rw [h1] at this
    cases h2 : g'[i]? with
    | none => simp [Graph.argsOf, h1, h2]
    | some o => simp [h2] at this
  | some o =>
    obtain ⟨o', h2, _, ha, _⟩ := h.some hi h1
    simp [Graph.argsOf, h1, h2, ha]

theorem SameOps.depthOf {n : Nat} {g g' : Graph T} (h : SameOps n g g') {i : Nat} (hi : i < n) : g.depthOf i = g'.depthOf i := by
  cases h1 : g[i]? with
  | none =>
    have := h i hi
    rw [h1] at this
    cases h2 : g'[i]? with
    | none => simp [Graph.depthOf, h1, h2]
    | some o => simp [h2] at this
  | some o =>
    obtain ⟨o', h2, _, _, _, hd⟩ := h.some hi h1
    simp [Graph.depthOf, h1, h2, hd]

theorem den_some {g : Graph T} {i : Nat} {o : OpInfo T} (h : g[i]? = some o) : den g i = (do
    let xs ← mapR (fun a => if _h : a.1 < i then (do let ys ← den g a.1; at' ys a.2) else panic) o.args
    o.oper.fw xs o.init) := by
  rw [den, h]

theorem SameOps.den {n : Nat} {g g' : Graph T} (h : SameOps n g g') : ∀ {i : Nat}, i < n → den g i = den g' i := by
  intro i
  induction i using Nat.strong_induction_on with
  | _ i ih =>
    intro hi
    cases h1 : g[i]? with
    | none =>
      have := h i hi
      rw [h1] at this
      cases h2 : g'[i]? with
      | none => rw [Graph.den, Graph.den, h1, h2]
      | some o => simp [h2] at this
    | some o =>
      obtain ⟨o', h2, ho, ha, hin, _⟩ := h.some hi h1
      rw [den_some h1, den_some h2, ho, ha, hin]
      congr 1
      apply mapR_congr
      intro a _
      by_cases hlt : a.1 < i
      · simp only [hlt, dite_true]; rw [ih a.1 hlt (by omega)]
      · simp [hlt]

/-- Structural invariant. -/
structure WF (g : Graph T) : Prop where
  args : ∀ (i : Nat) (o : OpInfo T), g[i]? = some o → ∀ a ∈ o.args, a.1 < i ∧ ∃ o' : OpInfo T, g[a.1]? = some o' ∧ a.2 < o'.init.length ∧ o'.depth < o.depth
  lens : ∀ (i : Nat) (o : OpInfo T), g[i]? = some o → o.vals.length = o.init.length ∧ o.grads.length = o.init.length

theorem WF.lt {g : Graph T} (h : WF g) {i : Nat} {a : Nat × Nat} (ha : a ∈ g.argsOf i) : a.1 < i := by
  cases h1 : g[i]? with
  | none => simp [Graph.argsOf, h1] at ha
  | some o => rw [argsOf_some h1] at ha; exact (h.args i o h1 a ha).1

theorem WF.depth {g : Graph T} (h : WF g) {i : Nat} {a : Nat × Nat} (ha : a ∈ g.argsOf i) : g.depthOf a.1 < g.depthOf i := by
  cases h1 : g[i]? with
  | none => simp [Graph.argsOf, h1] at ha
  | some o =>
    rw [argsOf_some h1] at ha
    obtain ⟨_, o', ho', _, hd⟩ := h.args i o h1 a ha
    rw [depthOf_some h1, depthOf_some ho']; exact hd

theorem Needs.le {g : Graph T} (h : WF g) {i j : Nat} (hn : Needs g i j) : j ≤ i := by
  induction hn with
  | refl => exact Nat.le_refl _
  | arg ha _ ih => have := h.lt ha; omega

theorem Needs.trans {g : Graph T} {i j k : Nat} (h1 : Needs g i j) (h2 : Needs g j k) : Needs g i k := by
  induction h1 with
  | refl => exact h2
  | arg ha _ ih => exact .arg ha (ih h2)

theorem Needs.snoc {g : Graph T} {i j : Nat} {a : Nat × Nat} (h1 : Needs g i j) (ha : a ∈ g.argsOf j) : Needs g i a.1 :=
  h1.trans (.arg ha (.refl _))

theorem SameOps.needs {n : Nat} {g g' : Graph T} (hs : SameOps n g g') (hg : WF g) {i j : Nat} (hi : i < n) (h : Needs g i j) :
    Needs g' i j := by
  induction h with
  | refl => exact .refl _
  | arg ha _ ih =>
    have hlt := hg.lt ha
    exact .arg (by rw [← hs.argsOf hi]; exact ha) (ih (by omega))

theorem SameOps.wf {g g' : Graph T} (hs : SameOps g.length g g') (hl : g'.length = g.length) (hg : WF g)
    (hlens : ∀ (i : Nat) (o : OpInfo T), g'[i]? = Option.some o → o.vals.length = o.init.length ∧ o.grads.length = o.init.length) : WF g' := by
  refine ⟨fun i o ho a ha => ?_, hlens⟩
  have hi : i < g.length := by
    have := (List.getElem?_eq_some_iff.mp ho).1; omega
  obtain ⟨o1, h1, _, e, _, hd⟩ := hs.symm.some hi ho
  obtain ⟨hlt, o2, h2, hv, hdd⟩ := hg.args i o1 h1 a (by rw [e]; exact ha)
  obtain ⟨o3, h3, _, _, hin, hd3⟩ := hs.some (by omega) h2
  exact ⟨hlt, o3, h3, by rw [hin]; exact hv, by omega⟩

theorem SameOps.needs_iff {g g' : Graph T} (hs : SameOps g.length g g') (hg : WF g) (hg' : WF g') {i j : Nat}
    (hi : i < g.length) : Needs g i j ↔ Needs g' i j :=
  ⟨hs.needs hg hi, hs.symm.needs hg' hi⟩

theorem SameOps.evaluable_iff {g g' : Graph T} (hs : SameOps g.length g g') (hg : WF g) (hg' : WF g') {i : Nat}
    (hi : i < g.length) : Evaluable g i ↔ Evaluable g' i := by
  unfold Evaluable
  constructor
  · intro h j hj
    have hj' := hs.symm.needs hg' hi hj
    have hle := Needs.le hg hj'
    obtain ⟨ys, hy⟩ := h j hj'
    exact ⟨ys, by rw [← hs.den (by omega)]; exact hy⟩
  · intro h j hj
    have hle := Needs.le hg hj
    obtain ⟨ys, hy⟩ := h j (hs.needs hg hi hj)
    exact ⟨ys, by rw [hs.den (by omega)]; exact hy⟩

/-! ### The search -/

theorem visit_spec (args : List (Nat × Nat)) (q R : List Nat) : ∃ new, visit args (q, R) = (q ++ new, R ++ new) ∧ new.Nodup ∧
    (∀ x ∈ new, x ∉ R ∧ ∃ a ∈ args, a.1 = x) ∧ ∀ a ∈ args, a.1 ∈ R ++ new := by
  induction args generalizing q R with
  | nil => exact ⟨[], by simp [visit]⟩
  | cons a args ih =>
    by_cases h : a.1 ∈ R
    · obtain ⟨new, he, hn, hx, ha⟩ := ih q R
      refine ⟨new, ?_, hn, ?_, ?_⟩
      · simpa [visit, h] using he
      · intro x hx'
        obtain ⟨h1, b, hb, e⟩ := hx x hx'
        exact ⟨h1, b, by simp [hb], e⟩
      · intro b hb
        rcases List.mem_cons.mp hb with rfl | hb
        · simp [h]
        · exact ha b hb
    · obtain ⟨new, he, hn, hx, ha⟩ := ih (q ++ [a.1]) (R ++ [a.1])
      refine ⟨a.1 :: new, ?_, ?_, ?_, ?_⟩
      · simpa [visit, h] using he
      · refine List.nodup_cons.mpr ⟨fun hm => ?_, hn⟩
        exact (hx _ hm).1 (by simp)
      · intro x hx'
        rcases List.mem_cons.mp hx' with rfl | hx'
        · exact ⟨h, a, by simp, rfl⟩
        · obtain ⟨h1, b, hb, e⟩ := hx x hx'
          exact ⟨fun hm => h1 (by simp [hm]), b, by simp [hb], e⟩
      · intro b hb
        rcases List.mem_cons.mp hb with rfl | hb
        · simp
        · simpa using ha b hb

theorem bfs_spec {g : Graph T} (hg : WF g) (root : Nat) (n : Nat) (q R P : List Nat) (e : P ++ q = root :: R)
    (hnd : (root :: R).Nodup) (hR : ∀ x ∈ R, x < root) (hN : ∀ x ∈ root :: R, Needs g root x)
    (hP : ∀ i ∈ P, ∀ a ∈ g.argsOf i, a.1 ∈ R) (hn : root + 1 ≤ n + P.length) :
    ∃ pushed, bfs g n q R P = some pushed ∧ pushed.Nodup ∧ ∀ j, j ∈ pushed ↔ Needs g root j := by
  induction n generalizing q R P with
  | zero =>
    cases q with
    | nil =>
      simp at e
      refine ⟨P, by simp [bfs], by rw [e]; exact hnd, fun j => ?_⟩
      constructor
      · intro hj; exact hN j (by rw [← e]; exact hj)
      · intro hj
        have : ∀ i j, Needs g i j → i ∈ P → j ∈ P := by
          intro i j h
          induction h with
          | refl => exact id
          | arg ha _ ih => intro hi; exact ih (by rw [e]; exact List.mem_cons_of_mem _ (hP _ hi _ ha))
        exact this root j hj (by rw [e]; simp)
    | cons i q =>
      exfalso
      have h1 : (root :: R).length ≤ (List.range (root + 1)).length := by
        apply List.Subperm.length_le
        apply List.subperm_of_subset hnd
        intro x hx
        rcases List.mem_cons.mp hx with rfl | hx
        · simp
        · have := hR x hx; simp; omega
      have h2 := congrArg List.length e
      simp at h1 h2 hn
      omega
  | succ n ih =>
    cases q with
    | nil =>
      simp at e
      refine ⟨P, by simp [bfs], by rw [e]; exact hnd, fun j => ?_⟩
      constructor
      · intro hj; exact hN j (by rw [← e]; exact hj)
      · intro hj
        have : ∀ i j, Needs g i j → i ∈ P → j ∈ P := by
          intro i j h
          induction h with
          | refl => exact id
          | arg ha _ ih => intro hi; exact ih (by rw [e]; exact List.mem_cons_of_mem _ (hP _ hi _ ha))
        exact this root j hj (by rw [e]; simp)
    | cons i q =>
      obtain ⟨new, he, hnn, hx, ha⟩ := visit_spec (g.argsOf i) q R
      have hiN : Needs g root i := hN i (by rw [← e]; simp)
      have hile := hiN.le hg
      simp only [bfs, he]
      apply ih
      · rw [← List.cons_append, ← e]; simp
      · rw [← List.cons_append]
        refine List.nodup_append.mpr ⟨hnd, hnn, ?_⟩
        intro x hx1 y hy hxy
        subst hxy
        obtain ⟨h1, a, haa, rfl⟩ := hx x hy
        rcases List.mem_cons.mp hx1 with h | h
        · have := hg.lt haa; omega
        · exact h1 h
      · intro x hx'
        rcases List.mem_append.mp hx' with h | h
        · exact hR x h
        · obtain ⟨_, a, haa, rfl⟩ := hx x h
          have := hg.lt haa; omega
      · intro x hx'
        rw [← List.cons_append] at hx'
        rcases List.mem_append.mp hx' with h | h
        · exact hN x h
        · obtain ⟨_, a, haa, rfl⟩ := hx x h
          exact hiN.snoc haa
      · intro j hj a haj
        rcases List.mem_append.mp hj with h | h
        · exact List.mem_append_left _ (hP j h a haj)
        · simp at h; subst h
          exact ha a haj
      · simp; omega

theorem collect_spec {g : Graph T} (hg : WF g) {root : Nat} (hr : root < g.length) :
    ∃ pushed, collect g root = some pushed ∧ pushed.Nodup ∧ ∀ j, j ∈ pushed ↔ Needs g root j := by
  apply bfs_spec hg root
  · simp
  · simp
  · simp
  · intro x hx; simp at hx; subst hx; exact .refl _
  · simp
  · simp; omega

/-- The order in which `forward` goes through the operators. -/
theorem popsMin_spec {g : Graph T} (hg : WF g) {root : Nat} (hr : root < g.length) {pushed popped : List Nat}
    (hc : collect g root = some pushed) (hp : PopsMin g pushed popped) :
    popped.Nodup ∧ (∀ j, j ∈ popped ↔ Needs g root j) ∧
      ∀ l1 i l2, popped = l1 ++ i :: l2 → ∀ a ∈ g.argsOf i, a.1 ∈ l1 := by
  obtain ⟨p', hc', hnd, hm⟩ := collect_spec hg hr
  rw [hc] at hc'
  obtain rfl := Option.some.inj hc'
  have hmem : ∀ j, j ∈ popped ↔ Needs g root j := fun j => by rw [hp.1.mem_iff]; exact hm j
  refine ⟨hp.1.nodup_iff.mpr hnd, hmem, ?_⟩
  intro l1 i l2 e a ha
  have hd := hg.depth ha
  have : a.1 ∈ popped := (hmem _).mpr (((hmem i).mp (by rw [e]; simp)).snoc ha)
  have hpw := hp.2
  rw [e] at this hpw
  rcases List.mem_append.mp this with h | h
  · exact h
  · exfalso
    rcases List.mem_cons.mp h with h | h
    · have := hg.lt ha; omega
    · have := (List.pairwise_cons.mp (List.pairwise_append.mp hpw).2.1).1 _ h
      omega

/-- The order in which `backward` goes through the operators. -/
theorem popsMax_spec {g : Graph T} (hg : WF g) {root : Nat} (hr : root < g.length) {pushed popped : List Nat}
    (hc : collect g root = some pushed) (hp : PopsMax g pushed popped) :
    popped.Nodup ∧ (∀ j, j ∈ popped ↔ Needs g root j) ∧
      ∀ l1 i l2, popped = l1 ++ i :: l2 → ∀ a ∈ g.argsOf i, a.1 ∈ l2 := by
  obtain ⟨p', hc', hnd, hm⟩ := collect_spec hg hr
  rw [hc] at hc'
  obtain rfl := Option.some.inj hc'
  have hmem : ∀ j, j ∈ popped ↔ Needs g root j := fun j => by rw [hp.1.mem_iff]; exact hm j
  refine ⟨hp.1.nodup_iff.mpr hnd, hmem, ?_⟩
  intro l1 i l2 e a ha
  have hd := hg.depth ha
  have : a.1 ∈ popped := (hmem _).mpr (((hmem i).mp (by rw [e]; simp)).snoc ha)
  have hpw := hp.2
  rw [e] at this hpw
  rcases List.mem_append.mp this with h | h
  · exfalso
    have := (List.pairwise_append.mp hpw).2.2 _ h i (by simp)
    omega
  · rcases List.mem_cons.mp h with h | h
    · have := hg.lt ha; omega
    · exact h

theorem popsMin_exists (g : Graph T) (pushed : List Nat) : ∃ popped, PopsMin g pushed popped := by
  refine ⟨pushed.mergeSort (fun i j => decide (g.depthOf i ≤ g.depthOf j)), List.mergeSort_perm _ _, ?_⟩
  have := List.pairwise_mergeSort (le := fun i j => decide (g.depthOf i ≤ g.depthOf j))
    (fun a b c => by simp; omega) (fun a b => by simp; omega) pushed
  simpa using this

theorem popsMax_exists (g : Graph T) (pushed : List Nat) : ∃ popped, PopsMax g pushed popped := by
  refine ⟨pushed.mergeSort (fun i j => decide (g.depthOf j ≤ g.depthOf i)), List.mergeSort_perm _ _, ?_⟩
  have := List.pairwise_mergeSort (le := fun i j => decide (g.depthOf j ≤ g.depthOf i))
    (fun a b c => by simp; omega) (fun a b => by simp; omega) pushed
  simpa using this

theorem WF.vals_ok {g : Graph T} (h : WF g) {i : Nat} {o : OpInfo T} (ho : g[i]? = some o) : ∃ xs, mapR g.val o.args = ok xs := by
  apply mapR_ok
  intro a ha
  obtain ⟨_, o', ho', hlt, _⟩ := h.args i o ho a ha
  have := (h.lens _ o' ho').1
  exact ⟨o'.vals[a.2], val_eq_ok.mpr ⟨o', ho', by simp⟩⟩

end Graph
end Verif
