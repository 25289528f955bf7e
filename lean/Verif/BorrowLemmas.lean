import Verif.Borrow
import Verif.GraphBw

/-! # `forward` and `backward` with borrow flags -/

namespace Verif
open Res

namespace Flags

/-- Nobody has a `RefMut`. -/
def Calm (c : Flags) : Prop := ∀ a, 0 ≤ c a

def plus (c : Flags) (l : List (Nat × Nat)) : Flags := fun b => c b + (l.count b : Int)
def minus (c : Flags) (l : List (Nat × Nat)) : Flags := fun b => c b - (l.count b : Int)

theorem Calm.plus {c : Flags} (h : c.Calm) (l : List (Nat × Nat)) : (c.plus l).Calm := by
  intro a; have := h a; unfold Flags.plus; omega

theorem dropRefs_eq (l : List (Nat × Nat)) (c : Flags) : c.dropRefs l = c.minus l := by
  induction l generalizing c with
  | nil => funext b; simp [dropRefs, minus]
  | cons a l ih =>
    show (c.add a (-1)).dropRefs l = _
    rw [ih]
    funext b
    simp only [minus, add, List.count_cons]
    by_cases h : b = a
    · subst h; simp; omega
    · have : (a == b) = false := by simpa using fun e => h e.symm
      simp [h, this]

theorem dropMuts_eq (l : List (Nat × Nat)) (c : Flags) : c.dropMuts l = c.plus l := by
  induction l generalizing c with
  | nil => funext b; simp [dropMuts, plus]
  | cons a l ih =>
    show (c.add a 1).dropMuts l = _
    rw [ih]
    funext b
    simp only [plus, add, List.count_cons]
    by_cases h : b = a
    · subst h; simp; omega
    · have : (a == b) = false := by simpa using fun e => h e.symm
      simp [h, this]

theorem shared_ok {c : Flags} (h : c.Calm) (a : Nat × Nat) : c.shared a = ok (c.plus [a]) := by
  unfold shared
  rw [if_pos (h a)]
  congr 1
  funext b
  simp only [add, plus, List.count_cons, List.count_nil]
  by_cases e : b = a
  · subst e; simp
  · have : (a == b) = false := by simpa using fun q => e q.symm
    simp [e, this]

theorem shareds_ok (l : List (Nat × Nat)) {c : Flags} (h : c.Calm) : foldR shared l c = ok (c.plus l) := by
  induction l generalizing c with
  | nil => simp only [foldR]; congr 1; funext b; simp [plus]
  | cons a l ih =>
    simp only [foldR, shared_ok h a, ok_bind]
    rw [ih (h.plus _)]
    congr 1
    funext b
    simp only [plus, List.count_cons, List.count_nil]
    push_cast
    omega

theorem excls_ok (l : List (Nat × Nat)) (hl : l.Nodup) {c : Flags} (h : ∀ a ∈ l, c a = 0) : foldR excl l c = ok (c.minus l) := by
  induction l generalizing c with
  | nil => simp only [foldR]; congr 1; funext b; simp [minus]
  | cons a l ih =>
    obtain ⟨ha, hl⟩ := List.nodup_cons.mp hl
    have e : c.excl a = ok (c.add a (-1)) := by unfold excl; rw [if_pos (h a List.mem_cons_self)]
    simp only [foldR, e, ok_bind]
    rw [ih hl fun b hb => by
      have : b ≠ a := fun q => ha (q ▸ hb)
      simp only [add, this, if_false]; exact h b (List.mem_cons_of_mem _ hb)]
    have := dropRefs_eq (a :: l) c
    rw [← this, ← dropRefs_eq]
    rfl

theorem excls_panic (l : List (Nat × Nat)) (hl : l.Nodup) {c : Flags} (h : ∃ a ∈ l, c a ≠ 0) : foldR excl l c = panic := by
  induction l generalizing c with
  | nil => obtain ⟨a, ha, _⟩ := h; cases ha
  | cons a l ih =>
    obtain ⟨ha, hl⟩ := List.nodup_cons.mp hl
    by_cases h0 : c a = 0
    · have e : c.excl a = ok (c.add a (-1)) := by unfold excl; rw [if_pos h0]
      simp only [foldR, e, ok_bind]
      apply ih hl
      obtain ⟨b, hb, hn⟩ := h
      rcases List.mem_cons.mp hb with rfl | hb
      · exact (hn h0).elim
      · have : b ≠ a := fun q => ha (q ▸ hb)
        exact ⟨b, hb, by simp only [add, this, if_false]; exact hn⟩
    · have e : c.excl a = panic := by unfold excl; rw [if_neg h0]
      simp only [foldR, e]; rfl

theorem count_zero {l : List (Nat × Nat)} {b : Nat × Nat} (h : b ∉ l) : l.count b = 0 := List.count_eq_zero.mpr h

end Flags

namespace Graph
variable {T : Type} {C : TensorLike T}

theorem cellsOf_nodup (i : Nat) (o : OpInfo T) : (cellsOf i o).Nodup :=
  List.Nodup.map (fun a b h => by cases h; rfl) List.nodup_range

theorem mem_cellsOf {i : Nat} {o : OpInfo T} {a : Nat × Nat} : a ∈ cellsOf i o ↔ a.1 = i ∧ a.2 < o.vals.length := by
  unfold cellsOf
  simp only [List.mem_map, List.mem_range]
  constructor
  · rintro ⟨k, hk, rfl⟩; exact ⟨rfl, hk⟩
  · rintro ⟨rfl, h⟩; exact ⟨a.2, h, rfl⟩

/-- The operator cannot be run because a `Ref` of one of its values is alive. -/
def Blocked (V : Flags) (g : Graph T) (i : Nat) : Prop := ∃ o, g[i]? = some o ∧ o.forwarded = false ∧ ∃ k, k < o.vals.length ∧ V (i, k) ≠ 0

theorem fwOneB_free {V : Flags} (hV : V.Calm) {g : Graph T} (hg : WF g) {i : Nat} (hb : ¬ Blocked V g i) : fwOneB V g i = (V, fwOne g i) := by
  unfold fwOneB fwOne
  cases ho : g[i]? with
  | none => rfl
  | some o =>
    dsimp only
    by_cases hf : o.forwarded = true
    · simp [hf]
    · have hf' : o.forwarded = false := by simpa using hf
      simp only [hf', Bool.false_eq_true, if_false]
      obtain ⟨xs, hxs⟩ := hg.vals_ok ho
      have h0 : ∀ a ∈ cellsOf i o, V.plus o.args a = 0 := by
        intro a ha
        obtain ⟨h1, h2⟩ := mem_cellsOf.mp ha
        have hv : V (i, a.2) = 0 := by
          by_contra hne
          exact hb ⟨o, ho, hf', a.2, h2, hne⟩
        have hn : a ∉ o.args := by
          intro hm
          have := (hg.args i o ho a hm).1
          omega
        have e : (i, a.2) = a := by rw [← h1]
        rw [e] at hv
        simp [Flags.plus, hv, Flags.count_zero hn]
      rw [hxs]
      simp only [ok_bind, Flags.shareds_ok _ hV, Flags.excls_ok _ (cellsOf_nodup i o) h0, Flags.dropMuts_eq, Flags.dropRefs_eq, leftOf, hxs]
      cases o.oper.fw xs o.vals with
      | ok ys =>
        simp only
        congr 1
        funext b
        simp only [Flags.plus, Flags.minus]
        omega
      | panic => rfl
      | ub => rfl

theorem fwOneB_blocked {V : Flags} (hV : V.Calm) {g : Graph T} (hg : WF g) {i : Nat} {o : OpInfo T} (ho : g[i]? = some o) (hb : Blocked V g i) :
    fwOneB V g i = (V, g.set i { o with forwarded := true }, true, panic) := by
  obtain ⟨o', ho', hf, k, hk, hne⟩ := hb
  rw [ho] at ho'
  obtain rfl := Option.some.inj ho'
  unfold fwOneB
  rw [ho]
  simp only [hf, Bool.false_eq_true, if_false]
  obtain ⟨xs, hxs⟩ := hg.vals_ok ho
  rw [hxs]
  simp only [ok_bind, Flags.shareds_ok _ hV]
  rw [Flags.excls_panic _ (cellsOf_nodup i o) ⟨(i, k), mem_cellsOf.mpr ⟨rfl, hk⟩, by
    have := hV (i, k)
    unfold Flags.plus
    omega⟩]
  rfl

/-- What one iteration does to the graph. -/
theorem fwOne_set {g : Graph T} {i : Nat} : (fwOne g i).1 = g ∨ ∃ o ys, g[i]? = some o ∧ o.forwarded = false ∧ ys.length = o.vals.length ∧
    (fwOne g i).1 = g.set i { o with forwarded := true, vals := ys } := by
  unfold fwOne
  cases ho : g[i]? with
  | none => exact .inl rfl
  | some o =>
    dsimp only
    by_cases hf : o.forwarded = true
    · simp [hf]
    · have hf' : o.forwarded = false := by simpa using hf
      simp only [hf', Bool.false_eq_true, if_false]
      right
      refine ⟨o, ?_⟩
      cases h : (do let xs ← mapR g.val o.args; o.oper.fw xs o.vals) with
      | ok ys =>
        simp only [Res.bind_eq_ok] at h
        obtain ⟨xs, _, h⟩ := h
        exact ⟨ys, rfl, hf', o.oper.fw_len _ _ _ h, rfl⟩
      | panic => exact ⟨g.leftOf o, rfl, hf', g.leftOf_length o, rfl⟩
      | ub => exact ⟨g.leftOf o, rfl, hf', g.leftOf_length o, rfl⟩

/-- `g'` is `g` with some operators run. -/
structure Step (g g' : Graph T) : Prop where
  len : g'.length = g.length
  same : ∀ (j : Nat) (o : OpInfo T), g[j]? = some o → ∃ b ys, ys.length = o.vals.length ∧ g'[j]? = some { o with forwarded := b, vals := ys } ∧
    (o.forwarded = true → b = true ∧ ys = o.vals) ∧ (b = false → ys = o.vals)

theorem Step.refl (g : Graph T) : Step g g := ⟨rfl, fun _ o h => ⟨o.forwarded, o.vals, rfl, h, fun e => ⟨e, rfl⟩, fun _ => rfl⟩⟩

theorem Step.trans {g g' g'' : Graph T} (h : Step g g') (h' : Step g' g'') : Step g g'' := by
  refine ⟨h'.len.trans h.len, fun j o ho => ?_⟩
  obtain ⟨b, ys, hl, e, h1, h2⟩ := h.same j o ho
  obtain ⟨b', ys', hl', e', h1', h2'⟩ := h'.same j _ e
  refine ⟨b', ys', hl'.trans hl, e', fun hf => ?_, fun hb => ?_⟩
  · obtain ⟨rfl, rfl⟩ := h1 hf
    exact h1' rfl
  · have hys := h2' hb
    cases b with
    | true => have := (h1' rfl).1; rw [hb] at this; cases this
    | false => rw [hys]; exact h2 rfl

theorem Step.set {g : Graph T} {i : Nat} {o : OpInfo T} (ho : g[i]? = some o) (hf : o.forwarded = false) {ys : List T} (hl : ys.length = o.vals.length) :
    Step g (g.set i { o with forwarded := true, vals := ys }) := by
  refine ⟨by simp, fun j o' ho' => ?_⟩
  by_cases hj : j = i
  · subst hj
    rw [ho] at ho'
    obtain rfl := Option.some.inj ho'
    exact ⟨true, ys, hl, by simp [mem_lt ho], (fun e => by rw [hf] at e; cases e), (fun e => by cases e)⟩
  · exact ⟨o'.forwarded, o'.vals, rfl, by rw [List.getElem?_set_ne (Ne.symm hj)]; exact ho', fun e => ⟨e, rfl⟩, fun _ => rfl⟩

theorem fwOne_step (g : Graph T) (i : Nat) : Step g (fwOne g i).1 := by
  rcases fwOne_set (g := g) (i := i) with h | ⟨o, ys, h1, h2, h3, h4⟩
  · rw [h]; exact Step.refl g
  · rw [h4]; exact Step.set h1 h2 h3

theorem Step.sameOps {g g' : Graph T} (h : Step g g') (n : Nat) : SameOps n g g' := by
  intro i _
  cases ho : g[i]? with
  | none =>
    have : g'[i]? = none := by rw [List.getElem?_eq_none_iff] at ho ⊢; rw [h.len]; exact ho
    simp [this]
  | some o =>
    obtain ⟨b, ys, _, e, _⟩ := h.same i o ho
    simp [e, stat]

theorem Step.wf {g g' : Graph T} (h : Step g g') (hg : WF g) : WF g' := by
  refine SameOps.wf (h.sameOps _) h.len hg fun i o ho => ?_
  have hi : i < g.length := by rw [← h.len]; exact mem_lt ho
  obtain ⟨b, ys, hl, e, _⟩ := h.same i g[i] (by simp [hi])
  rw [ho] at e
  obtain rfl := Option.some.inj e
  have := hg.lens i g[i] (by simp [hi])
  exact ⟨hl.trans this.1, this.2⟩

/-- Operators that are run stay unblocked; those that are not run stay blocked. -/
theorem Step.blocked {V : Flags} {g g' : Graph T} (h : Step g g') {i : Nat} (hb : Blocked V g' i) : Blocked V g i := by
  obtain ⟨o, ho, hf, k, hk, hne⟩ := hb
  have hi : i < g.length := by rw [← h.len]; exact mem_lt ho
  obtain ⟨b, ys, hl, e, h1, _⟩ := h.same i g[i] (by simp [hi])
  rw [ho] at e
  obtain rfl := Option.some.inj e
  refine ⟨g[i], by simp [hi], ?_, k, by rw [← hl]; exact hk, hne⟩
  cases hfo : g[i].forwarded with
  | false => rfl
  | true =>
    have := (h1 hfo).1
    simp only at hf
    rw [this] at hf; cases hf

theorem fwRunB_free (l : List Nat) {V : Flags} (hV : V.Calm) {g : Graph T} (hg : WF g) (hb : ∀ i ∈ l, ¬ Blocked V g i) : fwRunB l V g = (V, fwRun l g) := by
  induction l generalizing g with
  | nil => rfl
  | cons i l ih =>
    simp only [fwRunB, fwRun, fwOneB_free hV hg (hb i List.mem_cons_self)]
    have hs := fwOne_step g i
    generalize fwOne g i = q at hs ⊢
    obtain ⟨g1, b, r⟩ := q
    cases r with
    | ok u =>
      have := ih (g := g1) (hs.wf hg) fun j hj hbl => hb j (List.mem_cons_of_mem _ hj) (hs.blocked hbl)
      simp only [this]
    | panic => rfl
    | ub => rfl

theorem fwOne_frame {g : Graph T} {i j : Nat} (hj : j ≠ i) : (fwOne g i).1[j]? = g[j]? := by
  rcases fwOne_set (g := g) (i := i) with h | ⟨o, ys, _, _, _, h4⟩
  · rw [h]
  · rw [h4, List.getElem?_set_ne (Ne.symm hj)]

theorem Blocked.frame {V : Flags} {g g' : Graph T} {i : Nat} (e : g'[i]? = g[i]?) (h : Blocked V g i) : Blocked V g' i := by
  obtain ⟨o, ho, hx⟩ := h
  exact ⟨o, by rw [e]; exact ho, hx⟩

/-- When an operator of the list is blocked, the loop does not come to its end. -/
theorem fwRunB_blocked (l : List Nat) (hl : l.Nodup) {V : Flags} (hV : V.Calm) {g : Graph T} (hg : WF g) {i : Nat} (hi : i ∈ l) (hb : Blocked V g i) :
    (fwRunB l V g).2.2.2 ≠ ok () ∧
    ((fwRun l g).2.2 = ok () → ∃ j o tr, j ∈ l ∧ Blocked V g j ∧ g[j]? = some o ∧ (fwRunB l V g).1 = V ∧ (fwRunB l V g).2.1[j]? = some { o with forwarded := true } ∧
      (fwRunB l V g).2.2.1 = tr ++ [j] ∧ (fwRunB l V g).2.2.2 = panic) := by
  induction l generalizing g with
  | nil => cases hi
  | cons k l ih =>
    obtain ⟨hk, hl⟩ := List.nodup_cons.mp hl
    by_cases hbk : Blocked V g k
    · obtain ⟨o, ho, hx⟩ := hbk
      simp only [fwRunB, fwOneB_blocked hV hg ho ⟨o, ho, hx⟩]
      refine ⟨by simp, fun _ => ⟨k, o, [], List.mem_cons_self, ⟨o, ho, hx⟩, ho, ?_⟩⟩
      simp [mem_lt ho]
    · have hik : i ≠ k := fun e => hbk (e ▸ hb)
      have hil : i ∈ l := (List.mem_cons.mp hi).resolve_left hik
      simp only [fwRunB, fwRun, fwOneB_free hV hg hbk]
      have hs := fwOne_step g k
      have hfr : ∀ j, j ≠ k → (fwOne g k).1[j]? = g[j]? := fun j hj => fwOne_frame hj
      generalize fwOne g k = q at hs hfr ⊢
      obtain ⟨g1, b, r⟩ := q
      cases r with
      | panic => exact ⟨by simp, fun h => by simp at h⟩
      | ub => exact ⟨by simp, fun h => by simp at h⟩
      | ok u =>
        obtain ⟨h1, h2⟩ := ih hl (g := g1) (hs.wf hg) hil (hb.frame (hfr i hik))
        refine ⟨h1, fun h => ?_⟩
        obtain ⟨j, o, tr, hj, hbj, ho, e0, e1, e2, e3⟩ := h2 h
        have hjk : j ≠ k := fun e => hk (e ▸ hj)
        refine ⟨j, o, if b then k :: tr else tr, List.mem_cons_of_mem _ hj, hs.blocked hbj, by rw [← hfr j hjk]; exact ho, e0, e1, ?_, e3⟩
        dsimp only
        rw [e2]
        cases b <;> rfl

/-- Whatever the flags, the loop only runs operators that were not run. -/
theorem fwOneB_step (V : Flags) (g : Graph T) (i : Nat) : Step g (fwOneB V g i).2.1 := by
  unfold fwOneB
  cases ho : g[i]? with
  | none => exact Step.refl g
  | some o =>
    dsimp only
    by_cases hf : o.forwarded = true
    · simp only [hf, if_true]; exact Step.refl g
    · have hf' : o.forwarded = false := by simpa using hf
      simp only [hf', Bool.false_eq_true, if_false]
      split
      · next xs V' h =>
        split
        · next ys h => exact Step.set ho hf' (o.oper.fw_len _ _ _ h)
        · exact Step.set ho hf' (o.oper.left_len _ _)
        · exact Step.set ho hf' (o.oper.left_len _ _)
      · exact Step.set ho hf' rfl
      · exact Step.set ho hf' rfl

theorem fwRunB_step (l : List Nat) (V : Flags) (g : Graph T) : Step g (fwRunB l V g).2.1 := by
  induction l generalizing V g with
  | nil => exact Step.refl g
  | cons i l ih =>
    simp only [fwRunB]
    have hs := fwOneB_step V g i
    generalize fwOneB V g i = q at hs ⊢
    obtain ⟨V1, g1, b, r⟩ := q
    cases r with
    | ok u => exact hs.trans (ih V1 g1)
    | panic => exact hs
    | ub => exact hs

theorem fwRunB_calm (l : List Nat) {V : Flags} (hV : V.Calm) {g : Graph T} (hg : WF g) : (fwRunB l V g).1 = V := by
  induction l generalizing g with
  | nil => rfl
  | cons i l ih =>
    simp only [fwRunB]
    have h1 : (fwOneB V g i).1 = V := by
      by_cases hb : Blocked V g i
      · obtain ⟨o, ho, hx⟩ := hb
        rw [fwOneB_blocked hV hg ho ⟨o, ho, hx⟩]
      · rw [fwOneB_free hV hg hb]
    have hs := fwOneB_step V g i
    generalize fwOneB V g i = q at hs h1 ⊢
    obtain ⟨V1, g1, b, r⟩ := q
    obtain rfl : V1 = V := h1
    cases r with
    | ok u => exact ih (hs.wf hg)
    | panic => rfl
    | ub => rfl

/-! ### backward -/

theorem mapR_range {B D : Type} (f : B → Res D) (l : List B) : mapR (fun k => do let t ← at' l k; f t) (List.range l.length) = mapR f l := by
  suffices h : ∀ (pre l : List B), mapR (fun k => do let t ← at' (pre ++ l) k; f t) (List.range' pre.length l.length) = mapR f l by
    have := h [] l
    simpa [List.range_eq_range'] using this
  intro pre l
  induction l generalizing pre with
  | nil => rfl
  | cons a l ih =>
    simp only [List.length_cons, List.range'_succ, mapR]
    have e : at' (pre ++ a :: l) pre.length = ok a := by simp [at']
    rw [e, ok_bind]
    have := ih (pre ++ [a])
    simp only [List.append_assoc, List.singleton_append, List.length_append, List.length_singleton] at this
    rw [this]

theorem seedB_free {G : Flags} {g : Graph T} (hg : WF g) {root : Nat} (hG : ∀ o, g[root]? = some o → ∀ k < o.vals.length, G (root, k) = 0) :
    seedB C G g root = seed C g root := by
  unfold seedB seed
  cases ho : g[root]? with
  | none => simp [at', ho]
  | some o =>
    have e : at' g root = ok o := at'_eq_ok.mpr ho
    rw [e, ok_bind, ok_bind]
    have hl : o.vals.length = o.grads.length := by rw [(hg.lens _ o ho).1, (hg.lens _ o ho).2]
    have : mapR (fun k => do
        let _ ← G.excl (root, k)
        let t ← at' o.grads k
        C.ones t) (List.range o.vals.length) = mapR C.ones o.grads := by
      rw [← mapR_range C.ones o.grads, ← hl]
      apply mapR_congr
      intro k hk
      rw [List.mem_range] at hk
      simp only [Flags.excl, hG o ho k hk, if_true, ok_bind]
    rw [this]

theorem seedB_held {G : Flags} {g g' : Graph T} {root : Nat} (h : seedB C G g root = ok g') {o : OpInfo T} (ho : g[root]? = some o) {k : Nat} (hk : k < o.vals.length) :
    G (root, k) = 0 := by
  unfold seedB at h
  rw [at'_eq_ok.mpr ho, ok_bind] at h
  simp only [Res.bind_eq_ok] at h
  obtain ⟨gs, h, _⟩ := h
  obtain ⟨b, hb⟩ := mapR_mem h (List.mem_range.mpr hk)
  simp only [Res.bind_eq_ok] at hb
  obtain ⟨_, hb, _⟩ := hb
  unfold Flags.excl at hb
  by_contra hne
  rw [if_neg hne] at hb
  cases hb

theorem excl_drop {G : Flags} {a : Nat × Nat} (h : G a = 0) : ∃ G', G.excl a = ok G' ∧ G'.dropMuts [a] = G := by
  refine ⟨G.add a (-1), by unfold Flags.excl; rw [if_pos h], ?_⟩
  funext b
  simp only [Flags.dropMuts, List.foldl_cons, List.foldl_nil, Flags.add]
  by_cases hb : b = a
  · subst hb; simp
  · simp [hb]

theorem excl_ok {G G' : Flags} {a : Nat × Nat} (h : G.excl a = ok G') : G a = 0 := by
  unfold Flags.excl at h
  by_contra hne
  rw [if_neg hne] at h; cases h

theorem ensureB_free {G : Flags} {a : Nat × Nat} (h : G a = 0) (g : Graph T) : ensureB C (G, g) a = (ensure C g a >>= fun g' => ok (G, g')) := by
  obtain ⟨G', e, e'⟩ := excl_drop h
  simp only [ensureB, e, ok_bind, e']

theorem ensuresB_free (l : List (Nat × Nat)) {G : Flags} (h : ∀ a ∈ l, G a = 0) (g : Graph T) :
    foldR (ensureB C) l (G, g) = (foldR (ensure C) l g >>= fun g' => ok (G, g')) := by
  induction l generalizing g with
  | nil => rfl
  | cons a l ih =>
    simp only [foldR, ensureB_free (h a List.mem_cons_self), Res.bind_assoc, ok_bind]
    congr 1
    funext g1
    exact ih (fun b hb => h b (List.mem_cons_of_mem _ hb)) g1

theorem ensuresB_held (l : List (Nat × Nat)) {s s' : Flags × Graph T} (h : foldR (ensureB C) l s = ok s') : ∀ a ∈ l, s.1 a = 0 := by
  induction l generalizing s with
  | nil => intro a ha; cases ha
  | cons b l ih =>
    obtain ⟨G, g⟩ := s
    simp only [foldR, Res.bind_eq_ok] at h
    obtain ⟨s1, h1, h2⟩ := h
    have h0 : G b = 0 := by
      simp only [ensureB, Res.bind_eq_ok] at h1
      obtain ⟨_, h1, _⟩ := h1
      exact excl_ok h1
    rw [ensureB_free h0] at h1
    simp only [Res.bind_eq_ok, Res.ok.injEq] at h1
    obtain ⟨g1, _, rfl⟩ := h1
    intro a ha
    rcases List.mem_cons.mp ha with rfl | ha
    · exact h0
    · exact ih h2 a ha

theorem updatesB_free (args : List (Nat × Nat)) {G : Flags} (h : ∀ a ∈ args, G a = 0) (us : List (Nat × (T → Res T))) (g : Graph T) :
    foldR (updateB args) us (G, g) = (foldR (update args) us g >>= fun g' => ok (G, g')) := by
  induction us generalizing g with
  | nil => rfl
  | cons u us ih =>
    have e : updateB args (G, g) u = (update args g u >>= fun g' => ok (G, g')) := by
      unfold updateB update
      cases ha : at' args u.1 with
      | panic => rfl
      | ub => rfl
      | ok a =>
        obtain ⟨G', e1, e2⟩ := excl_drop (h a (List.mem_of_getElem? (at'_eq_ok.mp ha)))
        simp only [ok_bind, e1, Res.bind_assoc, e2]
    simp only [foldR, e, Res.bind_assoc, ok_bind]
    congr 1
    funext g1
    exact ih g1

theorem bwOneB_free {V G : Flags} (hV : V.Calm) (hG : G.Calm) {g : Graph T} (hg : WF g) {i : Nat} (h : ∀ a ∈ g.argsOf i, G a = 0) :
    bwOneB C (V, G, g) i = (bwOne C g i >>= fun g' => ok (V, G, g')) := by
  unfold bwOneB bwOne
  cases ho : g[i]? with
  | none => simp [at', ho]
  | some o =>
    rw [argsOf_some ho] at h
    simp only [at'_eq_ok.mpr ho, ok_bind, Res.bind_assoc]
    congr 1
    funext xs
    congr 1
    funext ss
    have h0 : ∀ a ∈ o.args, G.plus (cellsOf i o) a = 0 := by
      intro a ha
      have hn : a ∉ cellsOf i o := by
        intro hm
        have := (mem_cellsOf.mp hm).1
        have := (hg.args i o ho a ha).1
        omega
      simp [Flags.plus, h a ha, Flags.count_zero hn]
    simp only [Flags.shareds_ok _ hV, Flags.shareds_ok _ (hV.plus _), Flags.shareds_ok _ hG, ok_bind, ensuresB_free _ h0, updatesB_free _ h0, Res.bind_assoc, Flags.dropRefs_eq]
    congr 1
    funext g1
    congr 1
    funext g2
    have e1 : (((V.plus o.args).plus (cellsOf i o)).minus (cellsOf i o)).minus o.args = V := by
      funext b; simp only [Flags.plus, Flags.minus]; omega
    have e2 : (G.plus (cellsOf i o)).minus (cellsOf i o) = G := by
      funext b; simp only [Flags.plus, Flags.minus]; omega
    rw [e1, e2]
    cases o.sink with
    | none => rfl
    | some t => simp only [Res.bind_assoc, ok_bind]

theorem bwOneB_held {V G : Flags} (hG : G.Calm) {g : Graph T} {s : Flags × Flags × Graph T} {i : Nat}
    (h : bwOneB C (V, G, g) i = ok s) : ∀ a ∈ g.argsOf i, G a = 0 := by
  unfold bwOneB at h
  simp only [Res.bind_eq_ok, at'_eq_ok] at h
  obtain ⟨o, ho, xs, _, ss, _, V1, _, V2, _, G1, hG1, q, hq, _⟩ := h
  rw [Flags.shareds_ok _ hG] at hG1
  cases hG1
  rw [argsOf_some ho]
  intro a ha
  have := ensuresB_held _ hq a ha
  have h1 := hG a
  simp only [Flags.plus] at this
  omega

theorem bwRunB_free (l : List Nat) {V G : Flags} (hV : V.Calm) (hG : G.Calm) {g : Graph T} (hg : WF g) (h : ∀ i ∈ l, ∀ a ∈ g.argsOf i, G a = 0) :
    foldR (bwOneB C) l (V, G, g) = (foldR (bwOne C) l g >>= fun g' => ok (V, G, g')) := by
  induction l generalizing g with
  | nil => rfl
  | cons i l ih =>
    simp only [foldR, bwOneB_free hV hG hg (h i List.mem_cons_self), Res.bind_assoc, ok_bind]
    cases hb : bwOne C g i with
    | panic => rfl
    | ub => rfl
    | ok g1 =>
      have hs := (bwOne_spec hb).1
      exact ih (hs.wf hg) fun j hj a ha => h j (List.mem_cons_of_mem _ hj) a (by rw [hs.argsOf] at ha; exact ha)

theorem bwRunB_held (l : List Nat) {V G : Flags} (hV : V.Calm) (hG : G.Calm) {g : Graph T} (hg : WF g) {s : Flags × Flags × Graph T}
    (h : foldR (bwOneB C) l (V, G, g) = ok s) : ∀ i ∈ l, ∀ a ∈ g.argsOf i, G a = 0 := by
  induction l generalizing g with
  | nil => intro i hi; cases hi
  | cons k l ih =>
    simp only [foldR, Res.bind_eq_ok] at h
    obtain ⟨s1, h1, h2⟩ := h
    have hk := bwOneB_held hG h1
    rw [bwOneB_free hV hG hg hk] at h1
    simp only [Res.bind_eq_ok, Res.ok.injEq] at h1
    obtain ⟨g1, h1, rfl⟩ := h1
    have hs := (bwOne_spec h1).1
    intro i hi
    rcases List.mem_cons.mp hi with rfl | hi
    · exact hk
    · intro a ha
      exact ih (hs.wf hg) h2 i hi a (by rw [hs.argsOf]; exact ha)

/-! ### histories -/

theorem create_wf {g g' : Graph T} {op : Oper T} {sink : Option T} {args : List (Nat × Nat)} (hg : WF g) (h : create C g op sink args = ok g') : WF g' := by
  simp only [create, Res.bind_eq_ok, Res.ok.injEq] at h
  obtain ⟨xs, hxs, ss, hss, rfl⟩ := h
  have hold : ∀ i, i < g.length → ∀ o : OpInfo T, (g ++ [o])[i]? = g[i]? := fun i hi o => List.getElem?_append_left hi
  have hcase : ∀ (i : Nat) (o n : OpInfo T), (g ++ [n])[i]? = some o → (g[i]? = some o ∧ i < g.length) ∨ (i = g.length ∧ o = n) := by
    intro i o n ho
    have hl := mem_lt ho
    simp at hl
    by_cases hi : i < g.length
    · rw [hold i hi] at ho; exact Or.inl ⟨ho, hi⟩
    · have : i = g.length := by omega
      subst this
      simp at ho
      exact Or.inr ⟨rfl, ho.symm⟩
  have hfold : ∀ (l : List Nat) (d : Nat), d ≤ l.foldl max d ∧ ∀ x ∈ l, x ≤ l.foldl max d := by
    intro l
    induction l with
    | nil => simp
    | cons y l ih =>
      intro d
      obtain ⟨h1, h2⟩ := ih (max d y)
      refine ⟨by simp; omega, ?_⟩
      intro x hx
      rcases List.mem_cons.mp hx with rfl | hx
      · simp; omega
      · exact h2 x hx
  generalize hn : (⟨op, args, ss.map op.null, ss.map op.null, ss.map op.null, false,
    (args.map fun a => g.depthOf a.1).foldl max 0 + 1, sink⟩ : OpInfo T) = n
  have hargs : ∀ a ∈ args, ∃ o' : OpInfo T, g[a.1]? = some o' ∧ a.2 < o'.init.length ∧ o'.depth < n.depth := by
    intro a ha
    obtain ⟨x, hx⟩ := mapR_mem hxs ha
    obtain ⟨o', ho', hv⟩ := val_eq_ok.mp hx
    refine ⟨o', ho', ?_, ?_⟩
    · rw [← (hg.lens _ _ ho').1]; exact (List.getElem?_eq_some_iff.mp hv).1
    · have := (hfold (args.map fun a => g.depthOf a.1) 0).2 (g.depthOf a.1) (List.mem_map_of_mem ha)
      rw [depthOf_some ho'] at this
      subst hn
      simp only
      omega
  have hwf : WF (g ++ [n]) := by
    refine ⟨fun i o ho a ha => ?_, fun i o ho => ?_⟩
    · rcases hcase i o n ho with ⟨h1, h2⟩ | ⟨rfl, rfl⟩
      · obtain ⟨hlt, o', ho', hv⟩ := hg.args i o h1 a ha
        exact ⟨hlt, o', by rw [hold _ (by omega)]; exact ho', hv⟩
      · have ha' : a ∈ args := by subst hn; exact ha
        obtain ⟨o', ho', hv⟩ := hargs a ha'
        exact ⟨mem_lt ho', o', by rw [hold _ (mem_lt ho')]; exact ho', hv⟩
    · rcases hcase i o n ho with ⟨h1, _⟩ | ⟨rfl, rfl⟩
      · exact hg.lens i o h1
      · subst hn; simp
  exact hwf

theorem createB_eq {V : Flags} (hV : V.Calm) (g : Graph T) (op : Oper T) (sink : Option T) (args : List (Nat × Nat)) :
    createB C V g op sink args = create C g op sink args := by
  unfold createB
  have : ∀ l : List (Nat × Nat), foldR (fun (V : Flags) a => do
      let V ← V.shared a
      ok (V.dropRefs [a])) l V = ok V := by
    intro l
    induction l with
    | nil => rfl
    | cons a l ih =>
      simp only [foldR, Flags.shared_ok hV, ok_bind, Flags.dropRefs_eq]
      have e : (V.plus [a]).minus [a] = V := by funext b; simp only [Flags.plus, Flags.minus]; omega
      rw [e]
      simpa only [Flags.dropRefs_eq] using ih
  rw [this, ok_bind]

/-- What holds in every state that a program can reach. -/
structure Sound (V G : Flags) (g : Graph T) : Prop where
  wf : WF g
  values : V.Calm
  gradients : G.Calm
  fresh : ∀ (i : Nat) (o : OpInfo T), g[i]? = some o → o.forwarded = false → o.vals = o.init

theorem calm_drop {c : Flags} (h : c.Calm) {a : Nat × Nat} (ha : 0 < c a) : (c.dropRefs [a]).Calm := by
  intro b
  have := h b
  rw [Flags.dropRefs_eq]
  simp only [Flags.minus, List.count_cons, List.count_nil]
  by_cases e : a = b
  · subst e; simp; omega
  · have : (a == b) = false := by simpa using e
    simp [this]; exact h b

theorem calm_hold {c c' : Flags} (h : c.Calm) {a : Nat × Nat} (e : c.shared a = ok c') : c'.Calm := by
  rw [Flags.shared_ok h] at e; cases e; exact h.plus _

theorem ForwardB.step {V V' : Flags} {g g' : Graph T} {root : Nat} {tr : List Nat} {r : Res Unit} (h : ForwardB V g root V' g' tr r) : Step g g' := by
  obtain ⟨pushed, popped, _, _, e⟩ := h
  have := fwRunB_step popped V g
  rw [e] at this; exact this

theorem Forward.step {g g' : Graph T} {root : Nat} {tr : List Nat} {r : Res Unit} (h : Forward g root g' tr r) : Step g g' := by
  obtain ⟨pushed, popped, _, _, e⟩ := h
  have key : ∀ (l : List Nat) (g : Graph T), Step g (fwRun l g).1 := by
    intro l
    induction l with
    | nil => exact Step.refl
    | cons i l ih =>
      intro g
      simp only [fwRun]
      have hs := fwOne_step g i
      generalize fwOne g i = q at hs ⊢
      obtain ⟨g1, b, r⟩ := q
      cases r with
      | ok u => exact hs.trans (ih g1)
      | panic => exact hs
      | ub => exact hs
  have := key popped g
  rw [e] at this; exact this

theorem ForwardB.flags {V V' : Flags} (hV : V.Calm) {g g' : Graph T} (hg : WF g) {root : Nat} {tr : List Nat} {r : Res Unit} (h : ForwardB V g root V' g' tr r) : V' = V := by
  obtain ⟨pushed, popped, _, _, e⟩ := h
  have := fwRunB_calm popped hV hg
  rw [e] at this; exact this

theorem BackwardOnlyB.same {V G V' G' : Flags} (hV : V.Calm) (hG : G.Calm) {g g' : Graph T} (hg : WF g) {root : Nat} {popped : List Nat}
    (h : BackwardOnlyB C V G g root popped (ok (V', G', g'))) : V' = V ∧ G' = G ∧ SameValues g g' ∧ BackwardOnly C g root popped (ok g') ∧
      (∀ o, g[root]? = some o → ∀ k < o.vals.length, G (root, k) = 0) ∧ ∀ i ∈ popped, ∀ a ∈ g.argsOf i, G a = 0 := by
  obtain ⟨pushed, hc, hp, e⟩ := h
  simp only [Res.bind_eq_ok] at e
  obtain ⟨g1, hs, e⟩ := e
  have h0 : ∀ o, g[root]? = some o → ∀ k < o.vals.length, G (root, k) = 0 := fun o ho k hk => seedB_held hs ho hk
  rw [seedB_free hg h0] at hs
  have hsv := (seed_spec hs).1.sameValues
  have h1 := bwRunB_held popped hV hG (hsv.wf hg) e
  rw [bwRunB_free popped hV hG (hsv.wf hg) h1] at e
  simp only [Res.bind_eq_ok, Res.ok.injEq, Prod.mk.injEq] at e
  obtain ⟨g2, e, rfl, rfl, rfl⟩ := e
  have hsv2 : SameValues g g2 := by
    refine hsv.trans ?_
    clear h1 hs hp hc
    induction popped generalizing g1 with
    | nil => cases e; exact SameValues.refl _
    | cons i l ih =>
      simp only [foldR, Res.bind_eq_ok] at e
      obtain ⟨g3, e1, e2⟩ := e
      have h3 := (bwOne_spec e1).1
      exact h3.trans (ih g3 (hsv.trans h3) e2)
  exact ⟨rfl, rfl, hsv2, ⟨pushed, hc, hp, by simp only [hs, ok_bind, e]⟩, h0, fun i hi a ha => h1 i hi a (by rw [hsv.argsOf]; exact ha)⟩

theorem SameValues.fresh {g g' : Graph T} (h : SameValues g g') (hf : ∀ (i : Nat) (o : OpInfo T), g[i]? = some o → o.forwarded = false → o.vals = o.init) :
    ∀ (i : Nat) (o : OpInfo T), g'[i]? = some o → o.forwarded = false → o.vals = o.init := by
  intro i o ho hff
  have hi : i < g.length := by rw [h.1]; exact mem_lt ho
  obtain ⟨gr, sk, _, e⟩ := h.2 i g[i] (by simp [hi])
  rw [ho] at e
  obtain rfl := Option.some.inj e
  exact hf i g[i] (by simp [hi]) hff

theorem StepsB.sound {V0 G0 V G : Flags} {g0 g : Graph T} (h : StepsB C V0 G0 g0 V G g) (h0 : Sound V0 G0 g0) : Sound V G g := by
  induction h with
  | refl => exact h0
  | holdValue _ e ih => exact ⟨ih.wf, calm_hold ih.values e, ih.gradients, ih.fresh⟩
  | dropValue _ e ih => exact ⟨ih.wf, calm_drop ih.values e, ih.gradients, ih.fresh⟩
  | holdGradient _ e ih => exact ⟨ih.wf, ih.values, calm_hold ih.gradients e, ih.fresh⟩
  | dropGradient _ e ih => exact ⟨ih.wf, ih.values, calm_drop ih.gradients e, ih.fresh⟩
  | create _ e ih =>
    rw [createB_eq ih.values] at e
    refine ⟨create_wf ih.wf e, ih.values, ih.gradients, fun i o ho hf => ?_⟩
    simp only [Graph.create, Res.bind_eq_ok, Res.ok.injEq] at e
    obtain ⟨_, _, ss, _, rfl⟩ := e
    rw [List.getElem?_append] at ho
    split at ho
    · exact ih.fresh i o ho hf
    · rw [List.getElem?_singleton] at ho
      split at ho
      · cases ho; rfl
      · cases ho
  | forward _ _ hf ih =>
    have hs := hf.step
    refine ⟨hs.wf ih.wf, by rw [hf.flags ih.values ih.wf]; exact ih.values, ih.gradients, fun i o ho hff => ?_⟩
    rename_i _ _ _ g1 _ _ _ _ _ _
    have hi : i < g1.length := by rw [← hs.len]; exact mem_lt ho
    obtain ⟨b, ys, hl, e, h1, h2⟩ := hs.same i g1[i] (by simp [hi])
    rw [ho] at e
    obtain rfl := Option.some.inj e
    simp only at hff ⊢
    rw [h2 hff]
    apply ih.fresh i g1[i] (by simp [hi])
    cases hb : g1[i].forwarded with
    | false => rfl
    | true => have := (h1 hb).1; rw [hff] at this; cases this
  | backward _ _ hb ih =>
    obtain ⟨e1, e2, hs, _⟩ := hb.same ih.values ih.gradients ih.wf
    exact ⟨hs.wf ih.wf, by rw [e1]; exact ih.values, by rw [e2]; exact ih.gradients, hs.fresh ih.fresh⟩
  | backwardPanic _ _ _ hs ih => exact ⟨hs.wf ih.wf, ih.values, ih.gradients, hs.fresh ih.fresh⟩

theorem HistB.sound {V G : Flags} {g : Graph T} (h : HistB C V G g) : Sound V G g :=
  StepsB.sound h ⟨⟨(fun i o h => by cases h), (fun i o h => by cases h)⟩, (fun _ => Int.le_refl 0), (fun _ => Int.le_refl 0), (fun i o h => by cases h)⟩

end Graph
end Verif
