import Verif.Owner
import Verif.BorrowLemmas

/-! # Reference counts of a graph -/

namespace Verif
open Res
namespace Own

theorem sum_set {A : Type} (f : A → Nat) (l : List A) (i : Nat) (a b : A) (h : l[i]? = some a) :
    ((l.set i b).map f).sum + f a = (l.map f).sum + f b := by
  induction l generalizing i with
  | nil => simp at h
  | cons c l ih =>
    cases i with
    | zero => simp at h; subst h; simp; omega
    | succ i =>
      simp at h
      have := ih i h
      simp only [List.set_cons_succ, List.map_cons, List.sum_cons]
      omega

theorem le_sum {A : Type} (f : A → Nat) (l : List A) {i : Nat} {a : A} (h : l[i]? = some a) : f a ≤ (l.map f).sum := by
  induction l generalizing i with
  | nil => simp at h
  | cons c l ih =>
    cases i with
    | zero => simp at h; subst h; simp
    | succ i => simp at h; have := ih h; simp; omega

theorem pos_sum {A : Type} (f : A → Nat) (l : List A) (h : 0 < (l.map f).sum) : ∃ (i : Nat) (a : A), l[i]? = some a ∧ 0 < f a := by
  induction l with
  | nil => simp at h
  | cons c l ih =>
    by_cases hc : 0 < f c
    · exact ⟨0, c, rfl, hc⟩
    · have : 0 < (l.map f).sum := by simp at h; omega
      obtain ⟨i, a, hi, ha⟩ := ih this
      exact ⟨i + 1, a, by simpa using hi, ha⟩

/-- References to `i` from a box that is alive. -/
def refsOf (i : Nat) (b : RcBox) : Nat := if b.strong = 0 then 0 else b.args.count i

/-- References to `i` from all boxes. -/
def refs (h : Heap) (i : Nat) : Nat := (h.boxes.map (refsOf i)).sum

/-- The contents are still there. -/
def Live (h : Heap) (i : Nat) : Prop := ∃ b, h.boxes[i]? = some b ∧ b.strong ≠ 0

/-- Counts are right when the references `R` are held outside of the boxes. -/
structure Inv (h : Heap) (R : List Nat) : Prop where
  acyc : ∀ (i : Nat) (b : RcBox), h.boxes[i]? = some b → ∀ a ∈ b.args, a < i
  inR : ∀ a ∈ R, a < h.boxes.length
  cnt : ∀ (i : Nat) (b : RcBox), h.boxes[i]? = some b → b.strong = R.count i + refs h i

theorem Inv.perm {h : Heap} {R R' : List Nat} (hi : Inv h R) (p : R.Perm R') : Inv h R' :=
  ⟨hi.acyc, fun a ha => hi.inR a (p.mem_iff.mpr ha), fun i b hb => by rw [← p.count_eq]; exact hi.cnt i b hb⟩

theorem get_set {h : Heap} {i : Nat} {b : RcBox} (hb : h.boxes[i]? = some b) (c : RcBox) (k : Nat) :
    (h.set i c).boxes[k]? = if k = i then some c else h.boxes[k]? := by
  have hl := (List.getElem?_eq_some_iff.mp hb).1
  simp only [Heap.set, List.getElem?_set]
  by_cases e : k = i
  · subst e; simp [hl]
  · have : ¬ i = k := fun q => e q.symm
    simp [e, this]

/-- Two heaps with the same boxes but for their counts. -/
def SameBoxes (h h' : Heap) : Prop := h.boxes.map (fun b => (b.args, b.rets)) = h'.boxes.map fun b => (b.args, b.rets)

theorem SameBoxes.length {h h' : Heap} (e : SameBoxes h h') : h.boxes.length = h'.boxes.length := by
  have := congrArg List.length e; simpa using this

theorem SameBoxes.get {h h' : Heap} (e : SameBoxes h h') {i : Nat} {b : RcBox} (hb : h.boxes[i]? = some b) :
    ∃ b', h'.boxes[i]? = some b' ∧ b'.args = b.args ∧ b'.rets = b.rets := by
  have := congrArg (fun l => l[i]?) e
  simp only [List.getElem?_map, hb, Option.map_some] at this
  cases q : h'.boxes[i]? with
  | none => simp [q] at this
  | some b' => simp only [q, Option.map_some, Option.some.injEq, Prod.mk.injEq] at this; exact ⟨b', rfl, this.1.symm, this.2.symm⟩

theorem SameBoxes.set {h : Heap} {i : Nat} {b : RcBox} (hb : h.boxes[i]? = some b) (s : Nat) : SameBoxes h (h.set i { b with strong := s }) := by
  apply List.ext_getElem?
  intro k
  rw [List.getElem?_map, List.getElem?_map, get_set hb]
  by_cases e : k = i
  · subst e; simp [hb]
  · simp [e]

/-- Changing a count to another positive one. -/
theorem refs_set_pos {h : Heap} {i : Nat} {b : RcBox} (hb : h.boxes[i]? = some b) (hs : b.strong ≠ 0) {s : Nat} (hs' : s ≠ 0) (k : Nat) :
    refs (h.set i { b with strong := s }) k = refs h k := by
  have := sum_set (refsOf k) h.boxes i b { b with strong := s } hb
  have e : refsOf k { b with strong := s } = refsOf k b := by simp [refsOf, hs, hs']
  unfold refs Heap.set
  simp only
  omega

theorem refs_set_zero {h : Heap} {i : Nat} {b : RcBox} (hb : h.boxes[i]? = some b) (hs : b.strong ≠ 0) (k : Nat) :
    refs (h.set i { b with strong := 0 }) k + b.args.count k = refs h k := by
  have := sum_set (refsOf k) h.boxes i b { b with strong := 0 } hb
  have e : refsOf k { b with strong := 0 } = 0 := by simp [refsOf]
  have e' : refsOf k b = b.args.count k := by simp [refsOf, hs]
  unfold refs Heap.set
  simp only
  omega

/-- The operators released on the way from `h` to `h'` are those that were alive and are no longer. -/
structure Released (h h' : Heap) : Prop where
  same : SameBoxes h h'
  dead : ∀ i, Live h' i → Live h i
  log : ∃ l, h'.released = h.released ++ l ∧ l.Nodup ∧ ∀ i, i ∈ l ↔ Live h i ∧ ¬ Live h' i

theorem Released.refl (h : Heap) : Released h h := ⟨rfl, fun _ p => p, [], by simp, by simp, fun i => by simp⟩

theorem Released.trans {h h' h'' : Heap} (a : Released h h') (b : Released h' h'') : Released h h'' := by
  obtain ⟨l, e, nd, hl⟩ := a.log
  obtain ⟨l', e', nd', hl'⟩ := b.log
  refine ⟨a.same.trans b.same, fun i p => a.dead i (b.dead i p), l ++ l', by simp [e', e], ?_, fun i => ?_⟩
  · rw [List.nodup_append]
    refine ⟨nd, nd', fun x hx y hy q => ?_⟩
    subst q
    exact ((hl x).mp hx).2 ((hl' x).mp hy).1
  · rw [List.mem_append, hl, hl']
    by_cases p : Live h' i
    · have := a.dead i p; simp [p, this]
    · have : ¬ Live h'' i := fun q => p (b.dead i q)
      simp [p, this]

theorem live_set {h : Heap} {i : Nat} {b : RcBox} (hb : h.boxes[i]? = some b) (c : RcBox) (k : Nat) :
    Live (h.set i c) k ↔ if k = i then c.strong ≠ 0 else Live h k := by
  unfold Live
  rw [get_set hb]
  by_cases e : k = i
  · simp [e]
  · simp [e]

theorem clone_spec {h : Heap} {R : List Nat} (hi : Inv h R) {i : Nat} (hl : Live h i) : ∃ h', clone h i = ok h' ∧ Inv h' (i :: R) ∧
    Released h h' ∧ h'.released = h.released ∧ ∀ k, Live h' k ↔ Live h k := by
  obtain ⟨b, hb, hs⟩ := hl
  have hlive : ∀ k, Live (h.set i { b with strong := b.strong + 1 }) k ↔ Live h k := by
    intro k
    rw [live_set hb]
    by_cases e : k = i
    · subst e; simp; exact ⟨b, hb, hs⟩
    · simp [e]
  refine ⟨h.set i { b with strong := b.strong + 1 }, by simp [clone, hb, hs], ⟨?_, ?_, ?_⟩, ⟨SameBoxes.set hb _, fun k p => (hlive k).mp p, [], by simp [Heap.set], by simp, fun k => by simp [hlive]⟩, rfl, hlive⟩
  · intro k c hc
    rw [get_set hb] at hc
    by_cases e : k = i
    · subst e; simp at hc; subst hc; exact hi.acyc k b hb
    · simp [e] at hc; exact hi.acyc k c hc
  · intro a ha
    have hlen := (SameBoxes.set hb (b.strong + 1)).length
    rw [← hlen]
    rcases List.mem_cons.mp ha with rfl | ha
    · exact (List.getElem?_eq_some_iff.mp hb).1
    · exact hi.inR a ha
  · intro k c hc
    rw [refs_set_pos hb hs (by omega)]
    rw [get_set hb] at hc
    by_cases e : k = i
    · subst e; simp at hc; subst hc
      have := hi.cnt k b hb
      simp; omega
    · simp [e] at hc
      have := hi.cnt k c hc
      rw [List.count_cons_of_ne (fun q => e q.symm)]; exact this

theorem clones_spec (l : List Nat) {h : Heap} {R : List Nat} (hi : Inv h R) (hl : ∀ i ∈ l, Live h i) : ∃ h', foldR clone l h = ok h' ∧ Inv h' (l ++ R) ∧
    Released h h' ∧ h'.released = h.released ∧ ∀ k, Live h' k ↔ Live h k := by
  induction l generalizing h R with
  | nil => exact ⟨h, rfl, hi, Released.refl h, rfl, fun _ => Iff.rfl⟩
  | cons i l ih =>
    obtain ⟨h1, e1, hi1, r1, rel1, lv1⟩ := clone_spec hi (hl i (by simp))
    obtain ⟨h2, e2, hi2, r2, rel2, lv2⟩ := ih hi1 (fun k hk => (lv1 k).mpr (hl k (by simp [hk])))
    refine ⟨h2, by simp only [foldR, e1, Res.ok_bind, e2], hi2.perm List.perm_middle, r1.trans r2, rel2.trans rel1, fun k => (lv2 k).trans (lv1 k)⟩

theorem dropRc_spec (n : Nat) : ∀ {h : Heap} {R : List Nat} {i : Nat}, Inv h (i :: R) → i < n →
    ∃ h', dropRc n h i = ok h' ∧ Inv h' R ∧ Released h h' := by
  induction n with
  | zero => intro h R i _ hn; omega
  | succ n ih =>
    intro h R i hi hn
    have hlt := hi.inR i (by simp)
    obtain ⟨b, hb⟩ : ∃ b, h.boxes[i]? = some b := ⟨_, List.getElem?_eq_getElem hlt⟩
    have hc := hi.cnt i b hb
    simp only [List.count_cons_self] at hc
    have hs : b.strong ≠ 0 := by omega
    have hother : ∀ k c, k ≠ i → h.boxes[k]? = some c → c.strong = R.count k + refs h k := by
      intro k c e hk
      have := hi.cnt k c hk
      rwa [List.count_cons_of_ne (fun q => e q.symm)] at this
    by_cases h1 : b.strong = 1
    · -- the contents are dropped
      have hfold : ∀ (l : List Nat) (h : Heap), (∀ a ∈ l, a < n) → Inv h (l ++ R) → ∃ h', foldR (dropRc n) l h = ok h' ∧ Inv h' R ∧ Released h h' := by
        intro l
        induction l with
        | nil => intro h _ hi; exact ⟨h, rfl, hi, Released.refl h⟩
        | cons a l ihl =>
          intro h hl hi
          obtain ⟨h1, e1, hi1, r1⟩ := ih (R := l ++ R) hi (hl a (by simp))
          obtain ⟨h2, e2, hi2, r2⟩ := ihl h1 (fun x hx => hl x (by simp [hx])) hi1
          exact ⟨h2, by simp only [foldR, e1, Res.ok_bind, e2], hi2, r1.trans r2⟩
      have hmid : Inv (h.set i { b with strong := 0 }) (b.args ++ R) := by
        refine ⟨?_, ?_, ?_⟩
        · intro k c hk
          rw [get_set hb] at hk
          by_cases e : k = i
          · subst e; simp at hk; subst hk; exact hi.acyc k b hb
          · simp [e] at hk; exact hi.acyc k c hk
        · intro a ha
          rw [← (SameBoxes.set hb 0).length]
          rcases List.mem_append.mp ha with ha | ha
          · exact Nat.lt_trans (hi.acyc i b hb a ha) hlt
          · exact hi.inR a (by simp [ha])
        · intro k c hk
          have hz := refs_set_zero hb hs k
          rw [get_set hb] at hk
          rw [List.count_append]
          by_cases e : k = i
          · subst e; simp at hk; subst hk
            have : b.args.count k = 0 := List.count_eq_zero.mpr fun hm => Nat.lt_irrefl _ (hi.acyc k b hb k hm)
            simp only
            omega
          · simp [e] at hk
            have := hother k c e hk
            omega
      obtain ⟨h', e', hi', r'⟩ := hfold b.args _ (fun a ha => by have := hi.acyc i b hb a ha; omega) hmid
      have hdead : ¬ Live (h.set i { b with strong := 0 }) i := by rw [live_set hb]; simp
      refine ⟨{ h' with released := h'.released ++ [i] }, ?_, ⟨hi'.acyc, hi'.inR, hi'.cnt⟩, ⟨(SameBoxes.set hb 0).trans r'.same, ?_, ?_⟩⟩
      · simp only [dropRc, hb, h1]
        simp only [show ¬ (1 : Nat) = 0 by omega, if_false, if_true, e', Res.ok_bind]
      · intro k p
        have := (live_set hb _ k).mp (r'.dead k p)
        by_cases e : k = i
        · subst e; exact ⟨b, hb, hs⟩
        · simpa [e] using this
      · obtain ⟨l, el, nd, hl⟩ := r'.log
        refine ⟨l ++ [i], by simp [el, Heap.set], ?_, ?_⟩
        · rw [List.nodup_append]
          refine ⟨nd, by simp, fun x hx y hy q => ?_⟩
          simp at hy; subst hy; subst q
          exact hdead ((hl x).mp hx).1
        · intro k
          have hk' : Live { h' with released := h'.released ++ [i] } k ↔ Live h' k := Iff.rfl
          rw [List.mem_append, hl, hk', live_set hb, List.mem_singleton]
          by_cases e : k = i
          · subst e
            have : ¬ Live h' k := fun p => hdead (r'.dead k p)
            have hk : Live h k := ⟨b, hb, hs⟩
            simp [this, hk]
          · simp [e]
    · have hb2 : b.strong - 1 ≠ 0 := by omega
      have hlive : ∀ k, Live (h.set i { b with strong := b.strong - 1 }) k ↔ Live h k := by
        intro k
        rw [live_set hb]
        by_cases e : k = i
        · subst e; simp only [if_true, ne_eq]; exact ⟨fun _ => ⟨b, hb, hs⟩, fun _ => hb2⟩
        · simp [e]
      refine ⟨h.set i { b with strong := b.strong - 1 }, by simp [dropRc, hb, hs, h1], ⟨?_, ?_, ?_⟩,
        ⟨SameBoxes.set hb _, fun k p => (hlive k).mp p, [], by simp [Heap.set], by simp, fun k => by simp [hlive]⟩⟩
      · intro k c hk
        rw [get_set hb] at hk
        by_cases e : k = i
        · subst e; simp at hk; subst hk; exact hi.acyc k b hb
        · simp [e] at hk; exact hi.acyc k c hk
      · intro a ha
        rw [← (SameBoxes.set hb (b.strong - 1)).length]
        exact hi.inR a (by simp [ha])
      · intro k c hk
        rw [refs_set_pos hb hs hb2]
        rw [get_set hb] at hk
        by_cases e : k = i
        · subst e; simp at hk; subst hk; simp only; omega
        · simp [e] at hk; exact hother k c e hk

theorem drop_spec {h : Heap} {R : List Nat} {i : Nat} (hi : Inv h (i :: R)) : ∃ h', drop h i = ok h' ∧ Inv h' R ∧ Released h h' :=
  dropRc_spec _ hi (hi.inR i (by simp))

theorem drops_spec (l : List Nat) {h : Heap} {R : List Nat} (hi : Inv h (l ++ R)) : ∃ h', foldR drop l h = ok h' ∧ Inv h' R ∧ Released h h' := by
  induction l generalizing h with
  | nil => exact ⟨h, rfl, hi, Released.refl h⟩
  | cons i l ih =>
    obtain ⟨h1, e1, hi1, r1⟩ := drop_spec (R := l ++ R) hi
    obtain ⟨h2, e2, hi2, r2⟩ := ih hi1
    exact ⟨h2, by simp only [foldR, e1, Res.ok_bind, e2], hi2, r1.trans r2⟩

/-- `j` can be reached from `i` through `args`. -/
inductive Reach (h : Heap) : Nat → Nat → Prop
  | refl (i : Nat) : Reach h i i
  | arg {i j a : Nat} {b : RcBox} : h.boxes[i]? = some b → a ∈ b.args → Reach h a j → Reach h i j

theorem Reach.snoc {h : Heap} {i j a : Nat} {b : RcBox} (p : Reach h i j) (hb : h.boxes[j]? = some b) (ha : a ∈ b.args) : Reach h i a := by
  induction p with
  | refl i => exact .arg hb ha (.refl _)
  | arg hb' ha' _ ih => exact .arg hb' ha' (ih hb)

theorem Inv.live_arg {h : Heap} {R : List Nat} (hi : Inv h R) {i a : Nat} {b : RcBox} (hb : h.boxes[i]? = some b) (hs : b.strong ≠ 0) (ha : a ∈ b.args) :
    Live h a := by
  have hlt := hi.acyc i b hb a ha
  have hl := (List.getElem?_eq_some_iff.mp hb).1
  obtain ⟨c, hc⟩ : ∃ c, h.boxes[a]? = some c := ⟨_, List.getElem?_eq_getElem (by omega)⟩
  refine ⟨c, hc, ?_⟩
  have h1 := hi.cnt a c hc
  have h2 := le_sum (refsOf a) h.boxes hb
  have h3 : refsOf a b = b.args.count a := by simp [refsOf, hs]
  have h4 : 0 < b.args.count a := List.count_pos_iff.mpr ha
  unfold refs at h1
  omega

theorem Inv.live_held {h : Heap} {R : List Nat} (hi : Inv h R) {i : Nat} (hr : i ∈ R) : Live h i := by
  obtain ⟨c, hc⟩ : ∃ c, h.boxes[i]? = some c := ⟨_, List.getElem?_eq_getElem (hi.inR i hr)⟩
  refine ⟨c, hc, ?_⟩
  have h1 := hi.cnt i c hc
  have : 0 < R.count i := List.count_pos_iff.mpr hr
  omega

theorem Inv.live_reach {h : Heap} {R : List Nat} (hi : Inv h R) {i j : Nat} (p : Reach h i j) (hl : Live h i) : Live h j := by
  induction p with
  | refl i => exact hl
  | arg hb ha _ ih =>
    obtain ⟨b', hb', hs⟩ := hl
    rw [hb] at hb'; cases hb'
    exact ih (hi.live_arg hb hs ha)

/-- Alive = reachable from a reference that is held. -/
theorem Inv.live_iff {h : Heap} {R : List Nat} (hi : Inv h R) (j : Nat) : Live h j ↔ ∃ i ∈ R, Reach h i j := by
  constructor
  · generalize hk : h.boxes.length - j = k
    induction k using Nat.strongRecOn generalizing j with
    | ind k ih =>
      rintro ⟨b, hb, hs⟩
      have hl := (List.getElem?_eq_some_iff.mp hb).1
      have hc := hi.cnt j b hb
      by_cases hr : j ∈ R
      · exact ⟨j, hr, .refl j⟩
      · have : R.count j = 0 := List.count_eq_zero.mpr hr
        have hp : 0 < (h.boxes.map (refsOf j)).sum := by unfold refs at hc; omega
        obtain ⟨m, c, hm, hc⟩ := pos_sum _ _ hp
        have hcs : c.strong ≠ 0 := by intro e; simp [refsOf, e] at hc
        have hin : j ∈ c.args := by
          simp only [refsOf, hcs, if_false] at hc
          exact List.count_pos_iff.mp hc
        have hlt := hi.acyc m c hm j hin
        have hml := (List.getElem?_eq_some_iff.mp hm).1
        obtain ⟨i, hir, p⟩ := ih (h.boxes.length - m) (by omega) m rfl ⟨c, hm, hcs⟩
        exact ⟨i, hir, p.snoc hm hin⟩
  · rintro ⟨i, hir, p⟩
    exact hi.live_reach p (hi.live_held hir)

end Own
end Verif
