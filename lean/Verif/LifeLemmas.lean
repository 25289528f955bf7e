import Verif.Lifecycle
import Verif.PropsPool

/-!
# Invariants of the machine of `Verif.Lifecycle`
-/

set_option linter.unusedSectionVars false

namespace Verif
open Res Pool

theorem Hist.new_ok {evs : List Ev} {P : Pool} (hh : Hist evs P) {size fresh s : Nat} (hf : fresh ∉ P.blocks.map Prod.fst) (hc : classOf size = some s) :
    ∃ P' h, P.newHandle size fresh = (P', some h) ∧ Hist (.new size h :: evs) P' ∧ h ∉ (live evs).map Prod.fst ∧
      ((P.free s = [] ∧ h = fresh ∧ P'.blocks = (fresh, 2 ^ s) :: P.blocks) ∨ (P.free s ≠ [] ∧ (h, 2 ^ s) ∈ P.blocks ∧ P'.blocks = P.blocks)) := by
  have hp : (P.take s fresh).1.poisoned = false := by unfold take; split <;> exact hh.reach.inv.np
  have e : P.newHandle size fresh = ({ (P.take s fresh).1 with reg := Pool.set (P.take s fresh).1.reg (P.take s fresh).2 (some s) }, some (P.take s fresh).2) := by
    simp [newHandle, hc, register, hp]
  have h1 := Hist.new hh hf e
  refine ⟨_, _, e, h1, ?_, ?_⟩
  · have hn := h1.reach.inv.ownedNodup
    simp only [live, List.map_cons, List.nodup_cons] at hn
    exact hn.1
  · cases hfr : P.free s with
    | nil => left; simp [take, hfr]
    | cons a l =>
      right
      refine ⟨by simp, ?_, ?_⟩
      · simp only [take, hfr]
        exact (hh.reach.inv.freeBlocks s a (by rw [hfr]; exact List.mem_cons_self)).1
      · simp [take, hfr]

theorem Hist.drop_ok {evs : List Ev} {P : Pool} (hh : Hist evs P) {h : Nat} (hm : h ∈ (live evs).map Prod.fst) :
    ∃ P', P.dropHandle h = (P', true) ∧ Hist (.drop h :: evs) P' ∧ P'.blocks = P.blocks := by
  obtain ⟨⟨a, size⟩, hm', rfl⟩ := List.mem_map.mp hm
  obtain ⟨k, hc, hr, _⟩ := hh.reach.inv.owned a size hm'
  have hp : P.poisoned = false := hh.reach.inv.np
  have e : P.dropHandle a = ({ P with reg := Pool.set P.reg a none, free := Pool.set P.free k (a :: P.free k) }, true) := by
    simp only at hr
    simp [dropHandle, unregister, hp, hr, give]
  exact ⟨_, e, .drop hh hm e, rfl⟩

theorem live_drop {evs : List Ev} {h a : Nat} : a ∈ (live (.drop h :: evs)).map Prod.fst ↔ a ∈ (live evs).map Prod.fst ∧ a ≠ h := by
  simp only [live, List.mem_map, List.mem_filter, decide_eq_true_eq]
  constructor
  · rintro ⟨x, ⟨h1, h2⟩, rfl⟩; exact ⟨⟨x, h1, rfl⟩, by simpa using h2⟩
  · rintro ⟨⟨x, h1, rfl⟩, h2⟩; exact ⟨x, ⟨h1, by simpa using h2⟩, rfl⟩

theorem Hist.live_blocks {evs : List Ev} {P : Pool} (hh : Hist evs P) {h : Nat} (hm : h ∈ (live evs).map Prod.fst) : h ∈ P.blocks.map Prod.fst := by
  obtain ⟨⟨a, size⟩, hm', rfl⟩ := List.mem_map.mp hm
  obtain ⟨k, _, _, hb⟩ := hh.reach.inv.owned a size hm'
  exact List.mem_map.mpr ⟨_, hb, rfl⟩

namespace Life
variable {α : Type}

/-- `v` refers, through any number of views, to the owner `r`. -/
inductive Rooted (vars : Nat → Option (HT α)) : Nat → Nat → Prop
  | root {v t} : vars v = some t → t.reference = none → Rooted vars v v
  | step {v t w r} : vars v = some t → t.reference = some w → Rooted vars w r → Rooted vars v r

/-- Views refer to live tensors with the same handle. -/
structure Struct (vars : Nat → Option (HT α)) : Prop where
  dev : ∀ v t h, vars v = some t → t.handle = some h → t.device ≠ none
  host : ∀ v t, vars v = some t → t.host ≠ none → t.handle = none ∧ t.reference = none
  edge : ∀ v t w, vars v = some t → t.reference = some w → ∃ u, vars w = some u ∧ u.handle = t.handle ∧ u.device = t.device
  rooted : ∀ v t, vars v = some t → ∃ r, Rooted vars v r

/-- The variable is an owner of the block `h` of device `d`. -/
def Owns (o : Option (HT α)) (d h : Nat) : Prop := ∃ t, o = some t ∧ t.reference = none ∧ t.device = some d ∧ t.handle = some h

/-- Handles in use are exactly those of owners, each of one owner; blocks have their capacity. -/
structure Own (st : St α) : Prop where
  hist : ∀ d, ∃ evs, Verif.Hist evs (st.pool d) ∧ ∀ h, h ∈ (live evs).map Prod.fst ↔
    ∃ v, Owns (st.vars v) d h
  uniq : ∀ v w d h, Owns (st.vars v) d h → Owns (st.vars w) d h → v = w
  len : ∀ d h c, (h, c) ∈ (st.pool d).blocks → (st.heap d h).length = c

structure Inv (st : St α) : Prop where
  struct : Struct st.vars
  own : Own st

theorem Inv.init : Inv (St.init : St α) where
  struct := { dev := (fun v t h e => by cases e), host := (fun v t e => by cases e), edge := (fun v t w e => by cases e), rooted := (fun v t e => by cases e) }
  own := {
    hist := fun d => ⟨[], .nil, fun h => ⟨(fun h => by cases h), fun ⟨_, _, e, _⟩ => by cases e⟩⟩
    uniq := fun v w d h ⟨_, e, _⟩ => by cases e
    len := fun d h c e => by cases e }

/-- Some view of `vars` refers to `x`. -/
def Ref (vars : Nat → Option (HT α)) (x : Nat) : Prop := ∃ u t, vars u = some t ∧ t.reference = some x

theorem Rooted.borrowed {vars : Nat → Option (HT α)} {v r : Nat} (h : Rooted vars v r) : v = r ∨ Ref vars r := by
  induction h with
  | root => exact .inl rfl
  | @step v t w r h1 h2 _ ih =>
    rcases ih with rfl | ih
    · exact .inr ⟨v, t, h1, h2⟩
    · exact .inr ih

theorem Rooted.owner {vars : Nat → Option (HT α)} {v r : Nat} (h : Rooted vars v r) : ∃ t, vars r = some t ∧ t.reference = none := by
  induction h with
  | root h1 h2 => exact ⟨_, h1, h2⟩
  | step _ _ _ ih => exact ih

theorem Rooted.same {vars : Nat → Option (HT α)} (hs : Struct vars) {v r : Nat} (h : Rooted vars v r) {t : HT α} (ht : vars v = some t) :
    ∃ u, vars r = some u ∧ u.reference = none ∧ u.handle = t.handle ∧ u.device = t.device := by
  induction h generalizing t with
  | root h1 h2 => rw [h1] at ht; cases ht; exact ⟨_, h1, h2, rfl, rfl⟩
  | @step v t' w r h1 h2 _ ih =>
    rw [h1] at ht; cases ht
    obtain ⟨u, hu, e1, e2⟩ := hs.edge v t' w h1 h2
    obtain ⟨u', h3, h4, e3, e4⟩ := ih hu
    exact ⟨u', h3, h4, e3.trans e1, e4.trans e2⟩

theorem set_ne {β : Type} {f : Nat → β} {i j : Nat} {v : β} (h : j ≠ i) : Pool.set f i v j = f j := by simp [Pool.set, h]
theorem set_same {β : Type} {f : Nat → β} {i : Nat} {v : β} : Pool.set f i v i = v := by simp [Pool.set]

theorem Rooted.set {vars : Nat → Option (HT α)} {x : Nat} {o : Option (HT α)} (hb : ¬ Ref vars x) {v r : Nat} (h : Rooted vars v r) (hv : v ≠ x) :
    Rooted (Pool.set vars x o) v r := by
  induction h with
  | root h1 h2 => exact .root (by rw [set_ne hv]; exact h1) h2
  | @step v t w r h1 h2 _ ih =>
    exact .step (by rw [set_ne hv]; exact h1) h2 (ih fun e => hb ⟨v, t, h1, e ▸ h2⟩)

/-- Changing a variable that is not borrowed. -/
theorem Struct.set {vars : Nat → Option (HT α)} (hs : Struct vars) {x : Nat} (hb : ¬ Ref vars x) {o : Option (HT α)}
    (h1 : ∀ t h, o = some t → t.handle = some h → t.device ≠ none)
    (h2 : ∀ t, o = some t → t.host ≠ none → t.handle = none ∧ t.reference = none)
    (h3 : ∀ t w, o = some t → t.reference = some w → w ≠ x ∧ ∃ u, vars w = some u ∧ u.handle = t.handle ∧ u.device = t.device) :
    Struct (Pool.set vars x o) where
  dev v t h e := by
    by_cases hv : v = x
    · subst hv; rw [set_same] at e; exact h1 t h e
    · rw [set_ne hv] at e; exact hs.dev v t h e
  host v t e := by
    by_cases hv : v = x
    · subst hv; rw [set_same] at e; exact h2 t e
    · rw [set_ne hv] at e; exact hs.host v t e
  edge v t w e hr := by
    by_cases hv : v = x
    · subst hv; rw [set_same] at e
      obtain ⟨a, u, b⟩ := h3 t w e hr
      exact ⟨u, by rw [set_ne a]; exact b.1, b.2⟩
    · rw [set_ne hv] at e
      obtain ⟨u, hu⟩ := hs.edge v t w e hr
      have hw : w ≠ x := fun q => hb ⟨v, t, e, q ▸ hr⟩
      exact ⟨u, by rw [set_ne hw]; exact hu.1, hu.2⟩
  rooted v t e := by
    by_cases hv : v = x
    · subst hv; rw [set_same] at e
      cases hr : t.reference with
      | none => exact ⟨v, .root (by rw [set_same]; exact e) hr⟩
      | some w =>
        obtain ⟨a, u, b, _⟩ := h3 t w e hr
        obtain ⟨r, hr'⟩ := hs.rooted w u b
        exact ⟨r, .step (by rw [set_same]; exact e) hr (hr'.set hb a)⟩
    · rw [set_ne hv] at e
      obtain ⟨r, hr⟩ := hs.rooted v t e
      exact ⟨r, hr.set hb hv⟩

/-- A valid tensor's block is in use, and belongs to an owner which is the tensor itself or is borrowed. -/
theorem Inv.handle {st : St α} (I : Inv st) {v : Nat} {t : HT α} (ht : st.vars v = some t) {d h : Nat} (hd : t.device = some d) (hh : t.handle = some h) :
    ∃ r u, st.vars r = some u ∧ u.reference = none ∧ u.device = some d ∧ u.handle = some h ∧ (v = r ∨ Ref st.vars r) ∧ h ∈ (st.pool d).blocks.map Prod.fst := by
  obtain ⟨r, hr⟩ := I.struct.rooted v t ht
  obtain ⟨u, h1, h2, h3, h4⟩ := hr.same I.struct ht
  refine ⟨r, u, h1, h2, h4.trans hd, h3.trans hh, hr.borrowed, ?_⟩
  obtain ⟨evs, he, hl⟩ := I.own.hist d
  exact he.live_blocks ((hl h).mpr ⟨r, u, h1, h2, h4.trans hd, h3.trans hh⟩)

/-- What `new_handle` does. -/
theorem newHandle_ok [Zero α] {st : St α} (I : Inv st) {d size fresh s : Nat} (hf : FreshOk st fresh) (hc : classOf size = some s) :
    ∃ st' h P', newHandle st d size fresh = ok (st', h) ∧ st'.vars = st.vars ∧ st'.pool = Pool.set st.pool d P' ∧
      (∃ evs, Verif.Hist evs (st.pool d) ∧ Verif.Hist (.new size h :: evs) P' ∧ h ∉ (live evs).map Prod.fst ∧ (∀ h, h ∈ (live evs).map Prod.fst ↔
        ∃ v, Owns (st.vars v) d h)) ∧
      (st'.heap d h).length = 2 ^ s ∧
      (∀ e k, k ∈ (st.pool e).blocks.map Prod.fst → st'.heap e k = st.heap e k) ∧
      (∀ e k c, (k, c) ∈ (st'.pool e).blocks → (st'.heap e k).length = c) := by
  obtain ⟨evs, he, hl⟩ := I.own.hist d
  obtain ⟨P', h, e, he', hn, hcase⟩ := he.new_ok (hf d) hc
  have e1 : newHandle st d size fresh = ok (⟨Pool.set st.pool d P',
      if (st.pool d).free s = [] then Pool.set st.heap d (Pool.set (st.heap d) fresh (List.replicate (2 ^ s) 0)) else st.heap, st.vars⟩, h) := by
    simp only [newHandle, hc, e]
  refine ⟨_, h, P', e1, rfl, rfl, ⟨evs, he, he', hn, hl⟩, ?_, ?_, ?_⟩
  · rcases hcase with ⟨h1, rfl, _⟩ | ⟨h1, h2, _⟩
    · simp [h1, Pool.set]
    · simp only [h1, if_false]
      exact I.own.len d h _ h2
  · intro e' k hk
    simp only
    split
    · by_cases he' : e' = d
      · subst he'
        have : k ≠ fresh := fun q => hf e' (q ▸ hk)
        rw [set_same, set_ne this]
      · rw [set_ne he']
    · rfl
  · intro e' k c hk
    simp only at hk ⊢
    by_cases hed : e' = d
    · subst hed
      rw [set_same] at hk
      rcases hcase with ⟨h1, rfl, h3⟩ | ⟨h1, h2, h3⟩
      · rw [if_pos h1, set_same]
        rw [h3] at hk
        rcases List.mem_cons.mp hk with hk | hk
        · cases hk; simp [Pool.set]
        · have : k ≠ h := fun q => hf e' (q ▸ List.mem_map.mpr ⟨_, hk, rfl⟩)
          rw [set_ne this]; exact I.own.len e' k c hk
      · rw [if_neg h1]; rw [h3] at hk; exact I.own.len e' k c hk
    · rw [set_ne hed] at hk
      have := I.own.len e' k c hk
      split
      · rw [set_ne hed]; exact this
      · exact this

theorem newHandle_panic [Zero α] {st : St α} {d size fresh : Nat} (hc : classOf size = none) : newHandle st d size fresh = panic := by
  simp [newHandle, hc]

theorem newBuf_some {size s : Nat} {m : Nat → α} (hc : classOf size = some s) : newBuf size m = ok ((List.range (2 ^ s)).map m) := by
  simp [newBuf, hc]
theorem newBuf_none {size : Nat} {m : Nat → α} (hc : classOf size = none) : newBuf size m = panic := by
  simp [newBuf, hc]

/-- Any list is the stale content for some choice. -/
theorem exists_stale [Zero α] (l : List α) : ∃ m : Nat → α, (List.range l.length).map m = l := by
  refine ⟨fun i => l.getD i 0, ?_⟩
  apply List.ext_getElem
  · simp
  · intro i h1 h2
    simp only [List.getElem_map, List.getElem_range]
    rw [List.getD_eq_getElem?_getD, List.getElem?_eq_getElem h2]; rfl

end Life
end Verif
