import Verif.PoolLemmas
import Mathlib.Data.List.Perm.Basic

/-!
# Properties C09–C14: the memory pool
-/

namespace Verif
open Res Pool

/-- `2^k` is the smallest power of two that is at least `max size 64`. -/
def IsClass (size k : Nat) : Prop := max size 64 ≤ 2 ^ k ∧ ∀ t, max size 64 ≤ 2 ^ t → k ≤ t

/-! ### Histories of sequential calls -/

/-- Observable events: `new_handle(size)` returned `h`; `drop_handle(h)` returned. -/
inductive Ev where
  | new (size h : Nat)
  | drop (h : Nat)

/-- The handles that are live after a history (newest event first), with the size that was requested. -/
def live : List Ev → List (Nat × Nat)
  | [] => []
  | .new size h :: evs => (h, size) :: live evs
  | .drop h :: evs => (live evs).filter (fun p => p.1 ≠ h)

/-- Histories of a program that drops only live handles; the back end never gives out an address twice. -/
inductive Hist : List Ev → Pool → Prop
  | nil : Hist [] Pool.init
  | new {evs P P' size fresh h} : Hist evs P → fresh ∉ P.blocks.map Prod.fst → P.newHandle size fresh = (P', some h) →
      Hist (.new size h :: evs) P'
  | drop {evs P P' h} : Hist evs P → h ∈ (live evs).map Prod.fst → P.dropHandle h = (P', true) → Hist (.drop h :: evs) P'

theorem filter_eq_erase {l : List (Nat × Nat)} (hn : (l.map Prod.fst).Nodup) {h size : Nat} (hm : (h, size) ∈ l) :
    l.filter (fun p => p.1 ≠ h) = l.erase (h, size) := by
  induction l with
  | nil => cases hm
  | cons a l ih =>
    rw [List.map_cons, List.nodup_cons] at hn
    by_cases ha : a.1 = h
    · have hnm : ∀ b, b ∈ l → b.1 ≠ h := fun b hb e => hn.1 (List.mem_map.mpr ⟨b, hb, by rw [e, ha]⟩)
      have ea : a = (h, size) := by
        rcases List.mem_cons.mp hm with e | e
        · exact e.symm
        · exact (hnm _ e rfl).elim
      rw [ea, List.erase_cons_head, List.filter_cons_of_neg (by simp)]
      exact List.filter_eq_self.mpr fun b hb => by simpa using hnm b hb
    · have hm' : (h, size) ∈ l := by
        rcases List.mem_cons.mp hm with e | e
        · exact (ha (by rw [← e])).elim
        · exact e
      rw [List.filter_cons_of_pos (by simpa using ha), ih hn.2 hm']
      rw [List.erase_cons_tail]
      simp only [beq_iff_eq]
      intro e
      exact ha (by rw [e])

theorem set_set (f : Nat → β) (i : Nat) (v w : β) : Pool.set (Pool.set f i v) i w = Pool.set f i w := by
  funext j; simp only [Pool.set_apply]; split <;> rfl
theorem set_eq_self (f : Nat → β) (i : Nat) : Pool.set f i (f i) = f := by
  funext j; simp only [Pool.set_apply]; split
  · next h => rw [h]
  · rfl

/-- A sequential history is a run of the concurrent system in which one thread does everything. -/
theorem Hist.reach {evs : List Ev} {P : Pool} (h : Hist evs P) :
    Sys.Reach ⟨P, none, none, fun _ => .idle, live evs⟩ := by
  induction h with
  | nil => exact .init
  | @new evs P P' size fresh h _ hf hn ih =>
    unfold newHandle at hn
    cases hc : classOf size with
    | none => rw [hc] at hn; simp at hn
    | some s =>
      rw [hc] at hn
      simp only at hn
      cases hr : (P.take s fresh).1.register (P.take s fresh).2 s with
      | none => rw [hr] at hn; simp at hn
      | some Q =>
        rw [hr] at hn
        simp only [Prod.mk.injEq, Option.some.injEq] at hn
        obtain ⟨rfl, rfl⟩ := hn
        have r1 := ih.step (.callNew _ 0 size s rfl hc)
        have r2 := r1.step (.newLock _ 0 size s (by simp) rfl)
        have r3 := r2.step (.newBody _ 0 size s fresh (by simp) hf)
        have r4 := r3.step (.regLock _ 0 size s (P.take s fresh).2 (by simp) rfl)
        have r5 := r4.step (.regBody _ 0 size s (P.take s fresh).2 Q (by simp) hr)
        simp only [set_set] at r5
        have e : Pool.set (fun _ => Thr.idle) 0 Thr.idle = fun _ => Thr.idle := by funext j; simp [Pool.set_apply]
        rw [e] at r5
        exact r5
  | @drop evs P P' h _ hm hd ih =>
    obtain ⟨⟨h', size⟩, hm', e⟩ := List.mem_map.mp hm
    simp only at e
    subst e
    unfold dropHandle at hd
    cases hu : P.unregister h' with
    | mk Q o =>
      rw [hu] at hd
      cases o with
      | none => simp at hd
      | some s =>
        simp only [Prod.mk.injEq, and_true] at hd
        subst hd
        have r1 := ih.step (.callDrop _ 0 h' size rfl hm')
        have r2 := r1.step (.dropLock _ 0 h' (by simp) rfl)
        have r3 := r2.step (.dropBody _ 0 h' (by simp))
        simp only [hu, Sys.afterUnreg] at r3
        have r4 := r3.step (.giveLock _ 0 s h' (by simp) rfl)
        have r5 := r4.step (.giveBody _ 0 s h' (by simp))
        simp only [set_set] at r5
        have e : Pool.set (fun _ => Thr.idle) 0 Thr.idle = fun _ => Thr.idle := by funext j; simp [Pool.set_apply]
        rw [e] at r5
        rw [live, filter_eq_erase ih.inv.ownedNodup hm']
        exact r5

theorem Hist.reg_live {evs : List Ev} {P : Pool} (h : Hist evs P) {a s : Nat} (ha : P.reg a = some s) :
    a ∈ (live evs).map Prod.fst := by
  induction h generalizing a s with
  | nil => cases ha
  | @new evs P P' size fresh h _ hf hn ih =>
    unfold newHandle at hn
    cases hc : classOf size with
    | none => rw [hc] at hn; simp at hn
    | some k =>
      rw [hc] at hn
      simp only at hn
      cases hr : (P.take k fresh).1.register (P.take k fresh).2 k with
      | none => rw [hr] at hn; simp at hn
      | some Q =>
        rw [hr] at hn
        simp only [Prod.mk.injEq, Option.some.injEq] at hn
        obtain ⟨rfl, rfl⟩ := hn
        unfold register at hr
        split at hr
        · cases hr
        · simp only [Option.some.injEq] at hr
          subst hr
          simp only [Pool.set_apply] at ha
          rw [live, List.map_cons, List.mem_cons]
          split at ha
          · left; assumption
          · right
            have : (P.take k fresh).1.reg = P.reg := by unfold take; split <;> rfl
            rw [this] at ha
            exact ih ha
  | @drop evs P P' h _ hm hd ih =>
    unfold dropHandle unregister at hd
    by_cases hp : P.poisoned = true
    · rw [if_pos hp] at hd; simp at hd
    · rw [if_neg hp] at hd
      cases hr : P.reg h with
      | none => rw [hr] at hd; simp at hd
      | some k =>
        rw [hr] at hd
        simp only [Prod.mk.injEq, and_true] at hd
        subst hd
        simp only [give, Pool.set_apply] at ha
        split at ha
        · cases ha
        · next hne =>
          obtain ⟨b, hb, e⟩ := List.mem_map.mp (ih ha)
          refine List.mem_map.mpr ⟨b, ?_, e⟩
          rw [live, List.mem_filter]
          exact ⟨hb, by simpa [e] using hne⟩

/-! ### C09 -/

/-- C09: on a device in good order `new_handle(size)` panics iff size = 0 or size > 2^31 (for every u32 `size`). -/
theorem C09_newHandle_panics_iff {evs : List Ev} {P : Pool} (h : Hist evs P) {size : Nat} (hs : size < U32) (fresh : Nat) :
    (P.newHandle size fresh).2 = none ↔ size = 0 ∨ 2 ^ 31 < size := by
  rw [← classOf_none_iff hs]
  have hp : P.poisoned = false := h.reach.inv.np
  unfold newHandle
  cases hc : classOf size with
  | none => simp
  | some s =>
    simp only [reduceCtorEq, iff_false]
    have : (P.take s fresh).1.poisoned = false := by unfold take; split <;> exact hp
    simp [register, this]

/-- C09: the block behind the returned handle has capacity 2^k, the smallest power of two ≥ max(size, 64). -/
theorem C09_newHandle_capacity {evs : List Ev} {P P' : Pool} (h : Hist evs P) {size fresh a : Nat} (hs : size < U32)
    (hf : fresh ∉ P.blocks.map Prod.fst) (hn : P.newHandle size fresh = (P', some a)) :
    ∃ k, (a, 2 ^ k) ∈ P'.blocks ∧ IsClass size k := by
  obtain ⟨s, h1, _, h3⟩ := (Hist.new h hf hn).reach.inv.owned a size List.mem_cons_self
  exact ⟨s, h3, ((classOf_iff hs).mp h1).2.2⟩

/-- C09: the arithmetic behind it: `calculate_shifts` computes the ceiling of log2 of every non-zero u32, without overflow. -/
theorem C09_calculateShifts {x : Nat} (h0 : x ≠ 0) (h : x < U32) :
    ∃ s, calculateShifts .debug x = ok s ∧ x ≤ 2 ^ s ∧ ∀ t, x ≤ 2 ^ t → s ≤ t := calculateShifts_spec h0 h

example : (Pool.init.newHandle 100 7).2 = some 7 ∧ (Pool.init.newHandle 100 7).1.blocks = [(7, 128)] ∧
    (Pool.init.newHandle 1 7).1.blocks = [(7, 64)] ∧ (Pool.init.newHandle 0 7).2 = none ∧
    (Pool.init.newHandle (2 ^ 31 + 1) 7).2 = none := by decide

/-! ### C10 -/

/-- C10: after any history the live handles are pairwise distinct and each has the capacity requested for it. -/
theorem C10_live_distinct {evs : List Ev} {P : Pool} (h : Hist evs P) :
    ((live evs).map Prod.fst).Nodup ∧
    ∀ a size, (a, size) ∈ live evs → size < U32 → ∃ k, (a, 2 ^ k) ∈ P.blocks ∧ IsClass size k := by
  refine ⟨h.reach.inv.ownedNodup, fun a size hm hs => ?_⟩
  obtain ⟨s, h1, _, h3⟩ := h.reach.inv.owned a size hm
  exact ⟨s, h3, ((classOf_iff hs).mp h1).2.2⟩

/-- C10: a handle that is live is never handed out again. -/
theorem C10_not_handed_out_twice {evs : List Ev} {P P' : Pool} (h : Hist evs P) {size fresh a : Nat}
    (hf : fresh ∉ P.blocks.map Prod.fst) (hn : P.newHandle size fresh = (P', some a)) : a ∉ (live evs).map Prod.fst := by
  have := (Hist.new h hf hn).reach.inv.ownedNodup
  exact (List.nodup_cons.mp this).1

/-- C10: every drop of a live handle succeeds. -/
theorem C10_drop_succeeds {evs : List Ev} {P : Pool} (h : Hist evs P) {a : Nat} (ha : a ∈ (live evs).map Prod.fst) :
    ∃ P', P.dropHandle a = (P', true) := by
  obtain ⟨⟨a', size⟩, hm, rfl⟩ := List.mem_map.mp ha
  obtain ⟨s, _, h2, _⟩ := h.reach.inv.owned _ _ hm
  have hp : P.poisoned = false := h.reach.inv.np
  simp only at h2 ⊢
  refine ⟨(P.dropHandle a').1, ?_⟩
  simp [dropHandle, unregister, hp, h2]

/-- Non-vacuity: allocate, drop, allocate again (recycled), allocate another. -/
example : ∃ P, Hist [.new 60 9, .new 50 5, .drop 5, .new 40 5] P ∧ live [.new 60 9, .new 50 5, .drop 5, .new 40 5] = [(9, 60), (5, 50)] := by
  have h1 : Hist [.new 40 5] _ := Hist.new (size := 40) (fresh := 5) (h := 5) .nil (by decide) rfl
  have h2 : Hist (.drop 5 :: _) _ := Hist.drop h1 (by decide) rfl
  have h3 : Hist (.new 50 5 :: _) _ := Hist.new (size := 50) (fresh := 8) (h := 5) h2 (by decide) rfl
  exact ⟨_, Hist.new (size := 60) (fresh := 9) (h := 9) h3 (by decide) rfl, by decide⟩

/-! ### C11 -/

/-- C11: at every moment of every interleaving no handle is held by two parties (user program, a thread inside a call, an idle list),
and neither the program nor an idle list holds a handle twice. -/
theorem C11_exclusive_ownership {σ : Sys} (h : σ.Reach) :
    (∀ p q a, σ.Holds p a → σ.Holds q a → p = q) ∧ (σ.owned.map Prod.fst).Nodup ∧ ∀ s, (σ.pool.free s).Nodup :=
  ⟨h.inv.excl, h.inv.ownedNodup, h.inv.freeNodup⟩

/-- C11: the registered size class of every owned handle is its true capacity and is the class of the size that was requested; every
idle block is in the list of its own class. -/
theorem C11_registered_class {σ : Sys} (h : σ.Reach) :
    (∀ a size, (a, size) ∈ σ.owned → size < U32 →
      ∃ k, σ.pool.reg a = some k ∧ (a, 2 ^ k) ∈ σ.pool.blocks ∧ IsClass size k) ∧
    (∀ s a, a ∈ σ.pool.free s → (a, 2 ^ s) ∈ σ.pool.blocks) ∧
    (∀ a c d, (a, c) ∈ σ.pool.blocks → (a, d) ∈ σ.pool.blocks → c = d) := by
  refine ⟨fun a size hm hs => ?_, fun s a hm => (h.inv.freeBlocks s a hm).1, fun a c d h1 h2 => Sys.block_class h.inv h1 h2⟩
  obtain ⟨s, h1, h2, h3⟩ := h.inv.owned a size hm
  exact ⟨s, h2, h3, ((classOf_iff hs).mp h1).2.2⟩

/-- C11: neither `drop_handle` of an owned handle nor `new_handle` with a legal size ever panics, and the lock is never poisoned. -/
theorem C11_no_panic {σ : Sys} (h : σ.Reach) :
    σ.pool.poisoned = false ∧
    (∀ t a, σ.thr t = .dropIn a → (σ.pool.unregister a).2 ≠ none) ∧
    (∀ t size s a, σ.thr t = .regIn size s a → σ.pool.register a s ≠ none) := by
  have I := h.inv
  refine ⟨I.np, fun t a ht => ?_, fun t size s a _ => ?_⟩
  · have := I.thr t
    rw [ht] at this
    obtain ⟨s, h1, _⟩ := this
    simp [unregister, I.np, h1]
  · simp [register, I.np]

/-- C11: each mutex has at most one holder, no thread holds both, and a thread holding one is executing its section (it is not
waiting for the other). -/
theorem C11_locks {σ : Sys} (h : σ.Reach) :
    (∀ t, σ.lockP = some t → (∃ size s, σ.thr t = .newIn size s) ∨ ∃ s a, σ.thr t = .giveIn s a) ∧
    (∀ t, σ.lockR = some t → (∃ size s a, σ.thr t = .regIn size s a) ∨ ∃ a, σ.thr t = .dropIn a) := by
  constructor
  · intro t ht
    have := (h.inv.lockP t).mp ht
    cases hs : σ.thr t <;> rw [hs] at this <;> simp [Thr.holdsP] at this ⊢
  · intro t ht
    have := (h.inv.lockR t).mp ht
    cases hs : σ.thr t <;> rw [hs] at this <;> simp [Thr.holdsR] at this ⊢

theorem exists_fresh (l : List Nat) : ∃ f, f ∉ l := by
  have : ∃ b, ∀ a ∈ l, a < b := by
    induction l with
    | nil => exact ⟨0, fun _ h => by cases h⟩
    | cons x l ih =>
      obtain ⟨b, hb⟩ := ih
      refine ⟨max b (x + 1), fun a ha => ?_⟩
      rcases List.mem_cons.mp ha with rfl | ha
      · omega
      · have := hb a ha; omega
  obtain ⟨b, hb⟩ := this
  exact ⟨b, fun hm => Nat.lt_irrefl _ (hb b hm)⟩

theorem holderP_steps {σ : Sys} (h : σ.Reach) {u : Nat} (hu : σ.lockP = some u) :
    ∃ τ, Sys.Step σ τ ∧ τ.lockP = none ∧ τ.thr u ≠ σ.thr u ∧ τ.lockR = σ.lockR := by
  rcases (C11_locks h).1 u hu with ⟨size, s, ht⟩ | ⟨s, a, ht⟩
  · obtain ⟨f, hf⟩ := exists_fresh (σ.pool.blocks.map Prod.fst)
    exact ⟨_, .newBody σ u size s f ht hf, rfl, by rw [ht]; simp, rfl⟩
  · exact ⟨_, .giveBody σ u s a ht, rfl, by rw [ht]; simp, rfl⟩

theorem holderR_steps {σ : Sys} (h : σ.Reach) {u : Nat} (hu : σ.lockR = some u) :
    ∃ τ, Sys.Step σ τ ∧ τ.lockR = none ∧ τ.thr u ≠ σ.thr u ∧ τ.lockP = σ.lockP := by
  rcases (C11_locks h).2 u hu with ⟨size, s, a, ht⟩ | ⟨a, ht⟩
  · have : σ.pool.register a s = some { σ.pool with reg := Pool.set σ.pool.reg a (some s) } := by
      simp [register, h.inv.np]
    exact ⟨_, .regBody σ u size s a _ ht this, rfl, by rw [ht]; simp, rfl⟩
  · refine ⟨_, .dropBody σ u a ht, rfl, ?_, rfl⟩
    rw [ht]
    simp only [Pool.set_self]
    unfold Sys.afterUnreg
    split <;> simp

/-- C11 (no deadlock): a thread inside a pool call can always take its next step, or a thread that holds a mutex can take its next step,
and that step releases the mutex. -/
theorem C11_no_deadlock {σ : Sys} (h : σ.Reach) {t : Nat} (h1 : σ.thr t ≠ .idle) (h2 : σ.thr t ≠ .panicked) :
    (∃ τ, Sys.Step σ τ ∧ τ.thr t ≠ σ.thr t) ∨
    (∃ u τ, σ.lockP = some u ∧ Sys.Step σ τ ∧ τ.thr u ≠ σ.thr u ∧ τ.lockP = none) ∨
    (∃ u τ, σ.lockR = some u ∧ Sys.Step σ τ ∧ τ.thr u ≠ σ.thr u ∧ τ.lockR = none) := by
  have hP : (∃ u, σ.lockP = some u) → ∃ u τ, σ.lockP = some u ∧ Sys.Step σ τ ∧ τ.thr u ≠ σ.thr u ∧ τ.lockP = none := by
    rintro ⟨u, hu⟩
    obtain ⟨τ, a, b, c, _⟩ := holderP_steps h hu
    exact ⟨u, τ, hu, a, c, b⟩
  have hR : (∃ u, σ.lockR = some u) → ∃ u τ, σ.lockR = some u ∧ Sys.Step σ τ ∧ τ.thr u ≠ σ.thr u ∧ τ.lockR = none := by
    rintro ⟨u, hu⟩
    obtain ⟨τ, a, b, c, _⟩ := holderR_steps h hu
    exact ⟨u, τ, hu, a, c, b⟩
  cases ht : σ.thr t with
  | idle => exact (h1 ht).elim
  | panicked => exact (h2 ht).elim
  | newWait size s =>
    cases hl : σ.lockP with
    | none => left; exact ⟨_, .newLock σ t size s ht hl, by simp⟩
    | some u => right; left; rw [← hl]; exact hP ⟨u, hl⟩
  | newIn size s =>
    right; left; exact hP ⟨t, (h.inv.lockP t).mpr (by rw [ht]; rfl)⟩
  | regWait size s a =>
    cases hl : σ.lockR with
    | none => left; exact ⟨_, .regLock σ t size s a ht hl, by simp⟩
    | some u => right; right; rw [← hl]; exact hR ⟨u, hl⟩
  | regIn size s a => right; right; exact hR ⟨t, (h.inv.lockR t).mpr (by rw [ht]; rfl)⟩
  | dropWait a =>
    cases hl : σ.lockR with
    | none => left; exact ⟨_, .dropLock σ t a ht hl, by simp⟩
    | some u => right; right; rw [← hl]; exact hR ⟨u, hl⟩
  | dropIn a => right; right; exact hR ⟨t, (h.inv.lockR t).mpr (by rw [ht]; rfl)⟩
  | giveWait s a =>
    cases hl : σ.lockP with
    | none => left; exact ⟨_, .giveLock σ t s a ht hl, by simp⟩
    | some u => right; left; rw [← hl]; exact hP ⟨u, hl⟩
  | giveIn s a => right; left; exact hP ⟨t, (h.inv.lockP t).mpr (by rw [ht]; rfl)⟩

/-- Non-vacuity for C11: two threads in the middle of their calls: thread 0 has popped a recycled block and waits for `mem_shift` while
thread 1 holds `pool`. -/
example : ∃ σ : Sys, σ.Reach ∧ σ.thr 0 = .regWait 70 7 5 ∧ σ.thr 1 = .newIn 10 6 ∧ σ.lockP = some 1 := by
  have hc : classOf 70 = some 7 := by decide
  have hc' : classOf 10 = some 6 := by decide
  have r0 : Sys.Reach ⟨_, none, none, fun _ => .idle, _⟩ :=
    (Hist.drop (h := 5) (Hist.new (size := 100) (fresh := 5) (h := 5) .nil (by decide) rfl) (by decide) rfl).reach
  have r1 := r0.step (.callNew _ 0 70 7 rfl hc)
  have r2 := r1.step (.newLock _ 0 70 7 rfl rfl)
  have r3 := r2.step (.newBody _ 0 70 7 11 rfl (by decide))
  have r4 := r3.step (.callNew _ 1 10 6 rfl hc')
  have r5 := r4.step (.newLock _ 1 10 6 rfl rfl)
  exact ⟨_, r5, rfl, rfl, rfl⟩

/-! ### C12 -/

/-- Number of live handles of size class `s` after a history. -/
def liveOf (s : Nat) (evs : List Ev) : Nat := (live evs).countP (fun p => classOf p.2 = some s)

/-- Greatest number of simultaneously live handles of class `s` at any time of the history. -/
def peak (s : Nat) : List Ev → Nat
  | [] => 0
  | e :: evs => max (peak s evs) (liveOf s (e :: evs))

/-- Number of blocks of class `s` ever requested from the back end. -/
def blocksOf (s : Nat) (P : Pool) : Nat := P.blocks.countP (fun b => b.2 = 2 ^ s)

theorem pow_inj {a b : Nat} (h : 2 ^ a = 2 ^ b) : a = b := Nat.pow_right_injective (by decide) h

theorem Hist.count {evs : List Ev} {P : Pool} (h : Hist evs P) (s : Nat) :
    blocksOf s P = liveOf s evs + (P.free s).length ∧ blocksOf s P = peak s evs := by
  induction h with
  | nil => exact ⟨rfl, rfl⟩
  | @new evs P P' size fresh h hh hf hn ih =>
    unfold newHandle at hn
    cases hc : classOf size with
    | none => rw [hc] at hn; simp at hn
    | some k =>
      rw [hc] at hn
      simp only at hn
      have hp : (P.take k fresh).1.poisoned = false := by unfold take; split <;> exact hh.reach.inv.np
      rw [register, if_neg (by simp [hp])] at hn
      simp only [Prod.mk.injEq, Option.some.injEq] at hn
      obtain ⟨rfl, rfl⟩ := hn
      have hl : ∀ a, liveOf s (.new size a :: evs) = liveOf s evs + if k = s then 1 else 0 := by
        intro a
        unfold liveOf
        rw [live, List.countP_cons]
        simp [hc]
      obtain ⟨ih1, ih2⟩ := ih
      cases hfr : P.free k with
      | cons a rest =>
        have ht : P.take k fresh = ({ P with free := Pool.set P.free k rest }, a) := by unfold take; rw [hfr]
        rw [ht, peak, hl]
        have hb : blocksOf s ⟨Pool.set P.free k rest, Pool.set P.reg a (some k), P.poisoned, P.blocks⟩ = blocksOf s P := rfl
        simp only
        rw [hb, Pool.set_apply]
        by_cases hks : k = s
        · subst hks
          rw [hfr] at ih1
          simp only [List.length_cons] at ih1
          simp only [if_true]
          omega
        · rw [if_neg hks, if_neg (fun e => hks e.symm)]
          omega
      | nil =>
        have ht : P.take k fresh = ({ P with blocks := (fresh, 2 ^ k) :: P.blocks }, fresh) := by unfold take; rw [hfr]
        rw [ht, peak, hl]
        have hb : blocksOf s ⟨P.free, Pool.set P.reg fresh (some k), P.poisoned, (fresh, 2 ^ k) :: P.blocks⟩ =
            blocksOf s P + if k = s then 1 else 0 := by
          unfold blocksOf
          rw [List.countP_cons]
          by_cases hks : k = s
          · simp [hks]
          · have : ¬ (2 : Nat) ^ k = 2 ^ s := fun e => hks (pow_inj e)
            simp [hks, this]
        simp only
        rw [hb]
        by_cases hks : k = s
        · subst hks
          rw [hfr] at ih1 ⊢
          simp only [List.length_nil, if_true] at ih1 ⊢
          omega
        · rw [if_neg hks]; omega
  | @drop evs P P' h hh hm hd ih =>
    obtain ⟨⟨a, size⟩, hm', e⟩ := List.mem_map.mp hm
    simp only at e
    subst e
    obtain ⟨k, hc, hr, _⟩ := hh.reach.inv.owned a size hm'
    have hp : P.poisoned = false := hh.reach.inv.np
    have hu : P.dropHandle a = ({ P with reg := Pool.set P.reg a none, free := Pool.set P.free k (a :: P.free k) }, true) := by
      simp only at hr
      simp [dropHandle, unregister, hp, hr, give]
    rw [hu] at hd
    simp only [Prod.mk.injEq, and_true] at hd
    subst hd
    obtain ⟨ih1, ih2⟩ := ih
    have hl : liveOf s evs = liveOf s (.drop a :: evs) + if k = s then 1 else 0 := by
      unfold liveOf
      rw [live, filter_eq_erase hh.reach.inv.ownedNodup hm', (List.perm_cons_erase hm').countP_eq, List.countP_cons]
      simp [hc]
    have hb : blocksOf s ⟨Pool.set P.free k (a :: P.free k), Pool.set P.reg a none, P.poisoned, P.blocks⟩ = blocksOf s P := rfl
    rw [hb, peak]
    simp only
    rw [Pool.set_apply]
    by_cases hks : k = s
    · subst hks
      simp only [if_true, List.length_cons] at hl ⊢
      omega
    · rw [if_neg (fun e => hks e.symm)]
      rw [if_neg hks] at hl
      omega

/-- C12: the number of blocks of a class ever requested from the back end is the maximum number of simultaneously live handles of that
class. -/
theorem C12_blocks_eq_peak {evs : List Ev} {P : Pool} (h : Hist evs P) (s : Nat) : blocksOf s P = peak s evs := (h.count s).2

/-- C12: the back end is asked for a block only if no block of the class is idle. -/
theorem C12_backend_only_if_no_idle {P : Pool} {size fresh : Nat} (h : (P.newHandle size fresh).1.blocks ≠ P.blocks) :
    ∃ s, classOf size = some s ∧ P.free s = [] := by
  unfold newHandle at h
  cases hc : classOf size with
  | none => rw [hc] at h; exact (h rfl).elim
  | some s =>
    refine ⟨s, rfl, ?_⟩
    cases hf : P.free s with
    | nil => rfl
    | cons a l =>
      exfalso
      rw [hc] at h
      simp only [take, hf, register] at h
      by_cases hp : P.poisoned = true
      · simp [hp] at h
      · simp [hp] at h

example : peak 6 [.new 60 9, .new 50 5, .drop 5, .new 40 5] = 2 ∧ liveOf 6 [.drop 5, .new 40 5] = 0 := by decide

/-! ### C13 -/

/-- C13: dropping the pool releases each idle block exactly once and no live one: the released addresses are pairwise distinct and are
exactly the blocks that are not live. -/
theorem C13_teardown {evs : List Ev} {P : Pool} (h : Hist evs P) :
    P.teardown.Nodup ∧ ∀ a, a ∈ P.teardown ↔ a ∈ P.blocks.map Prod.fst ∧ a ∉ (live evs).map Prod.fst := by
  have I := h.reach.inv
  constructor
  · unfold teardown
    rw [List.nodup_flatMap]
    refine ⟨fun s _ => List.nodup_reverse.mpr (I.freeNodup s), ?_⟩
    refine List.Pairwise.imp_of_mem ?_ (List.nodup_range (n := 32))
    intro s t _ _ hst
    simp only [Function.onFun]
    intro a ha hb
    have := I.excl (.idle s) (.idle t) a (by simpa [Sys.Holds] using ha) (by simpa [Sys.Holds] using hb)
    cases this
    exact hst rfl
  · intro a
    unfold teardown
    simp only [List.mem_flatMap, List.mem_range, List.mem_reverse]
    constructor
    · rintro ⟨s, _, hm⟩
      refine ⟨List.mem_map.mpr ⟨_, (I.freeBlocks s a hm).1, rfl⟩, fun hl => ?_⟩
      obtain ⟨⟨b, sz⟩, hb, rfl⟩ := List.mem_map.mp hl
      have := I.excl (.idle s) .user _ hm ⟨sz, hb⟩
      cases this
    · rintro ⟨hb, hl⟩
      obtain ⟨⟨b, c⟩, hb', rfl⟩ := List.mem_map.mp hb
      obtain ⟨p, hp⟩ := I.cover b c hb'
      cases p with
      | user =>
        obtain ⟨sz, hm⟩ := hp
        exact (hl (List.mem_map.mpr ⟨_, hm, rfl⟩)).elim
      | thread t => simp [Sys.Holds, Thr.handle] at hp
      | idle s => exact ⟨s, by have := (I.freeBlocks s _ hp).2; omega, hp⟩

/-- C13: if every handle was dropped before, every block obtained from the back end is released exactly once. -/
theorem C13_teardown_complete {evs : List Ev} {P : Pool} (h : Hist evs P) (hl : live evs = []) :
    P.teardown.Perm (P.blocks.map Prod.fst) := by
  obtain ⟨h1, h2⟩ := C13_teardown h
  rw [List.perm_ext_iff_of_nodup h1 h.reach.inv.blocks]
  intro a
  rw [h2, hl]
  simp

example : ∃ P, Hist [.drop 9, .new 600 9, .drop 5, .new 40 5] P ∧ P.teardown = [5, 9] := by
  have h1 : Hist [.new 40 5] _ := Hist.new (size := 40) (fresh := 5) (h := 5) .nil (by decide) rfl
  have h2 : Hist (.drop 5 :: _) _ := Hist.drop h1 (by decide) rfl
  have h3 : Hist (.new 600 9 :: _) _ := Hist.new (size := 600) (fresh := 9) (h := 9) h2 (by decide) rfl
  exact ⟨_, Hist.drop h3 (by decide) rfl, by decide⟩

/-! ### C14 -/

/-- C14: dropping a handle that is not live (never handed out, or already dropped) panics, leaves the pool's lists, registry and blocks as they
were, and poisons the registry lock. -/
theorem C14_drop_unknown_panics {evs : List Ev} {P : Pool} (h : Hist evs P) {a : Nat} (ha : a ∉ (live evs).map Prod.fst) :
    (P.dropHandle a).2 = false ∧ (P.dropHandle a).1 = { P with poisoned := true } := by
  have hp : P.poisoned = false := h.reach.inv.np
  cases hr : P.reg a with
  | some s => exact (ha (h.reg_live hr)).elim
  | none => simp [dropHandle, unregister, hp, hr]

/-- A later call on the device. -/
inductive Call where
  | new (size fresh : Nat)
  | drop (h : Nat)

/-- The pool after the call, and whether it returned (did not panic). -/
def Call.run (P : Pool) : Call → Pool × Bool
  | .new size fresh => ((P.newHandle size fresh).1, (P.newHandle size fresh).2.isSome)
  | .drop h => P.dropHandle h

/-- The outcomes of a sequence of calls. -/
def runCalls : Pool → List Call → List Bool
  | _, [] => []
  | P, c :: cs => (c.run P).2 :: runCalls (c.run P).1 cs

/-- C14: after that, every later call of the device panics, whatever the calls. -/
theorem C14_poisoned_forever {P : Pool} (hp : P.poisoned = true) (cs : List Call) : ∀ b, b ∈ runCalls P cs → b = false := by
  induction cs generalizing P with
  | nil => intro b hb; cases hb
  | cons c cs ih =>
    have key : (c.run P).2 = false ∧ (c.run P).1.poisoned = true := by
      cases c with
      | drop a => simp [Call.run, dropHandle, unregister, hp]
      | new size fresh =>
        simp only [Call.run, newHandle]
        cases hc : classOf size with
        | none => simp [hp]
        | some s =>
          have : (P.take s fresh).1.poisoned = true := by unfold take; split <;> exact hp
          simp [register, this]
    intro b hb
    rcases List.mem_cons.mp hb with rfl | hb
    · exact key.1
    · exact ih key.2 b hb

example : ∃ P, Hist [.drop 5, .new 40 5] P ∧ 5 ∉ (live [.drop 5, .new 40 5]).map Prod.fst ∧ (P.dropHandle 5).2 = false ∧
    runCalls (P.dropHandle 5).1 [.new 3 77, .drop 77, .new 4 78] = [false, false, false] := by
  refine ⟨_, Hist.drop (Hist.new (size := 40) (fresh := 5) (h := 5) .nil (by decide) rfl) (by decide) rfl, by decide, by decide, by decide⟩

end Verif
