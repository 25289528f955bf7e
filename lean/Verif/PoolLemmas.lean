import Verif.Pool
import Mathlib.Tactic.IntervalCases
import Mathlib.Data.List.Nodup

/-! Helper lemmas about the memory pool. -/

namespace Verif
open Res

theorem smear_testBit (x i : Nat) : (smear x).testBit i = true ↔ ∃ d, d < 32 ∧ x.testBit (d + i) = true := by
  constructor
  · intro h
    simp only [smear, Nat.testBit_or, Nat.testBit_shiftRight, Bool.or_eq_true] at h
    rcases h with h | h
    all_goals repeat' (first | rcases h with h | h)
    all_goals first
      | exact ⟨0, by decide, by simpa using h⟩
      | refine ⟨_, ?_, (by simpa only [← Nat.add_assoc] using h)⟩
        decide
  · rintro ⟨d, hd, h⟩
    simp only [smear, Nat.testBit_or, Nat.testBit_shiftRight, Bool.or_eq_true]
    interval_cases d <;> (try simp only [Nat.zero_add] at h) <;> simp [← Nat.add_assoc, h]

theorem smear_eq {x k : Nat} (hk : k < 32) (h1 : 2 ^ k ≤ x) (h2 : x < 2 ^ (k + 1)) : smear x = 2 ^ (k + 1) - 1 := by
  apply Nat.eq_of_testBit_eq
  intro i
  rw [Nat.testBit_two_pow_sub_one, Bool.eq_iff_iff, smear_testBit, decide_eq_true_iff]
  constructor
  · rintro ⟨d, _, h⟩
    by_contra hc
    have : x < 2 ^ (d + i) := Nat.lt_of_lt_of_le h2 (Nat.pow_le_pow_right (by decide) (by omega))
    rw [Nat.testBit_lt_two_pow this] at h
    cases h
  · intro hi
    refine ⟨k - i, by omega, ?_⟩
    have e : k - i + i = k := by omega
    rw [e, Nat.testBit_eq_decide_div_mod_eq]
    have : x / 2 ^ k = 1 := by
      apply Nat.div_eq_of_lt_le
      · omega
      · rw [Nat.pow_succ] at h2; omega
    simp [this]

theorem popcnt_ones : ∀ k, k < 32 → popcnt .debug (2 ^ (k + 1) - 1) = ok (k + 1) := by decide

theorem calculateShifts_eq {x k : Nat} (hk : k < 32) (h1 : 2 ^ k ≤ x) (h2 : x < 2 ^ (k + 1)) :
    calculateShifts .debug x = ok (if x = 2 ^ k then k else k + 1) := by
  have hx : x ≠ 0 := by have := Nat.two_pow_pos k; omega
  unfold calculateShifts
  rw [check_true _ hx, ok_bind, smear_eq hk h1 h2, popcnt_ones k hk, ok_bind]
  have e : usub .debug (k + 1) 1 = ok k := by simp [usub]
  rw [e, ok_bind, check_true _ hk, ok_bind]
  unfold usub
  by_cases h : x = 2 ^ k
  · rw [if_pos h.symm, if_pos (by omega), if_pos h]; simp
  · have h' : ¬ 2 ^ k = x := fun q => h q.symm
    simp [h, h']

theorem exists_log {x : Nat} (h0 : x ≠ 0) (h : x < U32) : ∃ k, k < 32 ∧ 2 ^ k ≤ x ∧ x < 2 ^ (k + 1) := by
  refine ⟨Nat.log2 x, ?_, Nat.log2_self_le h0, Nat.lt_log2_self⟩
  exact (Nat.log2_lt h0).mpr h

/-- `calculate_shifts` is the ceiling of the binary logarithm. -/
theorem calculateShifts_spec {x : Nat} (h0 : x ≠ 0) (h : x < U32) :
    ∃ s, calculateShifts .debug x = ok s ∧ x ≤ 2 ^ s ∧ ∀ t, x ≤ 2 ^ t → s ≤ t := by
  obtain ⟨k, hk, h1, h2⟩ := exists_log h0 h
  refine ⟨_, calculateShifts_eq hk h1 h2, ?_⟩
  by_cases hx : x = 2 ^ k
  · rw [if_pos hx]
    refine ⟨by omega, fun t ht => ?_⟩
    rw [hx] at ht
    exact (Nat.pow_le_pow_iff_right (by decide)).mp ht
  · rw [if_neg hx]
    refine ⟨by omega, fun t ht => ?_⟩
    have : 2 ^ k < 2 ^ t := by omega
    exact (Nat.pow_lt_pow_iff_right (by decide)).mp this

namespace Pool

theorem classOf_iff {size s : Nat} (h : size < U32) :
    classOf size = some s ↔ size ≠ 0 ∧ s ≤ 31 ∧ max size 64 ≤ 2 ^ s ∧ ∀ t, max size 64 ≤ 2 ^ t → s ≤ t := by
  unfold classOf
  by_cases h0 : size = 0
  · simp [h0]
  · rw [if_neg h0]
    obtain ⟨s', hs, h1, h2⟩ := calculateShifts_spec (x := max size 64) (by omega) (by
      have : (64 : Nat) < U32 := by decide
      omega)
    rw [hs]
    simp only
    constructor
    · intro he
      split at he
      · cases he; exact ⟨h0, by assumption, h1, h2⟩
      · cases he
    · rintro ⟨_, hs31, h3, h4⟩
      have : s = s' := Nat.le_antisymm (h4 _ h1) (h2 _ h3)
      subst this
      rw [if_pos hs31]

theorem classOf_none_iff {size : Nat} (h : size < U32) : classOf size = none ↔ size = 0 ∨ 2 ^ 31 < size := by
  unfold classOf
  by_cases h0 : size = 0
  · simp [h0]
  · rw [if_neg h0]
    obtain ⟨s', hs, h1, h2⟩ := calculateShifts_spec (x := max size 64) (by omega) (by
      have : (64 : Nat) < U32 := by decide
      omega)
    rw [hs]
    simp only
    by_cases h31 : s' ≤ 31
    · rw [if_pos h31]
      have : 2 ^ s' ≤ 2 ^ 31 := Nat.pow_le_pow_right (by decide) h31
      simp only [reduceCtorEq, h0, false_or, false_iff]
      omega
    · rw [if_neg h31]
      simp only [h0, false_or, true_iff]
      by_contra hc
      have := h2 31 (by
        have : (64 : Nat) ≤ 2 ^ 31 := by decide
        omega)
      omega

theorem classOf_le {size s : Nat} (h : classOf size = some s) : s ≤ 31 := by
  unfold classOf at h
  split at h
  · cases h
  · split at h
    · split at h
      · cases h; assumption
      · cases h
    · cases h

@[simp] theorem set_self (f : Nat → β) (i : Nat) (v : β) : set f i v i = v := by simp [set]
theorem set_ne (f : Nat → β) {i j : Nat} (v : β) (h : j ≠ i) : set f i v j = f j := by simp [set, h]
theorem set_apply (f : Nat → β) (i : Nat) (v : β) (j : Nat) : set f i v j = if j = i then v else f j := rfl

end Pool

/-! ### Concurrent invariant -/

/-- The handle a thread has in its hands. -/
def Thr.handle : Thr → Option Nat
  | .regWait _ _ h | .regIn _ _ h | .dropWait h | .dropIn h | .giveWait _ h | .giveIn _ h => some h
  | _ => none

/-- Parties that can hold a handle: the user program, a thread inside a pool call, the pool's list of class `s`. -/
inductive Party where
  | user
  | thread (t : Nat)
  | idle (s : Nat)
  deriving DecidableEq

/-- `p` holds the handle `h`. -/
def Sys.Holds (σ : Sys) : Party → Nat → Prop
  | .user, h => ∃ size, (h, size) ∈ σ.owned
  | .thread t, h => (σ.thr t).handle = some h
  | .idle s, h => h ∈ σ.pool.free s

/-- What a thread knows. -/
def Thr.Ok (P : Pool) : Thr → Prop
  | .newWait size s | .newIn size s => Pool.classOf size = some s
  | .regWait size s h | .regIn size s h => Pool.classOf size = some s ∧ (h, 2 ^ s) ∈ P.blocks
  | .dropWait h | .dropIn h => ∃ s, P.reg h = some s ∧ (h, 2 ^ s) ∈ P.blocks ∧ s ≤ 31
  | .giveWait s h | .giveIn s h => (h, 2 ^ s) ∈ P.blocks ∧ s ≤ 31
  | _ => True

/-- The thread holds the mutex of `pool`. -/
def Thr.holdsP : Thr → Bool
  | .newIn _ _ | .giveIn _ _ => true
  | _ => false

/-- The thread holds the mutex of `mem_shift`. -/
def Thr.holdsR : Thr → Bool
  | .regIn _ _ _ | .dropIn _ => true
  | _ => false

structure Sys.Inv (σ : Sys) : Prop where
  np : σ.pool.poisoned = false
  blocks : (σ.pool.blocks.map Prod.fst).Nodup
  freeNodup : ∀ s, (σ.pool.free s).Nodup
  freeBlocks : ∀ s h, h ∈ σ.pool.free s → (h, 2 ^ s) ∈ σ.pool.blocks ∧ s ≤ 31
  ownedNodup : (σ.owned.map Prod.fst).Nodup
  owned : ∀ h size, (h, size) ∈ σ.owned →
    ∃ s, Pool.classOf size = some s ∧ σ.pool.reg h = some s ∧ (h, 2 ^ s) ∈ σ.pool.blocks
  thr : ∀ t, (σ.thr t).Ok σ.pool
  excl : ∀ p q h, σ.Holds p h → σ.Holds q h → p = q
  cover : ∀ h c, (h, c) ∈ σ.pool.blocks → ∃ p, σ.Holds p h
  lockP : ∀ t, σ.lockP = some t ↔ (σ.thr t).holdsP = true
  lockR : ∀ t, σ.lockR = some t ↔ (σ.thr t).holdsR = true

namespace Sys
open Pool (set)

theorem Inv.init : Sys.init.Inv where
  np := rfl
  blocks := List.nodup_nil
  freeNodup := fun _ => List.nodup_nil
  freeBlocks := fun s h hh => by cases hh
  ownedNodup := List.nodup_nil
  owned := fun _ _ h => by cases h
  thr := fun _ => trivial
  excl := by
    rintro p q h hp hq
    cases p <;> simp [Holds, Sys.init, Pool.init, Thr.handle] at hp
  cover := fun _ _ h => by cases h
  lockP := fun t => by simp [Sys.init, Thr.holdsP]
  lockR := fun t => by simp [Sys.init, Thr.holdsR]

/-- Every held handle is a block. -/
theorem Inv.holds_block {σ : Sys} (I : σ.Inv) {p : Party} {h : Nat} (hp : σ.Holds p h) :
    h ∈ σ.pool.blocks.map Prod.fst := by
  cases p with
  | user =>
    obtain ⟨size, hm⟩ := hp
    obtain ⟨s, _, _, hb⟩ := I.owned h size hm
    exact List.mem_map.mpr ⟨_, hb, rfl⟩
  | thread t =>
    have := I.thr t
    simp only [Holds] at hp
    cases hs : σ.thr t <;> rw [hs] at hp this <;> simp only [Thr.handle, reduceCtorEq, Option.some.injEq] at hp <;>
      subst hp <;> simp only [Thr.Ok] at this
    · exact List.mem_map.mpr ⟨_, this.2, rfl⟩
    · exact List.mem_map.mpr ⟨_, this.2, rfl⟩
    · obtain ⟨s, _, hb, _⟩ := this; exact List.mem_map.mpr ⟨_, hb, rfl⟩
    · obtain ⟨s, _, hb, _⟩ := this; exact List.mem_map.mpr ⟨_, hb, rfl⟩
    · exact List.mem_map.mpr ⟨_, this.1, rfl⟩
    · exact List.mem_map.mpr ⟨_, this.1, rfl⟩
  | idle s => exact List.mem_map.mpr ⟨_, (I.freeBlocks s h hp).1, rfl⟩

/-- Exclusivity when the set of holders does not change. -/
theorem excl_same {σ τ : Sys} (hs : ∀ p h, τ.Holds p h ↔ σ.Holds p h)
    (I : ∀ p q h, σ.Holds p h → σ.Holds q h → p = q) : ∀ p q h, τ.Holds p h → τ.Holds q h → p = q := by
  intro p q h hp hq
  exact I p q h ((hs p h).mp hp) ((hs q h).mp hq)

/-- Exclusivity and cover when handle `h0` moves to `q0`. -/
theorem excl_move {σ τ : Sys} {q0 : Party} {h0 : Nat}
    (hs : ∀ p h, τ.Holds p h ↔ (σ.Holds p h ∧ h ≠ h0) ∨ (p = q0 ∧ h = h0))
    (I : ∀ p q h, σ.Holds p h → σ.Holds q h → p = q) : ∀ p q h, τ.Holds p h → τ.Holds q h → p = q := by
  intro p q h hp hq
  rcases (hs p h).mp hp with ⟨h1, h2⟩ | ⟨h1, h2⟩ <;> rcases (hs q h).mp hq with ⟨h3, h4⟩ | ⟨h3, h4⟩
  · exact I p q h h1 h3
  · exact (h2 h4).elim
  · exact (h4 h2).elim
  · rw [h1, h3]

theorem cover_same {σ τ : Sys} (hs : ∀ p h, τ.Holds p h ↔ σ.Holds p h) (hb : τ.pool.blocks = σ.pool.blocks)
    (I : ∀ h c, (h, c) ∈ σ.pool.blocks → ∃ p, σ.Holds p h) : ∀ h c, (h, c) ∈ τ.pool.blocks → ∃ p, τ.Holds p h := by
  intro h c hm
  rw [hb] at hm
  obtain ⟨p, hp⟩ := I h c hm
  exact ⟨p, (hs p h).mpr hp⟩

theorem cover_move {σ τ : Sys} {q0 : Party} {h0 : Nat}
    (hs : ∀ p h, τ.Holds p h ↔ (σ.Holds p h ∧ h ≠ h0) ∨ (p = q0 ∧ h = h0))
    (hb : ∀ h c, (h, c) ∈ τ.pool.blocks → h = h0 ∨ (h, c) ∈ σ.pool.blocks)
    (I : ∀ h c, (h, c) ∈ σ.pool.blocks → ∃ p, σ.Holds p h) : ∀ h c, (h, c) ∈ τ.pool.blocks → ∃ p, τ.Holds p h := by
  intro h c hm
  by_cases he : h = h0
  · exact ⟨q0, (hs q0 h).mpr (Or.inr ⟨rfl, he⟩)⟩
  · rcases hb h c hm with h1 | h1
    · exact (he h1).elim
    · obtain ⟨p, hp⟩ := I h c h1
      exact ⟨p, (hs p h).mpr (Or.inl ⟨hp, he⟩)⟩

/-- Moving a thread between states with the same handle changes no holder. -/
theorem holds_thr {σ : Sys} {t : Nat} {x : Thr} {lp lr : Option Nat} (hx : x.handle = (σ.thr t).handle) (p : Party) (h : Nat) :
    ({ σ with thr := set σ.thr t x, lockP := lp, lockR := lr } : Sys).Holds p h ↔ σ.Holds p h := by
  cases p with
  | user => exact Iff.rfl
  | idle s => exact Iff.rfl
  | thread u =>
    simp only [Holds, Pool.set_apply]
    split
    · next e => rw [hx, e]
    · exact Iff.rfl

/-- Locks after a thread acquired / released one. -/
theorem lock_acq {σ : Sys} {t : Nat} {x : Thr} {f : Thr → Bool} {l : Option Nat} (hl : ∀ u, l = some u ↔ f (σ.thr u) = true)
    (hn : l = none) (hx : f x = true) (u : Nat) : some t = some u ↔ f (set σ.thr t x u) = true := by
  subst hn
  rw [Pool.set_apply]
  constructor
  · intro h; cases h; simpa using hx
  · intro h
    split at h
    · next e => rw [e]
    · have := (hl u).mpr h; cases this

theorem lock_rel {σ : Sys} {t : Nat} {x : Thr} {f : Thr → Bool} {l : Option Nat} (hl : ∀ u, l = some u ↔ f (σ.thr u) = true)
    (ht : f (σ.thr t) = true) (hx : f x = false) (u : Nat) : (none : Option Nat) = some u ↔ f (set σ.thr t x u) = true := by
  rw [Pool.set_apply]
  have h1 := (hl t).mpr ht
  constructor
  · intro h; cases h
  · intro h
    split at h
    · rw [hx] at h; cases h
    · next e =>
      have h2 := (hl u).mpr h
      rw [h1] at h2; cases h2; exact (e rfl).elim

theorem lock_keep {σ : Sys} {t : Nat} {x : Thr} {f : Thr → Bool} {l : Option Nat} (hl : ∀ u, l = some u ↔ f (σ.thr u) = true)
    (hx : f x = f (σ.thr t)) (u : Nat) : l = some u ↔ f (set σ.thr t x u) = true := by
  rw [Pool.set_apply]
  split
  · next e => rw [hx, ← e]; exact hl u
  · exact hl u

theorem thr_ok {σ : Sys} {P : Pool} {t : Nat} {x : Thr} (hx : x.Ok P) (h : ∀ u, u ≠ t → (σ.thr u).Ok P) (u : Nat) :
    (set σ.thr t x u).Ok P := by
  rw [Pool.set_apply]
  split
  · exact hx
  · next e => exact h u e

theorem block_class {σ : Sys} (I : σ.Inv) {h c d : Nat} (h1 : (h, c) ∈ σ.pool.blocks) (h2 : (h, d) ∈ σ.pool.blocks) :
    c = d := by
  have := List.inj_on_of_nodup_map I.blocks h1 h2 rfl
  simpa using this

/-- Facts about a thread survive a change of the registry at another handle and a growing block list. -/
theorem Ok.mono {P Q : Pool} {x : Thr} (hb : ∀ b, b ∈ P.blocks → b ∈ Q.blocks)
    (hr : ∀ h, x.handle = some h → Q.reg h = P.reg h) (h : x.Ok P) : x.Ok Q := by
  cases x <;> simp only [Thr.Ok, Thr.handle] at h hr ⊢
  · exact h
  · exact h
  · exact ⟨h.1, hb _ h.2⟩
  · exact ⟨h.1, hb _ h.2⟩
  · obtain ⟨s, h1, h2, h3⟩ := h
    exact ⟨s, by rw [hr _ rfl]; exact h1, hb _ h2, h3⟩
  · obtain ⟨s, h1, h2, h3⟩ := h
    exact ⟨s, by rw [hr _ rfl]; exact h1, hb _ h2, h3⟩
  · exact ⟨hb _ h.1, h.2⟩
  · exact ⟨hb _ h.1, h.2⟩

/-- A step in which only thread `t` changes its state, keeping its handle, and locks change consistently. -/
theorem Inv.thrStep {σ : Sys} (I : σ.Inv) {t : Nat} {x : Thr} {lp lr : Option Nat}
    (hx : x.handle = (σ.thr t).handle) (hok : x.Ok σ.pool)
    (h1 : ∀ u, lp = some u ↔ (set σ.thr t x u).holdsP = true)
    (h2 : ∀ u, lr = some u ↔ (set σ.thr t x u).holdsR = true) :
    ({ σ with thr := set σ.thr t x, lockP := lp, lockR := lr } : Sys).Inv where
  np := I.np
  blocks := I.blocks
  freeNodup := I.freeNodup
  freeBlocks := I.freeBlocks
  ownedNodup := I.ownedNodup
  owned := I.owned
  thr := thr_ok hok fun u _ => I.thr u
  excl := excl_same (holds_thr hx) I.excl
  cover := cover_same (holds_thr hx) rfl I.cover
  lockP := h1
  lockR := h2

theorem Inv.step {σ τ : Sys} (I : σ.Inv) (h : Step σ τ) : τ.Inv := by
  cases h with
  | callNew t size s h1 h2 =>
    exact I.thrStep (by rw [h1]; rfl) h2 (lock_keep I.lockP (by rw [h1]; rfl)) (lock_keep I.lockR (by rw [h1]; rfl))
  | callNewPanic t size h1 h2 =>
    exact I.thrStep (by rw [h1]; rfl) trivial (lock_keep I.lockP (by rw [h1]; rfl)) (lock_keep I.lockR (by rw [h1]; rfl))
  | newLock t size s h1 h2 =>
    exact I.thrStep (by rw [h1]; rfl) (by have := I.thr t; rw [h1] at this; exact this) (lock_acq I.lockP h2 rfl)
      (lock_keep I.lockR (by rw [h1]; rfl))
  | regLock t size s h h1 h2 =>
    exact I.thrStep (by rw [h1]; rfl) (by have := I.thr t; rw [h1] at this; exact this)
      (lock_keep I.lockP (by rw [h1]; rfl)) (lock_acq I.lockR h2 rfl)
  | dropLock t h h1 h2 =>
    exact I.thrStep (by rw [h1]; rfl) (by have := I.thr t; rw [h1] at this; exact this)
      (lock_keep I.lockP (by rw [h1]; rfl)) (lock_acq I.lockR h2 rfl)
  | giveLock t s h h1 h2 =>
    exact I.thrStep (by rw [h1]; rfl) (by have := I.thr t; rw [h1] at this; exact this) (lock_acq I.lockP h2 rfl)
      (lock_keep I.lockR (by rw [h1]; rfl))
  | regPanic t size s h h1 h2 =>
    simp [Pool.register, I.np] at h2
  | newBody t size s fresh h1 h2 =>
    have hok := I.thr t
    rw [h1] at hok
    have hs31 := Pool.classOf_le hok
    cases hf : σ.pool.free s with
    | cons h0 rest =>
      have htake : σ.pool.take s fresh = ({ σ.pool with free := set σ.pool.free s rest }, h0) := by
        unfold Pool.take; rw [hf]
      rw [htake]
      have hnd := I.freeNodup s
      rw [hf, List.nodup_cons] at hnd
      have hmem : h0 ∈ σ.pool.free s := by rw [hf]; exact List.mem_cons_self
      have hsub : ∀ u h, h ∈ set σ.pool.free s rest u ↔ h ∈ σ.pool.free u ∧ (u = s → h ≠ h0) := by
        intro u h
        rw [Pool.set_apply]
        split
        · next e =>
          subst e
          rw [hf, List.mem_cons]
          constructor
          · intro q; exact ⟨Or.inr q, fun _ e => hnd.1 (e ▸ q)⟩
          · rintro ⟨q | q, q2⟩
            · exact (q2 rfl q).elim
            · exact q
        · next e => simp [e]
      have hmove : ∀ p h, Sys.Holds { σ with
          pool := { σ.pool with free := set σ.pool.free s rest }
          thr := set σ.thr t (.regWait size s h0)
          lockP := none } p h ↔ (σ.Holds p h ∧ h ≠ h0) ∨ (p = .thread t ∧ h = h0) := by
        intro p h
        have hI : ∀ p, σ.Holds p h0 → p = .idle s := fun p hp => I.excl p (.idle s) h0 hp hmem
        cases p with
        | user =>
          simp only [Holds, reduceCtorEq, false_and, or_false]
          constructor
          · intro q; refine ⟨q, ?_⟩
            rintro rfl
            have := hI .user q; cases this
          · exact fun q => q.1
        | thread u =>
          simp only [Holds, Pool.set_apply, Party.thread.injEq]
          split
          · next e =>
            subst e
            rw [h1]
            simp only [Thr.handle, Option.some.injEq, reduceCtorEq, false_and, true_and, false_or]
            exact eq_comm
          · next e =>
            simp only [e, false_and, or_false]
            constructor
            · intro q; refine ⟨q, ?_⟩
              rintro rfl
              have := hI (.thread u) q; cases this
            · exact fun q => q.1
        | idle u =>
          simp only [Holds, reduceCtorEq, false_and, or_false]
          rw [hsub]
          constructor
          · rintro ⟨q1, q2⟩
            refine ⟨q1, ?_⟩
            rintro rfl
            have := hI (.idle u) q1
            cases this
            exact q2 rfl rfl
          · rintro ⟨q1, q2⟩; exact ⟨q1, fun _ => q2⟩
      exact {
        np := I.np
        blocks := I.blocks
        freeNodup := fun u => by
          show (set σ.pool.free s rest u).Nodup
          rw [Pool.set_apply]; split
          · exact hnd.2
          · exact I.freeNodup u
        freeBlocks := fun u h hm => I.freeBlocks u h ((hsub u h).mp hm).1
        ownedNodup := I.ownedNodup
        owned := I.owned
        thr := thr_ok ⟨hok, (I.freeBlocks s h0 hmem).1⟩ fun u _ => (I.thr u)
        excl := excl_move hmove I.excl
        cover := cover_move hmove (fun h c hm => Or.inr hm) I.cover
        lockP := lock_rel I.lockP (by rw [h1]; rfl) rfl
        lockR := lock_keep I.lockR (by rw [h1]; rfl) }
    | nil =>
      have htake : σ.pool.take s fresh = ({ σ.pool with blocks := (fresh, 2 ^ s) :: σ.pool.blocks }, fresh) := by
        unfold Pool.take; rw [hf]
      rw [htake]
      have hnone : ∀ p, ¬ σ.Holds p fresh := fun p hp => h2 (I.holds_block hp)
      have hmove : ∀ p h, Sys.Holds { σ with
          pool := { σ.pool with blocks := (fresh, 2 ^ s) :: σ.pool.blocks }
          thr := set σ.thr t (.regWait size s fresh)
          lockP := none } p h ↔ (σ.Holds p h ∧ h ≠ fresh) ∨ (p = .thread t ∧ h = fresh) := by
        intro p h
        have hne : σ.Holds p h → h ≠ fresh := by rintro q rfl; exact hnone p q
        cases p with
        | user =>
          simp only [reduceCtorEq, false_and, or_false]
          exact ⟨fun q => ⟨q, hne q⟩, fun q => q.1⟩
        | idle u =>
          simp only [reduceCtorEq, false_and, or_false]
          exact ⟨fun q => ⟨q, hne q⟩, fun q => q.1⟩
        | thread u =>
          simp only [Holds, Pool.set_apply, Party.thread.injEq] at hne ⊢
          split
          · next e =>
            subst e
            rw [h1]
            simp only [Thr.handle, Option.some.injEq, reduceCtorEq, false_and, true_and, false_or]
            exact eq_comm
          · next e =>
            simp only [e, false_and, or_false]
            exact ⟨fun q => ⟨q, hne q⟩, fun q => q.1⟩
      exact {
        np := I.np
        blocks := by
          show (((fresh, 2 ^ s) :: σ.pool.blocks).map Prod.fst).Nodup
          rw [List.map_cons, List.nodup_cons]; exact ⟨h2, I.blocks⟩
        freeNodup := I.freeNodup
        freeBlocks := fun u h hm => ⟨List.mem_cons_of_mem _ (I.freeBlocks u h hm).1, (I.freeBlocks u h hm).2⟩
        ownedNodup := I.ownedNodup
        owned := fun h sz hm => by
          obtain ⟨s', a1, a2, a3⟩ := I.owned h sz hm
          exact ⟨s', a1, a2, List.mem_cons_of_mem _ a3⟩
        thr := thr_ok ⟨hok, List.mem_cons_self⟩ fun u _ =>
          Ok.mono (P := σ.pool) (fun b hb => List.mem_cons_of_mem _ hb) (fun _ _ => rfl) (I.thr u)
        excl := excl_move hmove I.excl
        cover := cover_move hmove (fun h c hm => by
          rcases List.mem_cons.mp hm with e | e
          · left; exact congrArg Prod.fst e
          · right; exact e) I.cover
        lockP := lock_rel I.lockP (by rw [h1]; rfl) rfl
        lockR := lock_keep I.lockR (by rw [h1]; rfl) }
  | regBody t size s h0 P' h1 h2 =>
    have hok := I.thr t
    rw [h1] at hok
    have hP : P' = { σ.pool with reg := set σ.pool.reg h0 (some s) } := by
      simpa [Pool.register, I.np] using h2.symm
    subst hP
    have hhold : σ.Holds (.thread t) h0 := by simp [Holds, h1, Thr.handle]
    have hI : ∀ p, σ.Holds p h0 → p = .thread t := fun p hp => I.excl p _ h0 hp hhold
    have hmove : ∀ p h, Sys.Holds { σ with
          pool := { σ.pool with reg := set σ.pool.reg h0 (some s) }
          thr := set σ.thr t .idle
          lockR := none
          owned := (h0, size) :: σ.owned } p h ↔ (σ.Holds p h ∧ h ≠ h0) ∨ (p = .user ∧ h = h0) := by
      intro p h
      cases p with
      | user =>
        simp only [Holds, List.mem_cons, Prod.mk.injEq, true_and]
        constructor
        · rintro ⟨sz, ⟨q, _⟩ | q⟩
          · exact Or.inr q
          · left
            refine ⟨⟨sz, q⟩, ?_⟩
            rintro rfl
            have := hI .user ⟨sz, q⟩; cases this
        · rintro (⟨⟨sz, q⟩, _⟩ | q)
          · exact ⟨sz, Or.inr q⟩
          · exact ⟨size, Or.inl ⟨q, rfl⟩⟩
      | idle u =>
        simp only [Holds, reduceCtorEq, false_and, or_false]
        constructor
        · intro q
          refine ⟨q, ?_⟩
          rintro rfl
          have := hI (.idle u) q; cases this
        · exact fun q => q.1
      | thread u =>
        simp only [Holds, Pool.set_apply, reduceCtorEq, false_and, or_false]
        split
        · next e =>
          subst e
          rw [h1]
          simp only [Thr.handle, reduceCtorEq, Option.some.injEq, false_iff, not_and, not_not]
          exact fun q => q.symm
        · next e =>
          constructor
          · intro q
            refine ⟨q, ?_⟩
            rintro rfl
            have := hI (.thread u) q
            cases this; exact e rfl
          · exact fun q => q.1
    have hnot : h0 ∉ σ.owned.map Prod.fst := by
      intro hm
      obtain ⟨⟨a, sz⟩, q, e⟩ := List.mem_map.mp hm
      simp only at e
      subst e
      have := hI .user ⟨sz, q⟩; cases this
    exact {
      np := I.np
      blocks := I.blocks
      freeNodup := I.freeNodup
      freeBlocks := I.freeBlocks
      ownedNodup := by
        show (((h0, size) :: σ.owned).map Prod.fst).Nodup
        rw [List.map_cons, List.nodup_cons]; exact ⟨hnot, I.ownedNodup⟩
      owned := fun h sz hm => by
        show ∃ s', Pool.classOf sz = some s' ∧ set σ.pool.reg h0 (some s) h = some s' ∧ _
        rcases List.mem_cons.mp hm with e | e
        · cases e
          exact ⟨s, hok.1, by simp, hok.2⟩
        · obtain ⟨s', a1, a2, a3⟩ := I.owned h sz e
          have hne : h ≠ h0 := by
            rintro rfl
            exact hnot (List.mem_map.mpr ⟨_, e, rfl⟩)
          exact ⟨s', a1, by rw [Pool.set_ne _ _ hne]; exact a2, a3⟩
      thr := thr_ok trivial fun u hu => Ok.mono (P := σ.pool) (fun b hb => hb) (fun h hh => by
        have hne : h ≠ h0 := by
          rintro rfl
          have := hI (.thread u) hh
          cases this; exact hu rfl
        exact Pool.set_ne _ _ hne) (I.thr u)
      excl := excl_move hmove I.excl
      cover := cover_move hmove (fun h c hm => Or.inr hm) I.cover
      lockP := lock_keep I.lockP (by rw [h1]; rfl)
      lockR := lock_rel I.lockR (by rw [h1]; rfl) rfl }
  | callDrop t h0 size h1 h2 =>
    have hhold : σ.Holds .user h0 := ⟨size, h2⟩
    have hI : ∀ p, σ.Holds p h0 → p = .user := fun p hp => I.excl p _ h0 hp hhold
    have hnd : σ.owned.Nodup := List.Nodup.of_map _ I.ownedNodup
    have hmem : ∀ h sz, (h, sz) ∈ σ.owned.erase (h0, size) ↔ (h, sz) ∈ σ.owned ∧ h ≠ h0 := by
      intro h sz
      rw [hnd.mem_erase_iff]
      constructor
      · rintro ⟨q1, q2⟩
        refine ⟨q2, ?_⟩
        rintro rfl
        exact q1 (List.inj_on_of_nodup_map I.ownedNodup q2 h2 rfl)
      · rintro ⟨q1, q2⟩
        exact ⟨fun e => q2 (congrArg Prod.fst e), q1⟩
    have hmove : ∀ p h, Sys.Holds { σ with thr := set σ.thr t (.dropWait h0), owned := σ.owned.erase (h0, size) } p h ↔
        (σ.Holds p h ∧ h ≠ h0) ∨ (p = .thread t ∧ h = h0) := by
      intro p h
      cases p with
      | user =>
        simp only [Holds, hmem, reduceCtorEq, false_and, or_false]
        exact ⟨fun ⟨sz, q1, q2⟩ => ⟨⟨sz, q1⟩, q2⟩, fun ⟨⟨sz, q1⟩, q2⟩ => ⟨sz, q1, q2⟩⟩
      | idle u =>
        simp only [Holds, reduceCtorEq, false_and, or_false]
        constructor
        · intro q
          refine ⟨q, ?_⟩
          rintro rfl
          have := hI (.idle u) q; cases this
        · exact fun q => q.1
      | thread u =>
        simp only [Holds, Pool.set_apply, Party.thread.injEq]
        split
        · next e =>
          subst e
          rw [h1]
          simp only [Thr.handle, Option.some.injEq, reduceCtorEq, false_and, true_and, false_or]
          exact eq_comm
        · next e =>
          simp only [e, false_and, or_false]
          constructor
          · intro q
            refine ⟨q, ?_⟩
            rintro rfl
            have := hI (.thread u) q
            cases this
          · exact fun q => q.1
    obtain ⟨s, c1, c2, c3⟩ := I.owned h0 size h2
    exact {
      np := I.np
      blocks := I.blocks
      freeNodup := I.freeNodup
      freeBlocks := I.freeBlocks
      ownedNodup := I.ownedNodup.sublist (List.erase_sublist.map _)
      owned := fun h sz hm => I.owned h sz ((hmem h sz).mp hm).1
      thr := thr_ok ⟨s, c2, c3, Pool.classOf_le c1⟩ fun u _ => I.thr u
      excl := excl_move hmove I.excl
      cover := cover_move hmove (fun h c hm => Or.inr hm) I.cover
      lockP := lock_keep I.lockP (by rw [h1]; rfl)
      lockR := lock_keep I.lockR (by rw [h1]; rfl) }
  | dropBody t h0 h1 =>
    have hok := I.thr t
    rw [h1] at hok
    obtain ⟨s, c1, c2, c3⟩ := hok
    have hun : σ.pool.unregister h0 = ({ σ.pool with reg := set σ.pool.reg h0 none }, some s) := by
      simp [Pool.unregister, I.np, c1]
    rw [hun]
    have hhold : σ.Holds (.thread t) h0 := by simp [Holds, h1, Thr.handle]
    have hI : ∀ p, σ.Holds p h0 → p = .thread t := fun p hp => I.excl p _ h0 hp hhold
    have hsame : ∀ p h, Sys.Holds { σ with
        pool := { σ.pool with reg := set σ.pool.reg h0 none }
        thr := set σ.thr t (.giveWait s h0)
        lockR := none } p h ↔ σ.Holds p h := fun p h => by
      have := holds_thr (σ := σ) (t := t) (x := .giveWait s h0) (lp := σ.lockP) (lr := none) (by rw [h1]; rfl) p h
      rw [← this]
      cases p <;> exact Iff.rfl
    exact {
      np := I.np
      blocks := I.blocks
      freeNodup := I.freeNodup
      freeBlocks := I.freeBlocks
      ownedNodup := I.ownedNodup
      owned := fun h sz hm => by
        obtain ⟨s', a1, a2, a3⟩ := I.owned h sz hm
        have hne : h ≠ h0 := by
          rintro rfl
          have := hI .user ⟨sz, hm⟩; cases this
        exact ⟨s', a1, (Pool.set_ne _ _ hne).trans a2, a3⟩
      thr := thr_ok ⟨c2, c3⟩ fun u hu => Ok.mono (P := σ.pool) (fun b hb => hb) (fun h hh => by
        have hne : h ≠ h0 := by
          rintro rfl
          have := hI (.thread u) hh
          cases this; exact hu rfl
        exact Pool.set_ne _ _ hne) (I.thr u)
      excl := excl_same hsame I.excl
      cover := cover_same hsame rfl I.cover
      lockP := lock_keep I.lockP (by rw [h1]; rfl)
      lockR := lock_rel I.lockR (by rw [h1]; rfl) rfl }
  | giveBody t s h0 h1 =>
    have hok := I.thr t
    rw [h1] at hok
    have hhold : σ.Holds (.thread t) h0 := by simp [Holds, h1, Thr.handle]
    have hI : ∀ p, σ.Holds p h0 → p = .thread t := fun p hp => I.excl p _ h0 hp hhold
    have hsub : ∀ u h, h ∈ set σ.pool.free s (h0 :: σ.pool.free s) u ↔ (u = s ∧ h = h0) ∨ h ∈ σ.pool.free u := by
      intro u h
      rw [Pool.set_apply]
      split
      · next e => subst e; simp
      · next e => simp [e]
    have hmove : ∀ p h, Sys.Holds { σ with pool := σ.pool.give h0 s, thr := set σ.thr t .idle, lockP := none } p h ↔
        (σ.Holds p h ∧ h ≠ h0) ∨ (p = .idle s ∧ h = h0) := by
      intro p h
      cases p with
      | user =>
        simp only [Holds, reduceCtorEq, false_and, or_false]
        constructor
        · intro q
          refine ⟨q, ?_⟩
          rintro rfl
          have := hI .user q; cases this
        · exact fun q => q.1
      | idle u =>
        simp only [Holds, Pool.give, hsub, Party.idle.injEq]
        constructor
        · rintro (q | q)
          · exact Or.inr q
          · left
            refine ⟨q, ?_⟩
            rintro rfl
            have := hI (.idle u) q; cases this
        · rintro (q | q)
          · exact Or.inr q.1
          · exact Or.inl q
      | thread u =>
        simp only [Holds, Pool.set_apply, reduceCtorEq, false_and, or_false]
        split
        · next e =>
          subst e
          rw [h1]
          simp only [Thr.handle, reduceCtorEq, Option.some.injEq, false_iff, not_and, not_not]
          exact fun q => q.symm
        · next e =>
          constructor
          · intro q
            refine ⟨q, ?_⟩
            rintro rfl
            have := hI (.thread u) q
            cases this; exact e rfl
          · exact fun q => q.1
    exact {
      np := I.np
      blocks := I.blocks
      freeNodup := fun u => by
        show (set σ.pool.free s (h0 :: σ.pool.free s) u).Nodup
        rw [Pool.set_apply]; split
        · rw [List.nodup_cons]
          refine ⟨fun hm => ?_, I.freeNodup s⟩
          have := hI (.idle s) hm; cases this
        · exact I.freeNodup u
      freeBlocks := fun u h hm => by
        rcases (hsub u h).mp hm with ⟨rfl, rfl⟩ | q
        · exact hok
        · exact I.freeBlocks u h q
      ownedNodup := I.ownedNodup
      owned := I.owned
      thr := thr_ok trivial fun u hu => Ok.mono (P := σ.pool) (fun b hb => hb) (fun _ _ => rfl) (I.thr u)
      excl := excl_move hmove I.excl
      cover := cover_move hmove (fun h c hm => Or.inr hm) I.cover
      lockP := lock_rel I.lockP (by rw [h1]; rfl) rfl
      lockR := lock_keep I.lockR (by rw [h1]; rfl) }

theorem Reach.inv {σ : Sys} (h : Reach σ) : σ.Inv := by
  induction h with
  | init => exact Inv.init
  | step _ hs ih => exact ih.step hs

end Sys

end Verif
