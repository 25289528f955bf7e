import Verif.ThreadsLemmas

/-! # A scheduler for the machine of `Threads.lean` (for the examples): `exec t` runs one step of thread `t` -/

namespace Verif
namespace Thd
open Pool (classOf)
variable {α : Type} [Zero α]

/-- The state after a step inside a call. -/
def St.inner (σ : St α) (τ : Sys) : St α := { σ with sys := τ, heap := zeroNew σ.sys.pool τ.pool σ.heap }

/-- One step of thread `t`; `fresh` is the address that the back end would return. -/
def exec (t fresh : Nat) (σ : St α) : Option (St α) :=
  match σ.sys.thr t with
  | .idle =>
    match σ.prog t with
    | .done => none
    | .new _ size _ => if size < U32 then
        match classOf size with
        | some c => some { σ with sys := { σ.sys with thr := Pool.set σ.sys.thr t (.newWait size c) } }
        | none => some { σ with sys := { σ.sys with thr := Pool.set σ.sys.thr t .panicked } }
      else none
    | .drop s k =>
      match σ.ten (.own t s) with
      | some (h, size) => some { σ with
          sys := { σ.sys with thr := Pool.set σ.sys.thr t (.dropWait h), owned := σ.sys.owned.erase (h, size) }
          prog := Pool.set σ.prog t k
          ten := upd σ.ten (.own t s) none }
      | none => none
    | .read a i k =>
      match σ.ten (a.loc t) with
      | some (h, size) => if i < cap size then some { σ with prog := Pool.set σ.prog t (k (σ.heap h i)) } else none
      | none => none
    | .write s i v k =>
      match σ.ten (.own t s) with
      | some (h, size) => if i < cap size then
          some { σ with prog := Pool.set σ.prog t k, heap := Pool.set σ.heap h (Pool.set (σ.heap h) i v) } else none
      | none => none
    | .send s c k =>
      match σ.ten (.own t s), σ.ten (.chan c) with
      | some b, none => some { σ with prog := Pool.set σ.prog t k, ten := upd (upd σ.ten (.own t s) none) (.chan c) (some b) }
      | _, _ => none
    | .recv c s k =>
      match σ.ten (.chan c) with
      | some b => some { σ with prog := Pool.set σ.prog t k, ten := upd (upd σ.ten (.chan c) none) (.own t s) (some b) }
      | none => none
    | .publish s g k =>
      match σ.ten (.own t s), σ.ten (.shared g) with
      | some b, none => some { σ with prog := Pool.set σ.prog t k, ten := upd (upd σ.ten (.own t s) none) (.shared g) (some b) }
      | _, _ => none
  | .newWait size s => if σ.sys.lockP = none then some (σ.inner { σ.sys with thr := Pool.set σ.sys.thr t (.newIn size s), lockP := some t }) else none
  | .newIn size s => if fresh ∉ σ.sys.pool.blocks.map Prod.fst then
      some (σ.inner { σ.sys with
        pool := (σ.sys.pool.take s fresh).1
        thr := Pool.set σ.sys.thr t (.regWait size s (σ.sys.pool.take s fresh).2)
        lockP := none })
    else none
  | .regWait size s h => if σ.sys.lockR = none then some (σ.inner { σ.sys with thr := Pool.set σ.sys.thr t (.regIn size s h), lockR := some t }) else none
  | .regIn size c h =>
    match σ.prog t, σ.sys.pool.register h c with
    | .new s size' k, some P' => if size' = size then some { σ with
          sys := { σ.sys with pool := P', thr := Pool.set σ.sys.thr t .idle, lockR := none, owned := (h, size) :: σ.sys.owned }
          prog := Pool.set σ.prog t k
          ten := upd σ.ten (.own t s) (some (h, size)) }
        else none
    | _, _ => none
  | .dropWait h => if σ.sys.lockR = none then some (σ.inner { σ.sys with thr := Pool.set σ.sys.thr t (.dropIn h), lockR := some t }) else none
  | .dropIn h => some (σ.inner { σ.sys with
      pool := (σ.sys.pool.unregister h).1, thr := Pool.set σ.sys.thr t (Sys.afterUnreg h (σ.sys.pool.unregister h).2), lockR := none })
  | .giveWait s h => if σ.sys.lockP = none then some (σ.inner { σ.sys with thr := Pool.set σ.sys.thr t (.giveIn s h), lockP := some t }) else none
  | .giveIn s h => some (σ.inner { σ.sys with pool := σ.sys.pool.give h s, thr := Pool.set σ.sys.thr t .idle, lockP := none })
  | .panicked => none

theorem exec_sound {t fresh : Nat} {σ τ : St α} (h : exec t fresh σ = some τ) : Step t σ τ := by
  unfold exec at h
  split at h
  · rename_i hi
    split at h
    · cases h
    · rename_i s size k hp
      split at h
      · rename_i hlt
        split at h
        · rename_i c hc; cases h; exact .callNew σ t s size k c hp hlt hi hc
        · rename_i hc; cases h; exact .callNewPanic σ t s size k hp hlt hi hc
      · cases h
    · rename_i s k hp
      split at h
      · rename_i a size he; cases h; exact .callDrop σ t s k a size hp hi he
      · cases h
    · rename_i a i k hp
      split at h
      · rename_i b size he
        split at h
        · rename_i hlt; cases h; exact .read σ t a i k b size hp hi he hlt
        · cases h
      · cases h
    · rename_i s i v k hp
      split at h
      · rename_i b size he
        split at h
        · rename_i hlt; cases h; exact .write σ t s i v k b size hp hi he hlt
        · cases h
      · cases h
    · rename_i s c k hp
      split at h
      · rename_i b he hc; cases h; exact .send σ t s c k b hp hi he hc
      · cases h
    · rename_i c s k hp
      split at h
      · rename_i b he; cases h; exact .recv σ t s c k b hp hi he
      · cases h
    · rename_i s g k hp
      split at h
      · rename_i b he hg; cases h; exact .publish σ t s g k b hp hi he hg
      · cases h
  · rename_i size s ht
    split at h
    · rename_i hl; cases h; exact .inCall σ t _ (by simp [ht]) (.newLock _ t size s ht hl) rfl fun u hu => set_ne hu
    · cases h
  · rename_i size s ht
    split at h
    · rename_i hf; cases h; exact .inCall σ t _ (by simp [ht]) (.newBody _ t size s fresh ht hf) rfl fun u hu => set_ne hu
    · cases h
  · rename_i size s a ht
    split at h
    · rename_i hl; cases h; exact .inCall σ t _ (by simp [ht]) (.regLock _ t size s a ht hl) rfl fun u hu => set_ne hu
    · cases h
  · rename_i size c a ht
    split at h
    · rename_i s size' k P' hp hr
      split at h
      · rename_i e; subst e; cases h; exact .newReturn σ t s size' k c a P' hp ht hr
      · cases h
    · cases h
  · rename_i a ht
    split at h
    · rename_i hl; cases h; exact .inCall σ t _ (by simp [ht]) (.dropLock _ t a ht hl) rfl fun u hu => set_ne hu
    · cases h
  · rename_i a ht; cases h; exact .inCall σ t _ (by simp [ht]) (.dropBody _ t a ht) rfl fun u hu => set_ne hu
  · rename_i s a ht
    split at h
    · rename_i hl; cases h; exact .inCall σ t _ (by simp [ht]) (.giveLock _ t s a ht hl) rfl fun u hu => set_ne hu
    · cases h
  · rename_i s a ht; cases h; exact .inCall σ t _ (by simp [ht]) (.giveBody _ t s a ht) rfl fun u hu => set_ne hu
  · cases h

/-- A schedule: thread and address for the back end, step by step. -/
def execs : List (Nat × Nat) → St α → Option (St α)
  | [], σ => some σ
  | (t, fresh) :: l, σ => (exec t fresh σ).bind (execs l)

theorem execs_sound {progs : Nat → Prog α} : ∀ {l : List (Nat × Nat)} {σ τ : St α}, Reach progs σ → execs l σ = some τ → Reach progs τ := by
  intro l
  induction l with
  | nil => intro σ τ h e; cases e; exact h
  | cons x l ih =>
    intro σ τ h e
    obtain ⟨y, e1, e2⟩ := Option.bind_eq_some_iff.mp e
    exact ih (h.step (exec_sound e1)) e2

/-- A schedule that can be executed to the end and satisfies a check gives a reachable state with the check. -/
theorem exists_run (progs : Nat → Prog α) (l : List (Nat × Nat)) (P : St α → Bool) (h : (execs l (St.init progs)).any P = true) :
    ∃ σ, Reach progs σ ∧ P σ = true := by
  cases e : execs l (St.init progs) with
  | none => rw [e] at h; cases h
  | some σ => rw [e] at h; exact ⟨σ, execs_sound .init e, h⟩

/-- The program is finished. -/
def Prog.isDone : Prog α → Bool
  | .done => true
  | _ => false

end Thd
end Verif
