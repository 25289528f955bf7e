import Verif.Shape

/-!
# Model of `prima_undine/src/memory_pool.rs`

A handle is its address (a natural number).  The back end (`DeviceImpl::new_handle`) is a nondeterministic source of addresses;
`blocks` records what it was asked for.  A pool is used by one device; the pool is its only client.
-/

namespace Verif
open Res

/-- u32 subtraction. -/
def usub (p : Profile) (a b : Nat) : Res Nat :=
  if b ≤ a then ok (a - b) else match p with
    | .debug => panic
    | .release => ok (U32 + a - b)

/-- `b = x | (x >> 16); b |= b >> 8; … b |= b >> 1`, memory_pool.rs:15-19. -/
def smear (x : Nat) : Nat :=
  let b := x ||| (x >>> 16)
  let b := b ||| (b >>> 8)
  let b := b ||| (b >>> 4)
  let b := b ||| (b >>> 2)
  b ||| (b >>> 1)

/-- The bit count of memory_pool.rs:22-26 (u32 additions checked in a debug build). -/
def popcnt (p : Profile) (b : Nat) : Res Nat := do
  let b ← uadd p (b &&& 0x55555555) ((b >>> 1) &&& 0x55555555)
  let b ← uadd p (b &&& 0x33333333) ((b >>> 2) &&& 0x33333333)
  let b ← uadd p (b &&& 0x0f0f0f0f) ((b >>> 4) &&& 0x0f0f0f0f)
  let b ← uadd p (b &&& 0x00ff00ff) ((b >>> 8) &&& 0x00ff00ff)
  uadd p (b &&& 0x0000ffff) ((b >>> 16) &&& 0x0000ffff)

/-- `calculate_shifts`, memory_pool.rs:11-30. -/
def calculateShifts (p : Profile) (x : Nat) : Res Nat := do
  check (x ≠ 0)
  let b ← popcnt p (smear x)
  let e ← usub p b 1
  check (e < 32)            -- `1u32 << e` (a larger shift panics in a debug build; it never occurs)
  usub p b (if 2 ^ e = x then 1 else 0)

/-- `struct MemoryPool`, memory_pool.rs:32-39.
`free s` is `pool[s]` with the end of the vector first; `reg` is the map `mem_shift`; `poisoned`: the mutex of `mem_shift` is poisoned
(the mutex of `pool` could only be poisoned by a panic of the back end's allocator, which is not modelled).
`blocks` (ghost): the blocks obtained from the back end so far, (address, capacity), newest first. -/
structure Pool where
  free : Nat → List Nat
  reg : Nat → Option Nat
  poisoned : Bool
  blocks : List (Nat × Nat)

namespace Pool

/-- `MemoryPool::new`, memory_pool.rs:42-48. -/
def init : Pool := ⟨fun _ => [], fun _ => none, false, []⟩

/-- Function update. -/
def set (f : Nat → β) (i : Nat) (v : β) : Nat → β := fun j => if j = i then v else f j

/-- Lines 51-55 of memory_pool.rs: the size class of a request, `none` = panic.  No lock is held here. -/
def classOf (size : Nat) : Option Nat :=
  if size = 0 then none else
    match calculateShifts .debug (max size 64) with
    | ok s => if s ≤ 31 then some s else none
    | _ => none

/-- Lines 56-61 of memory_pool.rs, under the lock of `pool`: pop an idle block of the class or ask the back end for
a new block of `1 << s` elements, for which it answers `fresh`. -/
def take (P : Pool) (s fresh : Nat) : Pool × Nat :=
  match P.free s with
  | h :: t => ({ P with free := set P.free s t }, h)
  | [] => ({ P with blocks := (fresh, 2 ^ s) :: P.blocks }, fresh)

/-- Lines 62-65 of memory_pool.rs, under the lock of `mem_shift`; `none` = panic because the lock is poisoned. -/
def register (P : Pool) (h s : Nat) : Option Pool :=
  if P.poisoned then none else some { P with reg := set P.reg h (some s) }

/-- `MemoryPool::new_handle`, memory_pool.rs:50-67; result `none` = panic. -/
def newHandle (P : Pool) (size fresh : Nat) : Pool × Option Nat :=
  match classOf size with
  | none => (P, none)
  | some s =>
    let r := P.take s fresh
    match r.1.register r.2 s with
    | none => (r.1, none)
    | some P' => (P', some r.2)

/-- Lines 70-75 of memory_pool.rs, under the lock of `mem_shift`; `none` = panic.  When the map has no entry the panic happens with the
guard alive, so the mutex becomes poisoned. -/
def unregister (P : Pool) (h : Nat) : Pool × Option Nat :=
  if P.poisoned then (P, none) else
    match P.reg h with
    | none => ({ P with poisoned := true }, none)
    | some s => ({ P with reg := set P.reg h none }, some s)

/-- Line 76 of memory_pool.rs, under the lock of `pool`. -/
def give (P : Pool) (h s : Nat) : Pool := { P with free := set P.free s (h :: P.free s) }

/-- `MemoryPool::drop_handle`, memory_pool.rs:69-77; result `false` = panic. -/
def dropHandle (P : Pool) (h : Nat) : Pool × Bool :=
  match P.unregister h with
  | (P', none) => (P', false)
  | (P', some s) => (P'.give h s, true)

/-- `impl Drop for MemoryPool`, memory_pool.rs:80-88: the addresses passed to the back end's `drop_handle`, in order
(each `Vec` is iterated from its start, i.e. from the end of our list). -/
def teardown (P : Pool) : List Nat := (List.range 32).flatMap fun s => (P.free s).reverse

end Pool

/-! ## Concurrent use

Threads interleave at the granularity of lock operations.  A thread that executes a lock section first acquires the
mutex, then executes the body and releases it. -/

/-- What a thread is doing. -/
inductive Thr where
  | idle
  /-- in `new_handle`, about to lock `pool` (line 57) -/
  | newWait (size s : Nat)
  /-- holds `pool` in lines 57-61 -/
  | newIn (size s : Nat)
  /-- got the handle, about to lock `mem_shift` (lines 62-63) -/
  | regWait (size s h : Nat)
  /-- holds `mem_shift` in lines 62-65 -/
  | regIn (size s h : Nat)
  /-- in `drop_handle`, about to lock `mem_shift` (lines 70-72) -/
  | dropWait (h : Nat)
  /-- holds `mem_shift` in lines 72-75 -/
  | dropIn (h : Nat)
  /-- about to lock `pool` (line 76) -/
  | giveWait (s h : Nat)
  /-- holds `pool` in line 76 -/
  | giveIn (s h : Nat)
  /-- the call panicked -/
  | panicked
  deriving DecidableEq

/-- A running system: the pool, the two mutexes (holder), the threads, and the handles the program owns together with the size it
asked for. -/
structure Sys where
  pool : Pool
  lockP : Option Nat
  lockR : Option Nat
  thr : Nat → Thr
  owned : List (Nat × Nat)

namespace Sys
open Pool (set)

/-- Start of the program. -/
def init : Sys := ⟨Pool.init, none, none, fun _ => .idle, []⟩

/-- Effects of `unregister` on a thread. -/
def afterUnreg (h : Nat) : Option Nat → Thr
  | none => .panicked
  | some s => .giveWait s h

/-- One atomic step of some thread `t`. -/
inductive Step : Sys → Sys → Prop
  /-- a thread calls `new_handle(size)` and passes its assertions -/
  | callNew (σ t size s) : σ.thr t = .idle → Pool.classOf size = some s →
      Step σ { σ with thr := set σ.thr t (.newWait size s) }
  /-- a thread calls `new_handle(size)` and an assertion fails -/
  | callNewPanic (σ t size) : σ.thr t = .idle → Pool.classOf size = none →
      Step σ { σ with thr := set σ.thr t .panicked }
  /-- acquire `pool` -/
  | newLock (σ t size s) : σ.thr t = .newWait size s → σ.lockP = none →
      Step σ { σ with thr := set σ.thr t (.newIn size s), lockP := some t }
  /-- lines 57-61 and release; the back end never returns an address it already gave out -/
  | newBody (σ t size s fresh) : σ.thr t = .newIn size s → fresh ∉ σ.pool.blocks.map Prod.fst →
      Step σ { σ with
        pool := (σ.pool.take s fresh).1
        thr := set σ.thr t (.regWait size s (σ.pool.take s fresh).2)
        lockP := none }
  /-- acquire `mem_shift` -/
  | regLock (σ t size s h) : σ.thr t = .regWait size s h → σ.lockR = none →
      Step σ { σ with thr := set σ.thr t (.regIn size s h), lockR := some t }
  /-- lines 62-65, release, return to the caller -/
  | regBody (σ t size s h P') : σ.thr t = .regIn size s h → σ.pool.register h s = some P' →
      Step σ { σ with pool := P', thr := set σ.thr t .idle, lockR := none, owned := (h, size) :: σ.owned }
  /-- lines 62-65 with a poisoned lock -/
  | regPanic (σ t size s h) : σ.thr t = .regIn size s h → σ.pool.register h s = none →
      Step σ { σ with thr := set σ.thr t .panicked, lockR := none }
  /-- a thread calls `drop_handle` on a handle the program owns -/
  | callDrop (σ t h size) : σ.thr t = .idle → (h, size) ∈ σ.owned →
      Step σ { σ with thr := set σ.thr t (.dropWait h), owned := σ.owned.erase (h, size) }
  /-- acquire `mem_shift` -/
  | dropLock (σ t h) : σ.thr t = .dropWait h → σ.lockR = none →
      Step σ { σ with thr := set σ.thr t (.dropIn h), lockR := some t }
  /-- lines 72-75 and release -/
  | dropBody (σ t h) : σ.thr t = .dropIn h →
      Step σ { σ with pool := (σ.pool.unregister h).1, thr := set σ.thr t (afterUnreg h (σ.pool.unregister h).2), lockR := none }
  /-- acquire `pool` -/
  | giveLock (σ t s h) : σ.thr t = .giveWait s h → σ.lockP = none →
      Step σ { σ with thr := set σ.thr t (.giveIn s h), lockP := some t }
  /-- line 76 and release -/
  | giveBody (σ t s h) : σ.thr t = .giveIn s h →
      Step σ { σ with pool := σ.pool.give h s, thr := set σ.thr t .idle, lockP := none }

/-- Reachable systems. -/
inductive Reach : Sys → Prop
  | init : Reach Sys.init
  | step {σ τ} : Reach σ → Step σ τ → Reach τ

end Sys

end Verif
