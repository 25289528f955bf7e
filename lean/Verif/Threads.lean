import Verif.Device
import Verif.PropsPool

/-!
# Model of threads that share a device

`Device` and `Tensor` are declared `Send + Sync` (device.rs:13-16, tensor.rs:10-13): tensors on one device may be created, used, shared,
moved to another thread and dropped by any thread.  The machine below interleaves the threads of a program at the granularity of single
memory accesses and of the lock operations of the memory pool (`Sys.Step`, from memory_pool.rs).  Contents of buffers are in one heap,
addressed by the handles that the pool hands out.
-/

namespace Verif
namespace Thd
variable {α : Type}

/-- What a thread may read: a buffer of its own, or a buffer that all threads share (`&Tensor`). -/
inductive Arg where
  | own (s : Nat)
  | shared (g : Nat)
  deriving DecidableEq

/-- Program of a thread, as a sequence of accesses; what follows may depend on the values read.  Every run of every kernel is a sequence
of reads of its arguments and reads and writes of its destination. -/
inductive Prog (α : Type) where
  | done
  /-- allocate a buffer of `size` elements (`Tensor::alloc`, tensor.rs:50-54) for variable `s` -/
  | new (s size : Nat) (k : Prog α)
  /-- drop the tensor in variable `s` (tensor.rs:97-103) -/
  | drop (s : Nat) (k : Prog α)
  /-- read element `i` -/
  | read (a : Arg) (i : Nat) (k : α → Prog α)
  /-- write element `i` of variable `s` -/
  | write (s i : Nat) (v : α) (k : Prog α)
  /-- move the tensor in `s` into the channel `c` (capacity 1) -/
  | send (s c : Nat) (k : Prog α)
  /-- take the tensor in the channel `c` -/
  | recv (c s : Nat) (k : Prog α)
  /-- from now on all threads may read (and nobody may change or drop) the tensor in `s`, under the name `g` -/
  | publish (s g : Nat) (k : Prog α)

/-- Where the program keeps a tensor. -/
inductive Loc where
  | own (t s : Nat)
  | chan (c : Nat)
  | shared (g : Nat)
  deriving DecidableEq

/-- The place an argument of thread `t` denotes. -/
def Arg.loc (t : Nat) : Arg → Loc
  | .own s => .own t s
  | .shared g => .shared g

/-- Update at a place. -/
def upd {β : Type} (f : Loc → β) (l : Loc) (v : β) : Loc → β := fun l' => if l' = l then v else f l'

/-- A running program: pool, mutexes and the position of each thread in a pool call (`sys`), the memory, the rest of each thread's program,
and the tensors (handle and number of elements). -/
structure St (α : Type) where
  sys : Sys
  heap : Nat → Nat → α
  prog : Nat → Prog α
  ten : Loc → Option (Nat × Nat)

/-- Start: nothing is allocated. -/
def St.init [Zero α] (progs : Nat → Prog α) : St α := ⟨Sys.init, fun _ _ => 0, progs, fun _ => none⟩

/-- Elements of the block behind a tensor that was allocated for `size` elements (memory_pool.rs:51-55). -/
def cap (size : Nat) : Nat := match Pool.classOf size with
  | some s => 2 ^ s
  | none => 0

/-- A block that the back end made in this step is filled with zeros (devices/naive.rs:68-71). -/
def zeroNew [Zero α] (P P' : Pool) (heap : Nat → Nat → α) : Nat → Nat → α := fun a i =>
  if a ∈ P'.blocks.map Prod.fst ∧ a ∉ P.blocks.map Prod.fst then 0 else heap a i

/-- One step of thread `t`. -/
inductive Step [Zero α] : Nat → St α → St α → Prop
  /-- `new_handle(size)` is called (device.rs:120-122) and its assertions pass (memory_pool.rs:51-55) -/
  | callNew (σ t s size k c) : σ.prog t = .new s size k → size < U32 → σ.sys.thr t = .idle → Pool.classOf size = some c →
      Step t σ { σ with sys := { σ.sys with thr := Pool.set σ.sys.thr t (.newWait size c) } }
  /-- `new_handle(size)` is called and an assertion fails: the thread panics -/
  | callNewPanic (σ t s size k) : σ.prog t = .new s size k → size < U32 → σ.sys.thr t = .idle → Pool.classOf size = none →
      Step t σ { σ with sys := { σ.sys with thr := Pool.set σ.sys.thr t .panicked } }
  /-- a step inside a call of the pool (`Sys.Step`: acquire a mutex, or run the body of a lock section and release it) -/
  | inCall (σ t τ) : σ.sys.thr t ≠ .idle → Sys.Step σ.sys τ → τ.owned = σ.sys.owned → (∀ u, u ≠ t → τ.thr u = σ.sys.thr u) →
      Step t σ { σ with sys := τ, heap := zeroNew σ.sys.pool τ.pool σ.heap }
  /-- the last lock section of `new_handle` (memory_pool.rs:62-66) and its return: the variable gets the handle -/
  | newReturn (σ t s size k c h P') : σ.prog t = .new s size k → σ.sys.thr t = .regIn size c h → σ.sys.pool.register h c = some P' →
      Step t σ { σ with
        sys := { σ.sys with pool := P', thr := Pool.set σ.sys.thr t .idle, lockR := none, owned := (h, size) :: σ.sys.owned }
        prog := Pool.set σ.prog t k
        ten := upd σ.ten (.own t s) (some (h, size)) }
  /-- `drop_handle` is called (device.rs:124-126) -/
  | callDrop (σ t s k h size) : σ.prog t = .drop s k → σ.sys.thr t = .idle → σ.ten (.own t s) = some (h, size) →
      Step t σ { σ with
        sys := { σ.sys with thr := Pool.set σ.sys.thr t (.dropWait h), owned := σ.sys.owned.erase (h, size) }
        prog := Pool.set σ.prog t k
        ten := upd σ.ten (.own t s) none }
  /-- read one element -/
  | read (σ t a i k h size) : σ.prog t = .read a i k → σ.sys.thr t = .idle → σ.ten (a.loc t) = some (h, size) → i < cap size →
      Step t σ { σ with prog := Pool.set σ.prog t (k (σ.heap h i)) }
  /-- write one element -/
  | write (σ t s i v k h size) : σ.prog t = .write s i v k → σ.sys.thr t = .idle → σ.ten (.own t s) = some (h, size) → i < cap size →
      Step t σ { σ with prog := Pool.set σ.prog t k, heap := Pool.set σ.heap h (Pool.set (σ.heap h) i v) }
  /-- move a tensor into an empty channel -/
  | send (σ t s c k b) : σ.prog t = .send s c k → σ.sys.thr t = .idle → σ.ten (.own t s) = some b → σ.ten (.chan c) = none →
      Step t σ { σ with prog := Pool.set σ.prog t k, ten := upd (upd σ.ten (.own t s) none) (.chan c) (some b) }
  /-- take a tensor out of a channel -/
  | recv (σ t s c k b) : σ.prog t = .recv c s k → σ.sys.thr t = .idle → σ.ten (.chan c) = some b →
      Step t σ { σ with prog := Pool.set σ.prog t k, ten := upd (upd σ.ten (.chan c) none) (.own t s) (some b) }
  /-- share a tensor -/
  | publish (σ t s g k b) : σ.prog t = .publish s g k → σ.sys.thr t = .idle → σ.ten (.own t s) = some b → σ.ten (.shared g) = none →
      Step t σ { σ with prog := Pool.set σ.prog t k, ten := upd (upd σ.ten (.own t s) none) (.shared g) (some b) }

/-- States that some schedule of the threads' programs reaches. -/
inductive Reach [Zero α] (progs : Nat → Prog α) : St α → Prop
  | init : Reach progs (St.init progs)
  | step {σ t τ} : Reach progs σ → Step t σ τ → Reach progs τ

/-! ## Device functions as programs -/

/-- Read elements `i … i+n-1` of `a`. -/
def readFrom (a : Arg) (i : Nat) : Nat → (List α → Prog α) → Prog α
  | 0, k => k []
  | n + 1, k => .read a i fun v => readFrom a (i + 1) n fun l => k (v :: l)

/-- Read the blocks of all arguments (with the given numbers of elements). -/
def readMany : List (Arg × Nat) → (List (List α) → Prog α) → Prog α
  | [], k => k []
  | (a, n) :: as, k => readFrom a 0 n fun l => readMany as fun ls => k (l :: ls)

/-- Write `l` to the elements `i, i+1, …` of variable `s`. -/
def writeFrom (s i : Nat) : List α → Prog α → Prog α
  | [], k => k
  | x :: l, k => .write s i x (writeFrom s (i + 1) l k)

/-- A forward device function (`Dev.fw`; functions.rs:1-12, 46-56, 73-83) evaluated by a thread: compute the shape, allocate the result `y`
(tensor.rs:50-54), run the kernel.  The kernel's accesses are given here as: read all of the arguments and of the destination, then
write all of the destination (a kernel of the code touches a part of these elements, once or more times; the values are those of
`Dev.callFw`).  A panic ends the program of the thread. -/
def fwProg [Flt α] (p : Profile) (d : Nat) (op : FwOp α) (args : List (Arg × Shape)) (y : Nat) (k : Prog α) : Prog α :=
  match op.shape p (args.map Prod.snd) with
  | .ok s =>
    match s.sizeU p with
    | .ok n => .new y n (readMany (args.map fun a => (a.1, cap a.2.size)) fun bufs => readFrom (.own y) 0 (cap n) fun m =>
        match Dev.callFw p op.name (List.zipWith (fun (a : Arg × Shape) b => (⟨some d, a.2, some b, none⟩ : Tensor α)) args bufs) op.u32data op.f32data
            ⟨some d, s, some m, none⟩ with
        | .ok t => writeFrom y 0 (t.buf.getD []) k
        | _ => .done)
    | _ => .done
  | _ => .done

/-- A call: function, arguments with their shapes, variable of the result. -/
structure Call (α : Type) where
  op : FwOp α
  args : List (Arg × Shape)
  y : Nat

/-- Forward functions one after the other. -/
def straight [Flt α] (p : Profile) (d : Nat) : List (Call α) → Prog α
  | [] => .done
  | c :: cs => fwProg p d c.op c.args c.y (straight p d cs)

end Thd
end Verif
