import Verif.Device
import Verif.Operators

/-!
# Model of `prima_undine/src/tensor.rs`: handles, views and who returns buffers to the pool

A machine with the memory pools of the devices, the blocks behind the handles, and the tensor variables of a program.  A command is
one call of the API by safe code; a kernel is an arbitrary function from the contents of its arguments and of its destination to the new
contents of the destination.  Borrowing (who may call what when) is the predicate `Safe` below; it is what the Rust compiler enforces and is
not part of the run-time behaviour.
-/

namespace Verif
namespace Life
open Res
variable {α : Type}

/-- `struct Tensor`, tensor.rs:10-19, with its handle (`none` = null) and the variable it refers to (`reference`). -/
structure HT (α : Type) where
  device : Option Nat
  shape : Shape
  handle : Option Nat
  host : Option (List α)
  reference : Option Nat

/-- State of a program: the pool of each device, the contents of the block behind each handle of each device, and the live tensors. -/
structure St (α : Type) where
  pool : Nat → Pool
  heap : Nat → Nat → List α
  vars : Nat → Option (HT α)

/-- Start of the program: nothing allocated. -/
def St.init : St α := ⟨fun _ => Pool.init, fun _ _ => [], fun _ => none⟩

/-- API calls on tensor variables (numbers). -/
inductive Cmd (α : Type) where
  /-- `v = Tensor::new(d, s)` / `d.new_tensor(s)` -/
  | new (v d : Nat) (s : Shape)
  /-- `v = Tensor::new_host_tensor(s, values)` -/
  | newHost (v : Nat) (s : Shape) (values : List α)
  /-- `v.alloc()` -/
  | alloc (v : Nat)
  /-- `v.move_to_device(d)` -/
  | moveTo (v d : Nat)
  /-- `v = Tensor::from(&w)` -/
  | view (v w : Nat)
  /-- `v.refer(&w)` -/
  | refer (v w : Nat)
  /-- `v.replace(w)` (consumes `w`) -/
  | replace (v w : Nat)
  /-- `v.update_shape(s)` -/
  | updateShape (v : Nat) (s : Shape)
  /-- a kernel with read-only arguments `xs` that writes to `y` -/
  | kernel (k : List (Tensor α) → Tensor α → Res (Tensor α)) (xs : List Nat) (y : Nat)
  /-- `v` goes out of scope -/
  | drop (v : Nat)

/-- The tensor with the contents of the block its handle points to. -/
def St.load (st : St α) (t : HT α) : Tensor α :=
  ⟨t.device, t.shape, match t.device, t.handle with
    | some d, some h => some (st.heap d h)
    | _, _ => none, t.host⟩

/-- What the program observes in variable `v` (shape, device, contents). -/
def St.read (st : St α) (v : Nat) : Option (Tensor α) := (st.vars v).map st.load

/-- Assign a variable. -/
def St.put (st : St α) (v : Nat) (t : Option (HT α)) : St α := { st with vars := Pool.set st.vars v t }

/-- `Device::new_handle`, device.rs:120-122, memory_pool.rs:50-67; a block that the back end has to make is filled with zeros
(`Naive::new_handle`, devices/naive.rs:68-71) at the address `fresh`. -/
def newHandle [Zero α] (st : St α) (d size fresh : Nat) : Res (St α × Nat) :=
  match Pool.classOf size with
  | none => panic
  | some s =>
    let heap := if (st.pool d).free s = [] then Pool.set st.heap d (Pool.set (st.heap d) fresh (List.replicate (2 ^ s) 0)) else st.heap
    match (st.pool d).newHandle size fresh with
    | (_, none) => panic
    | (P', some h) => ok ({ st with pool := Pool.set st.pool d P', heap := heap }, h)

/-- Write back the contents of `t'` to the block of `t`. -/
def store (st : St α) (t : HT α) (t' : Tensor α) : St α :=
  match t.device, t.handle, t'.buf with
  | some d, some h, some b => { st with heap := Pool.set st.heap d (Pool.set (st.heap d) h b) }
  | _, _, _ => st

/-- `impl Drop for Tensor`, tensor.rs:97-103, and `Device::drop_handle`, device.rs:124-126. -/
def dropTensor (st : St α) (t : HT α) : Res (St α) :=
  match t.handle with
  | none => ok st
  | some h =>
    if t.reference.isNone then
      match t.device with
      | none => panic
      | some d =>
        match (st.pool d).dropHandle h with
        | (_, false) => panic
        | (P', true) => ok { st with pool := Pool.set st.pool d P' }
    else ok st

/-- The asserts of `refer` and `replace`, tensor.rs:61-64 and 71-74. -/
def sameKind (t u : HT α) : Res Unit := do
  check (t.device = u.device)
  check (t.handle.isSome = false)
  check (t.shape = u.shape)
  check (t.host.isNone = true)

/-- One API call; `fresh` is the address the back end would return.  A panic ends the program (unwinding is not modelled). -/
def run [Flt α] (p : Profile) (fresh : Nat) (st : St α) : Cmd α → Res (St α)
  -- tensor.rs:22-30
  | .new v d s => ok (st.put v (some ⟨some d, s, none, none, none⟩))
  -- tensor.rs:32-40
  | .newHost v s values => ok (st.put v (some ⟨none, s, none, some values, none⟩))
  -- tensor.rs:50-54
  | .alloc v => do
    let t ← unwrap (st.vars v)
    check (t.handle.isSome = false)
    check (t.host.isNone = true)
    let d ← unwrap t.device
    let size ← t.shape.sizeU p
    let r ← newHandle st d size fresh
    ok (r.1.put v (some { t with handle := some r.2 }))
  -- tensor.rs:42-48
  | .moveTo v d => do
    let t ← unwrap (st.vars v)
    check (t.host.isSome = true)
    let size ← t.shape.sizeU p
    let r ← newHandle st d size fresh
    let values ← unwrap t.host
    let t' : HT α := { t with device := some d, handle := some r.2, host := none }
    let x ← Dev.resetTensorBySlice p (r.1.load t') values
    ok ((store r.1 t' x).put v (some t'))
  -- tensor.rs:134-143
  | .view v w => do
    let t ← unwrap (st.vars w)
    let d ← unwrap t.device
    let n : HT α := ⟨some d, t.shape, none, none, none⟩
    sameKind n t
    ok (st.put v (some { n with handle := t.handle, reference := some w }))
  -- tensor.rs:60-68
  | .refer v w => do
    let t ← unwrap (st.vars v)
    let u ← unwrap (st.vars w)
    sameKind t u
    ok (st.put v (some { t with handle := u.handle, reference := some w }))
  -- tensor.rs:70-78: the handle of `other` becomes null, then `other` is dropped
  | .replace v w => do
    let t ← unwrap (st.vars v)
    let u ← unwrap (st.vars w)
    sameKind t u
    let st' ← dropTensor (st.put v (some { t with handle := u.handle })) { u with handle := none }
    ok (st'.put w none)
  -- tensor.rs:92-95
  | .updateShape v s => do
    let t ← unwrap (st.vars v)
    let a ← s.sizeU p
    let b ← t.shape.sizeU p
    check (a = b)
    ok (st.put v (some { t with shape := s }))
  | .kernel k xs y => do
    let ts ← mapR (fun x => unwrap (st.vars x)) xs
    let t ← unwrap (st.vars y)
    let t' ← k (ts.map st.load) (st.load t)
    ok (store st t t')
  | .drop v => do
    let t ← unwrap (st.vars v)
    let st' ← dropTensor st t
    ok (st'.put v none)

/-! ## Borrowing -/

/-- Some live view refers to `v`: `v` is borrowed, so safe code can neither change, move nor drop it. -/
def Borrowed (st : St α) (v : Nat) : Prop := ∃ u t, st.vars u = some t ∧ t.reference = some v

/-- `v` is a live tensor that is not borrowed (the compiler accepts `&mut v`, moving and dropping it). -/
def Free (st : St α) (v : Nat) : Prop := st.vars v ≠ none ∧ ¬ Borrowed st v

/-- What the Rust compiler accepts: new variables get unused names; arguments are live; what is changed, moved or dropped is not
borrowed by a live view and not also passed as a shared argument. -/
def Safe (st : St α) : Cmd α → Prop
  | .new v _ _ | .newHost v _ _ => st.vars v = none
  | .view v w => st.vars v = none ∧ st.vars w ≠ none
  | .alloc v | .moveTo v _ | .updateShape v _ | .drop v => Free st v
  | .refer v w => Free st v ∧ st.vars w ≠ none ∧ v ≠ w
  | .replace v w => Free st v ∧ Free st w ∧ v ≠ w
  | .kernel _ xs y => Free st y ∧ y ∉ xs ∧ ∀ x, x ∈ xs → st.vars x ≠ none

/-- `v` holds its own buffer (or none): it is not a view. -/
def Owner (st : St α) (v : Nat) : Prop := ∀ t, st.vars v = some t → t.reference = none

/-- The discipline of C15: views are only read, and `replace` receives owners (and an owner is replaced or allocated). -/
def Disciplined (st : St α) : Cmd α → Prop
  | .alloc v => Owner st v
  | .replace v w => Owner st v ∧ Owner st w
  | .kernel _ _ y => Owner st y
  | _ => True

/-- A kernel changes nothing but the contents of its destination, and not the size of the block. -/
def Local (k : List (Tensor α) → Tensor α → Res (Tensor α)) : Prop :=
  ∀ xs y y', k xs y = ok y' → y'.device = y.device ∧ y'.shape = y.shape ∧ y'.host = y.host ∧ y'.buf.map List.length = y.buf.map List.length

/-- The kernels of a command are local. -/
def Cmd.Local : Cmd α → Prop
  | .kernel k _ _ => Life.Local k
  | _ => True

/-- The back end never returns an address it gave out before. -/
def FreshOk (st : St α) (fresh : Nat) : Prop := ∀ d, fresh ∉ (st.pool d).blocks.map Prod.fst

/-- `Runs p ok cs st`: a run of the program `cs` (last call first) that returned from every call, each call satisfying `allowed`. -/
inductive Runs [Flt α] (p : Profile) (allowed : St α → Cmd α → Prop) : List (Cmd α) → St α → Prop
  | nil : Runs p allowed [] St.init
  | cons {cs st c fresh st'} : Runs p allowed cs st → allowed st c → FreshOk st fresh → run p fresh st c = ok st' → Runs p allowed (c :: cs) st'

/-! ## The abstract machine: every tensor is an independent array -/

/-- The same call on independent values; `m` is the content of the buffer that the call allocates, if it does. -/
def spec [Flt α] (p : Profile) (m : Nat → α) (vs : Nat → Option (Tensor α)) : Cmd α → Res (Nat → Option (Tensor α))
  | .new v d s => ok (Pool.set vs v (some (Tensor.new d s)))
  | .newHost v s values => ok (Pool.set vs v (some (Tensor.newHost s values)))
  | .alloc v => do
    let t ← unwrap (vs v)
    let t' ← t.alloc p m
    ok (Pool.set vs v (some t'))
  | .moveTo v d => do
    let t ← unwrap (vs v)
    let t' ← t.moveToDevice p d m
    ok (Pool.set vs v (some t'))
  | .view v w => do
    let t ← unwrap (vs w)
    let d ← t.dev
    let t' ← (Tensor.new d t.shape).refer t
    ok (Pool.set vs v (some t'))
  | .refer v w => do
    let t ← unwrap (vs v)
    let u ← unwrap (vs w)
    let t' ← t.refer u
    ok (Pool.set vs v (some t'))
  | .replace v w => do
    let t ← unwrap (vs v)
    let u ← unwrap (vs w)
    let t' ← t.replace u
    ok (Pool.set (Pool.set vs v (some t')) w none)
  | .updateShape v s => do
    let t ← unwrap (vs v)
    let t' ← t.updateShape p s
    ok (Pool.set vs v (some t'))
  | .kernel k xs y => do
    let ts ← mapR (fun x => unwrap (vs x)) xs
    let t ← unwrap (vs y)
    let t' ← k ts t
    ok (Pool.set vs y (some t'))
  | .drop v => do
    let _ ← unwrap (vs v)
    ok (Pool.set vs v none)

end Life
end Verif
