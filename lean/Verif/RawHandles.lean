import Verif.Lifecycle

/-!
# Model of the public functions on raw handles

`Device::new_handle`, `Device::drop_handle` and `Tensor::handle` are public and not `unsafe`: a program can get a block without a tensor, give
any block back through a shared reference to its pointer, and overwrite the pointer of a tensor through a shared reference to the tensor.
A pointer variable of the program (`AtomicPtr`, without destructor) is represented by a record of which only device and handle matter; its shape
only remembers the requested size.
-/

namespace Verif
namespace Life
open Res
variable {α : Type}

/-- Calls of a program that also uses raw handles. -/
inductive RCmd (α : Type) where
  | call (c : Cmd α)
  /-- `let r = d.new_handle(size)` -/
  | newHandle (r d size : Nat)
  /-- `d.drop_handle(&r)`, or `d.drop_handle(r.handle())` if `r` is a tensor: `r` is only borrowed, as shared -/
  | dropHandle (d r : Nat)
  /-- `v.handle().store(w.handle().load(..), ..)` (or a pointer variable in place of a tensor's): both are only borrowed, as shared -/
  | storeHandle (v w : Nat)
  /-- the pointer variable `r` goes out of scope (nothing happens) -/
  | forget (r : Nat)

/-- The record of a pointer variable got by `new_handle(size)`. -/
def rawVar (d size h : Nat) : HT α := ⟨some d, ⟨[], 1, 0, size⟩, some h, none, none⟩

/-- One call.  device.rs:120-126, tensor.rs:84-86, memory_pool.rs:50-77; a null pointer is never registered. -/
def runR [Flt α] (p : Profile) (fresh : Nat) (st : St α) : RCmd α → Res (St α)
  | .call c => run p fresh st c
  | .newHandle r d size => do
    let x ← newHandle st d size fresh
    ok (x.1.put r (some (rawVar d size x.2)))
  | .dropHandle d r => do
    let t ← unwrap (st.vars r)
    match t.handle with
    | none => panic
    | some h =>
      match (st.pool d).dropHandle h with
      | (_, false) => panic
      | (P', true) => ok { st with pool := Pool.set st.pool d P' }
  | .storeHandle v w => do
    let t ← unwrap (st.vars v)
    let u ← unwrap (st.vars w)
    ok (st.put v (some { t with handle := u.handle }))
  | .forget r => ok (st.put r none)

/-- The variables a call names. -/
def Cmd.names : Cmd α → List Nat
  | .new v _ _ | .newHost v _ _ | .alloc v | .moveTo v _ | .updateShape v _ | .drop v => [v]
  | .view v w | .refer v w | .replace v w => [v, w]
  | .kernel _ xs y => y :: xs

/-- What the compiler accepts: pointers are passed by shared reference, so the functions on raw handles only need the variables to be live. -/
def SafeR (st : St α) : RCmd α → Prop
  | .call c => Safe st c
  | .newHandle r _ size => st.vars r = none ∧ size < U32
  | .dropHandle _ r => st.vars r ≠ none
  | .storeHandle v w => st.vars v ≠ none ∧ st.vars w ≠ none
  | .forget r => st.vars r ≠ none

end Life
end Verif
