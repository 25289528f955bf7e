import Verif.Lifecycle

/-!
# Model of unwinding: the state of a program after a panic of an API call was caught

`Life.run` says when a call panics.  Here is what the call has done by then (`std::panic::catch_unwind`, or a thread that is joined): the
fields it has assigned before the panic, and the values it owned, which are dropped.
-/

namespace Verif
namespace Life
open Res
variable {α : Type} [Flt α]

/-- The state after a caught panic of the call.
* `move_to_device` (tensor.rs:42-48): nothing if the tensor is not a host tensor; else `device` is assigned, then `size()` or `new_handle` may panic; else
  the handle is assigned and the host values are taken, and `reset_tensor_by_slice` panics before it writes (device.rs:166-169).
* `replace` (tensor.rs:70-78): the asserts come first; `other` was moved into the call and is dropped.
* a kernel may have written anything (`g`) to its destination.
* `alloc` (tensor.rs:50-54), `refer` (60-68), `From<&Tensor>` (134-143), `update_shape` (92-95): all panics come before the first assignment (the tensor made by
  `from` is dropped with a null handle, which does nothing); `new_handle` panics before it takes a lock (memory_pool.rs:51-55). -/
def crash (p : Profile) (fresh : Nat) (g : Nat → α) (st : St α) : Cmd α → Res (St α)
  | .moveTo v d => do
    let t ← unwrap (st.vars v)
    if t.host.isSome = false then ok st else
      match (do
        let size ← t.shape.sizeU p
        newHandle st d size fresh) with
      | ok r => ok (r.1.put v (some { t with device := some d, handle := some r.2, host := none }))
      | _ => ok (st.put v (some { t with device := some d }))
  | .replace _ w => do
    let u ← unwrap (st.vars w)
    let st' ← dropTensor st u
    ok (st'.put w none)
  | .kernel _ _ y => do
    let t ← unwrap (st.vars y)
    ok (store st t { st.load t with buf := (st.load t).buf.map fun l => (List.range l.length).map g })
  | _ => ok st

/-- Runs (last call first) in which any number of calls panicked and the panics were caught. -/
inductive CaughtRuns (p : Profile) (allowed : St α → Cmd α → Prop) : List (Cmd α) → St α → Prop
  | nil : CaughtRuns p allowed [] St.init
  | cons {cs st c fresh st'} : CaughtRuns p allowed cs st → allowed st c → FreshOk st fresh → run p fresh st c = ok st' → CaughtRuns p allowed (c :: cs) st'
  | caught {cs st c fresh g st'} : CaughtRuns p allowed cs st → allowed st c → FreshOk st fresh → run p fresh st c = panic → crash p fresh g st c = ok st' →
      CaughtRuns p allowed (c :: cs) st'

end Life
end Verif
