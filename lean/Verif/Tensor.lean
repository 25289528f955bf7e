import Verif.Pool
import Verif.Scalar

/-!
# Model of `prima_undine/src/tensor.rs` (values)

A tensor together with the contents of the buffer its handle points to.  Which tensors share a buffer (views) and who returns
it to the pool is the subject of `Verif.Lifecycle`; here every tensor has its own buffer.
-/

namespace Verif
open Res

/-- `struct Tensor`, tensor.rs:10-19.  `device`: identity of the device (`None` for a host tensor); `buf`: contents of the
`Vec<f32>` behind the handle, `none` for the null handle; `host`: `host_values`. -/
structure Tensor (α : Type) where
  device : Option Nat
  shape : Shape
  buf : Option (List α)
  host : Option (List α)

/-- What the memory handed out by the pool contains: `mem i` is the stale content of the i-th buffer a function
allocates.  All functions take this as an argument, theorems quantify over it. -/
abbrev Mem (α : Type) := Nat → Nat → α

/-- Contents of the buffer that `Device::new_handle(size)` (device.rs:120-122, memory_pool.rs:50-67) returns: a block
with the capacity of the size class, with arbitrary contents. -/
def newBuf (size : Nat) (m : Nat → α) : Res (List α) :=
  match Pool.classOf size with
  | some s => ok ((List.range (2 ^ s)).map m)
  | none => panic

namespace Tensor
variable {α : Type}

/-- `Tensor::new`, tensor.rs:22-30 (`Device::new_tensor`, device.rs:128-130). -/
def new (dev : Nat) (s : Shape) : Tensor α := ⟨some dev, s, none, none⟩

/-- `Tensor::new_host_tensor`, tensor.rs:32-40. -/
def newHost (s : Shape) (v : List α) : Tensor α := ⟨none, s, none, some v⟩

/-- `Tensor::valid`, tensor.rs:56-58. -/
def valid (t : Tensor α) : Bool := t.buf.isSome

/-- `Option::unwrap`. -/
def _root_.Verif.unwrap (x : Option β) : Res β :=
  match x with
  | some a => ok a
  | none => panic

/-- `Tensor::device`, tensor.rs:80-82. -/
def dev (t : Tensor α) : Res Nat := unwrap t.device

/-- `Tensor::alloc`, tensor.rs:50-54. -/
def alloc (p : Profile) (m : Nat → α) (t : Tensor α) : Res (Tensor α) := do
  check (t.valid = false)
  check (t.host.isNone = true)
  let _ ← unwrap t.device
  let size ← t.shape.sizeU p
  let b ← newBuf size m
  ok { t with buf := some b }

/-- `const_ptr!`/`mut_ptr!`, naive/common.rs:1-17: panics on the null handle. -/
def ptr (t : Tensor α) : Res (List α) := unwrap t.buf

/-- `assert!(x.device() == self)`. -/
def onDev (t : Tensor α) (d : Nat) : Res Unit := do
  let e ← t.dev
  check (e = d)

/-- `Tensor::update_shape`, tensor.rs:92-95. -/
def updateShape (p : Profile) (t : Tensor α) (s : Shape) : Res (Tensor α) := do
  let a ← s.sizeU p
  let b ← t.shape.sizeU p
  check (a = b)
  ok { t with shape := s }

end Tensor
end Verif
