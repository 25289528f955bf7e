import Verif.Optim

/-!
# Model of saving and loading: `tensor.rs:106-132`, `parameter.rs:9-14` (derived), `shape.rs:169-195`

A serialiser writes a record of fields; that the serialisation format gives the same records back is assumed.
-/

namespace Verif
open Res
variable {α : Type} [Flt α]

/-- The record written for a tensor: that of the shape, and the values (`TensorSerde`, tensor.rs:105-109). -/
structure TensorRec (α : Type) where
  shape : List Nat × Nat
  values : List α

/-- `impl Serialize for Tensor`, tensor.rs:121-132. -/
def Tensor.serialize (p : Profile) (t : Tensor α) : Res (TensorRec α) := do
  let v ← t.toVec p
  ok ⟨t.shape.toRecord, v⟩

/-- `impl Deserialize for Tensor`, tensor.rs:111-119. -/
def Tensor.deserialize (p : Profile) (r : TensorRec α) : Res (Tensor α) := do
  let s ← Shape.ofRecord p r.shape
  ok (Tensor.newHost s r.values)

/-- The record written for a parameter, parameter.rs:9-14. -/
structure ParamRec (α : Type) where
  value : TensorRec α
  gradient : TensorRec α
  stats : List (String × TensorRec α)

namespace Param

/-- The entries of the `HashMap`. -/
def serializeStats (p : Profile) : List (String × Tensor α) → Res (List (String × TensorRec α))
  | [] => ok []
  | a :: l => do
    let r ← a.2.serialize p
    let rs ← serializeStats p l
    ok ((a.1, r) :: rs)

/-- `#[derive(Serialize)]`, parameter.rs:9. -/
def serialize (p : Profile) (q : Param α) : Res (ParamRec α) := do
  let v ← q.value.serialize p
  let g ← q.gradient.serialize p
  let st ← serializeStats p q.stats
  ok ⟨v, g, st⟩

/-- The entries of the `HashMap`. -/
def deserializeStats (p : Profile) : List (String × TensorRec α) → Res (List (String × Tensor α))
  | [] => ok []
  | a :: l => do
    let r ← Tensor.deserialize p a.2
    let rs ← deserializeStats p l
    ok ((a.1, r) :: rs)

/-- `#[derive(Deserialize)]`, parameter.rs:9. -/
def deserialize (p : Profile) (r : ParamRec α) : Res (Param α) := do
  let v ← Tensor.deserialize p r.value
  let g ← Tensor.deserialize p r.gradient
  let st ← deserializeStats p r.stats
  ok ⟨v, g, st⟩

/-- Save, load and move to device `d`. -/
def reload (p : Profile) (d : Nat) (m : Mem α) (q : Param α) : Res (Param α) := do
  let r ← q.serialize p
  let q ← Param.deserialize p r
  q.moveToDevice p d m

end Param

/-- Save, load and move to device `d`. -/
def Tensor.reload (p : Profile) (d : Nat) (m : Nat → α) (t : Tensor α) : Res (Tensor α) := do
  let r ← t.serialize p
  let t ← Tensor.deserialize p r
  t.moveToDevice p d m

end Verif
