import Verif.Random

/-!
# Model of the lock around the randomizer of a device

All random kernels of a device share one `Arc<Mutex<Box<dyn Randomizer>>>` (devices/naive.rs:84-85, 105-117; devices/naive/random.rs:8-18, 35-45, 63-73).
A panic while the guard is alive poisons the mutex; `lock().unwrap()` of a poisoned mutex panics.
-/

namespace Verif
open Res
variable {α : Type} [Flt α]

/-- A call of a random function: functions/random/device.rs:3-7. -/
inductive RandCall (α : Type) where
  | bernoulli (s : Shape) (p : α)
  | normal (s : Shape) (mean sd : α)
  | uniform (s : Shape) (lower upper : α)

/-- The shape that is asked for. -/
def RandCall.shape : RandCall α → Shape
  | .bernoulli s _ | .normal s _ _ | .uniform s _ _ => s

/-- What the call does with the randomizer (random.rs:19-51). -/
def RandCall.fill (r : Rng α) : RandCall α → Res (Nat → α)
  | .bernoulli _ p => r.fillBernoulli p
  | .normal _ mean sd => r.fillNormal mean sd
  | .uniform _ lower upper => r.fillUniform lower upper

/-- The kernels of devices/naive/random.rs:20-33, 47-61, 75-89 with the mutex: the destination's pointer and size are computed before the lock is
taken; `lock().unwrap()` panics if the mutex is poisoned; a panic of the randomizer happens with the guard alive and poisons the mutex.
Result: whether the mutex is poisoned afterwards, and the outcome. -/
def K.randomLocked (fill : Res (Nat → α)) (p : Profile) (poisoned : Bool) (y : Tensor α) : Bool × Res (Tensor α) :=
  match y.ptr, y.shape.sizeU p with
  | ok py, ok size =>
    if poisoned then (true, panic) else
      match fill with
      | ok g => (false, do
          let py ← loop size (fun i py => wr py i (g i)) py
          ok { y with buf := some py })
      | Res.panic => (true, panic)
      | ub => (true, ub)
  | a, b => (poisoned, do
      let _ ← a
      let _ ← b
      panic)

/-- `random_bernoulli`, `random_normal`, `random_uniform`, functions/random/device.rs:9-36, on a device whose randomizer's mutex is (not) poisoned. -/
def RandCall.run (p : Profile) (d : Nat) (m : Nat → α) (r : Rng α) (poisoned : Bool) (c : RandCall α) : Bool × Res (Tensor α) :=
  match (Tensor.new d c.shape).alloc p m with
  | ok y => K.randomLocked (c.fill r) p poisoned y
  | Res.panic => (poisoned, panic)
  | ub => (poisoned, ub)

/-- The state of the mutex after a history of calls (first call first) whose panics were caught; each call with the stale contents of its
block and the samples it gets. -/
def RandCall.after (p : Profile) (d : Nat) : Bool → List (RandCall α × (Nat → α) × Rng α) → Bool
  | q, [] => q
  | q, (c, m, r) :: cs => RandCall.after p d (c.run p d m r q).1 cs

end Verif
