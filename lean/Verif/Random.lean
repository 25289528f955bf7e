import Verif.Optim
import Verif.Operators

/-!
# Model of random tensors, initializers and `Device::new_parameter`

`random.rs`, `devices/naive/random.rs`, `functions/random/device.rs`, `initializers/*.rs`, `device.rs:153-160`.

The generators of the crates `rand` and `rand_distr` are not modelled: a sampler is an arbitrary sequence of samples (theorems quantify
over it).  What they do refuse is: `Bernoulli::new(p)` fails unless `0 ≤ p ≤ 1`, `Uniform::new(a, b)` panics unless `a < b`,
`Normal::new(m, sd)` fails unless `sd ≥ 0` (rand 0.7, rand_distr 0.2.2; `NaN` arguments are not modelled).
-/

namespace Verif
open Res
variable {α : Type} [Flt α]

/-- The samples that the generators return to one call: the i-th sample of each distribution. -/
structure Rng (α : Type) where
  coin : α → Nat → Bool
  uniform : α → α → Nat → α
  normal : α → α → Nat → α

namespace Rng

/-- `DefaultRandomizer::fill_bernoulli`, random.rs:20-26: the distribution is made before the loop, `bool as u32 as f32` per element. -/
def fillBernoulli (r : Rng α) (p : α) : Res (Nat → α) := do
  check (Flt.le 0 p = true ∧ Flt.le p 1 = true)
  ok fun i => Scalar.b2f (r.coin p i)

/-- `DefaultRandomizer::fill_uniform`, random.rs:28-34. -/
def fillUniform (r : Rng α) (lower upper : α) : Res (Nat → α) := do
  check (Flt.gt upper lower = true)
  ok fun i => r.uniform lower upper i

/-- `DefaultRandomizer::fill_normal`, random.rs:36-42. -/
def fillNormal (r : Rng α) (mean sd : α) : Res (Nat → α) := do
  check (Flt.le 0 sd = true)
  ok fun i => r.normal mean sd i

end Rng

namespace K

/-- The three kernels of devices/naive/random.rs:20-33, 47-61, 75-89, given the filling function of the randomizer: a slice of `size()` elements
over the buffer, filled from first to last. -/
def random (fill : Res (Nat → α)) (p : Profile) (y : Tensor α) : Res (Tensor α) := do
  let py ← y.ptr
  let size ← y.shape.sizeU p
  let g ← fill
  let py ← loop size (fun i py => wr py i (g i)) py
  ok { y with buf := some py }

end K

namespace Dev

/-- `random_bernoulli`, functions/random/device.rs:10-15. -/
def randomBernoulli (p : Profile) (d : Nat) (m : Nat → α) (r : Rng α) (s : Shape) (k : α) : Res (Tensor α) := do
  let y ← (Tensor.new d s).alloc p m
  K.random (r.fillBernoulli k) p y

/-- `random_normal`, functions/random/device.rs:17-22. -/
def randomNormal (p : Profile) (d : Nat) (m : Nat → α) (r : Rng α) (s : Shape) (mean sd : α) : Res (Tensor α) := do
  let y ← (Tensor.new d s).alloc p m
  K.random (r.fillNormal mean sd) p y

/-- `random_uniform`, functions/random/device.rs:24-35. -/
def randomUniform (p : Profile) (d : Nat) (m : Nat → α) (r : Rng α) (s : Shape) (lower upper : α) : Res (Tensor α) := do
  let y ← (Tensor.new d s).alloc p m
  K.random (r.fillUniform lower upper) p y

end Dev

/-- `initializers/{constant,normal,uniform,xavier_uniform}.rs`. -/
inductive Init (α : Type) where
  | constant (k : α)
  | normal (mean sd : α)
  | uniform (lower upper : α)
  | xavierUniform (scale : α)

/-- `s[0] + s[1]` of u32s. -/
def fans (p : Profile) (s : Shape) : Res Nat := uadd p (s.get 0) (s.get 1)

/-- `Initializer::apply`, initializers/constant.rs:13-17, normal.rs:15-21, uniform.rs:18-22, xavier_uniform.rs:15-22. -/
def Init.apply (p : Profile) (m : Nat → α) (r : Rng α) (x : Tensor α) : Init α → Res (Tensor α)
  | .constant k => do
    let x ← x.alloc p m
    x.reset p k
  | .normal mean sd => do
    let d ← x.dev
    let t ← Dev.randomNormal p d m r x.shape mean sd
    x.replace t
  | .uniform lower upper => do
    let d ← x.dev
    let t ← Dev.randomUniform p d m r x.shape lower upper
    x.replace t
  | .xavierUniform scale => do
    check (x.shape.isMatrix = true)
    let n ← fans p x.shape
    let bound := scale * Flt.sqrt (Flt.ofInt 6 / Flt.ofInt n)
    let d ← x.dev
    let t ← Dev.randomUniform p d m r x.shape (-bound) bound
    x.replace t

/-- `Device::new_parameter`, device.rs:153-160 (`m 0`, `m 1`: stale contents of the two blocks). -/
def Dev.newParameter (p : Profile) (d : Nat) (m : Mem α) (r : Rng α) (s : Shape) (i : Init α) : Res (Param α) := do
  let value := Tensor.new d s
  let gradient := Tensor.new d s
  let value ← i.apply p (m 0) r value
  let gradient ← gradient.alloc p (m 1)
  let gradient ← gradient.reset p 0
  Param.new value gradient

end Verif
