import Verif.Optim
import Verif.HoldsLemmas

/-!
# Specification vocabulary for parameters and optimizers
-/

namespace Verif
variable {α : Type}

/-- What a parameter contains: its shape, value, gradient and statistics, as arrays. -/
structure PArr (α : Type) where
  shape : Shape
  value : Arr α
  grad : Arr α
  stat : String → Option (Shape × Arr α)

/-- The parameter is on device `d` and contains `a`; value and gradient have the same shape, without batch. -/
structure Param.Is (q : Param α) (d : Nat) (a : PArr α) : Prop where
  batch : a.shape.batch = 1
  value : q.value.Holds d a.shape a.value
  grad : q.gradient.Holds d a.shape a.grad
  stat_none : ∀ name, a.stat name = none → q.stat name = none
  nodup : (q.stats.map Prod.fst).Nodup
  stat_some : ∀ name s f, a.stat name = some (s, f) → ∃ t, q.stat name = some t ∧ t.Holds d s f

/-- All parameters of the list contain what the list of arrays says. -/
def Params (d : Nat) (qs : List (Param α)) (as : List (PArr α)) : Prop := List.Forall₂ (fun q a => q.Is d a) qs as

namespace PArr

/-- Replace a statistic by one of the parameter's shape. -/
def put (a : PArr α) (name : String) (f : Arr α) : PArr α :=
  { a with stat := fun n => if n = name then some (a.shape, f) else a.stat n }

/-- The statistic exists and has the parameter's shape. -/
def Has (a : PArr α) (name : String) (f : Arr α) : Prop := a.stat name = some (a.shape, f)

/-- The elements of an array in the order of `to_vec`. -/
def elems (s : Shape) (f : Arr α) : List α := (List.range s.size).map (Arr.flat s f)

variable [Flt α]

/-- The statistic, or zeros. -/
def read (a : PArr α) (name : String) : Arr α := match a.stat name with
  | some (_, f) => f
  | none => fun _ _ => 0

/-- The textbook update rules; `t` is the number of the step (1, 2, …), `scale` the learning rate scaling. -/
def rule (k : OptKind α) (t scale : α) (a : PArr α) : PArr α :=
  match k with
  | .sgd eta => { a with value := fun c b => a.value c b - a.grad c b * (scale * eta) }
  | .momentum eta mu =>
    let m : Arr α := fun c b => a.read "MomentumSGD.m" c b * mu - a.grad c b * (scale * eta)
    { a.put "MomentumSGD.m" m with value := fun c b => a.value c b + m c b }
  | .adam alpha beta1 beta2 eps =>
    let m1 : Arr α := fun c b => a.read "Adam.m1" c b * beta1 + a.grad c b * (1 - beta1)
    let m2 : Arr α := fun c b => a.read "Adam.m2" c b * beta2 + a.grad c b * (1 - beta2) * a.grad c b
    { (a.put "Adam.m1" m1).put "Adam.m2" m2 with
      value := fun c b => a.value c b -
        m1 c b / (1 - Flt.powf beta1 t) * (scale * alpha) / (Flt.sqrt (m2 c b / (1 - Flt.powf beta2 t)) + eps) }

/-- The statistics an optimizer needs are there. -/
def Ready (k : OptKind α) (a : PArr α) : Prop :=
  match k with
  | .sgd _ => True
  | .momentum _ _ => ∃ m, a.Has "MomentumSGD.m" m
  | .adam _ _ _ _ => (∃ m, a.Has "Adam.m1" m) ∧ ∃ m, a.Has "Adam.m2" m

/-- The parameter with another gradient. -/
def withGrad (a : PArr α) (g : Arr α) : PArr α := { a with grad := g }

/-- Weight decay: `g + v * l2` (nothing when `l2` is not positive). -/
def decayed (l2 : α) (a : PArr α) : PArr α :=
  if Flt.gt l2 0 then a.withGrad fun c b => a.grad c b + a.value c b * l2 else a

/-- The sum of the squares of the elements of all gradients. -/
def sqTotal (as : List (PArr α)) : α :=
  as.foldl (fun acc a => acc + (elems a.shape fun c b => a.grad c b * a.grad c b).foldl (· + ·) 0) 0

/-- Gradient clipping (nothing when `clip` is not positive). -/
def clipped (clip : α) (as : List (PArr α)) : List (PArr α) :=
  if Flt.gt clip 0 && Flt.gt (sqTotal as) (clip * clip) then
    as.map fun a => a.withGrad fun c b => a.grad c b * (clip / Flt.sqrt (sqTotal as))
  else as

/-- The gradient is set to zero. -/
def zeroed (a : PArr α) : PArr α := a.withGrad fun _ _ => 0

/-- A whole update. -/
def updated (o : Opt α) (as : List (PArr α)) : List (PArr α) :=
  (clipped o.clip (as.map (decayed o.l2))).map fun a => (a.rule o.kind (Flt.ofInt (o.epoch + 1)) o.lrScale).zeroed

end PArr
end Verif

namespace Verif
variable {α : Type}

/-- The statistics an optimizer uses. -/
def OptKind.names : OptKind α → List String
  | .sgd _ => []
  | .momentum _ _ => ["MomentumSGD.m"]
  | .adam _ _ _ _ => ["Adam.m1", "Adam.m2"]

/-- The parameter with the missing statistics of the list added, filled with zeros. -/
def PArr.configured [Zero α] (names : List String) (a : PArr α) : PArr α :=
  { a with stat := fun n => if n ∈ names ∧ a.stat n = none then some (a.shape, fun _ _ => 0) else a.stat n }

/-- The gradients have been computed: the k-th parameter has gradient `G k`, values and statistics are as before. -/
def GradsSet (d : Nat) (G : Nat → Arr α) (qs qs' : List (Param α)) : Prop :=
  qs'.length = qs.length ∧ ∀ (k : Nat) (q q' : Param α), qs[k]? = some q → qs'[k]? = some q' →
    q'.value = q.value ∧ q'.stats = q.stats ∧ q'.gradient.Holds d q.value.shape (G k)

/-- `N` steps of training on device `d`: in step `n` the gradients `G n` are computed and the optimizer, with learning rate scaling
`scale n`, updates the parameters `qs n`, which gives `qs (n+1)` and advances the epoch. -/
def Opt.Trains [Flt α] (p : Profile) (d : Nat) (o : Opt α) (scale : Nat → α) (G : Nat → Nat → Arr α) (N : Nat) (qs : Nat → List (Param α)) : Prop :=
  ∀ n, n < N → ∃ qs' m, GradsSet d (G n) (qs n) qs' ∧
    Opt.updateParameters p m { o with epoch := o.epoch + n, lrScale := scale n } qs' = (qs (n + 1), .ok (o.epoch + n + 1))

end Verif
