import Verif.TensorFn

/-!
# Model of `parameter.rs`, `optimizer.rs`, `optimizers.rs`, `optimizers/*.rs`, `model.rs` and of the code generated by
`prima_undine_derive/src/lib.rs`

`m` is the stale content of the buffers a function allocates.  Names of statistics (`String`s in the code) are strings here; the
`HashMap` is an association list without repeated names (`Param.Is.nodup`, which every function keeps).
-/

namespace Verif
open Res
variable {α : Type}

/-- `struct Parameter`, parameter.rs:9-14. -/
structure Param (α : Type) where
  value : Tensor α
  gradient : Tensor α
  stats : List (String × Tensor α)

namespace Param

/-- `self.stats.get(name)`. -/
def stat (q : Param α) (name : String) : Option (Tensor α) := q.stats.lookup name

/-- `Parameter::new`, parameter.rs:17-25: only the batches are checked. -/
def new (value gradient : Tensor α) : Res (Param α) := do
  check (value.shape.batch = 1)
  check (gradient.shape.batch = 1)
  ok ⟨value, gradient, []⟩

/-- `Parameter::has_stat`, parameter.rs:51-53. -/
def hasStat (q : Param α) (name : String) : Bool := (q.stat name).isSome

/-- Writing to a statistic through its `RefCell`. -/
def setStat (q : Param α) (name : String) (t : Tensor α) : Param α :=
  { q with stats := q.stats.map fun a => if a.1 = name then (a.1, t) else a }

variable [Flt α]

/-- parameter.rs:30-32: the statistics, in the order of the list (that of the `HashMap` in the code; they are independent of each other). -/
def moveStats (p : Profile) (d : Nat) (m : Mem α) : Nat → List (String × Tensor α) → Res (List (String × Tensor α))
  | _, [] => ok []
  | i, a :: l => do
    let t ← a.2.moveToDevice p d (m i)
    let r ← moveStats p d m (i + 1) l
    ok ((a.1, t) :: r)

/-- `Parameter::move_to_device`, parameter.rs:27-33. -/
def moveToDevice (p : Profile) (d : Nat) (m : Mem α) (q : Param α) : Res (Param α) := do
  let v ← q.value.moveToDevice p d (m 0)
  let g ← q.gradient.moveToDevice p d (m 1)
  let st ← moveStats p d m 2 q.stats
  ok ⟨v, g, st⟩

/-- `Parameter::reset_gradient`, parameter.rs:39-41. -/
def resetGradient (p : Profile) (q : Param α) : Res (Param α) := do
  let g ← q.gradient.reset p 0
  ok { q with gradient := g }

/-- `Parameter::add_stat`, parameter.rs:43-47. -/
def addStat (p : Profile) (m : Nat → α) (q : Param α) (name : String) (s : Shape) : Res (Param α) := do
  check (q.hasStat name = false)
  let d ← q.value.dev
  let t ← Dev.newByConstant p d m s 0
  ok { q with stats := (name, t) :: q.stats }

end Param

/-- The fields every optimizer has, optimizers.rs:3-9, with the three kinds of optimizers, optimizers/{sgd,momentum_sgd,adam}.rs. -/
inductive OptKind (α : Type) where
  | sgd (eta : α)
  | momentum (eta momentum : α)
  | adam (alpha beta1 beta2 eps : α)

/-- An optimizer, optimizers.rs:3-9. -/
structure Opt (α : Type) where
  epoch : Nat
  lrScale : α
  l2 : α
  clip : α
  kind : OptKind α

namespace Opt
variable [Flt α]

/-- `new`, optimizers.rs:12-21. -/
def new (k : OptKind α) : Opt α := ⟨0, 1, 0, 0, k⟩

/-- `set_learning_rate_scaling`, optimizers.rs:34-37 (`scale >= 0.`). -/
def setLearningRateScaling (o : Opt α) (k : α) : Res (Opt α) := do
  check (Flt.le 0 k = true)
  ok { o with lrScale := k }

/-- `set_weight_decay`, optimizers.rs:43-46. -/
def setWeightDecay (o : Opt α) (k : α) : Res (Opt α) := do
  check (Flt.le 0 k = true)
  ok { o with l2 := k }

/-- `set_gradient_clipping`, optimizers.rs:52-55. -/
def setGradientClipping (o : Opt α) (k : α) : Res (Opt α) := do
  check (Flt.le 0 k = true)
  ok { o with clip := k }

/-- `if !parameter.has_stat(name) { parameter.add_stat(name, parameter.shape()) }`. -/
def ensureStat (p : Profile) (m : Nat → α) (name : String) (q : Param α) : Res (Param α) :=
  if q.hasStat name then ok q else q.addStat p m name q.value.shape

/-- `configure_parameter`: sgd.rs:6, momentum_sgd.rs:6-10, adam.rs:7-14. -/
def configureParameter (p : Profile) (m : Mem α) (o : Opt α) (q : Param α) : Res (Param α) :=
  match o.kind with
  | .sgd _ => ok q
  | .momentum _ _ => ensureStat p (m 0) "MomentumSGD.m" q
  | .adam _ _ _ _ => do
    let q ← ensureStat p (m 0) "Adam.m1" q
    ensureStat p (m 1) "Adam.m2" q

/-- `update_parameter`: sgd.rs:7-10, momentum_sgd.rs:12-18, adam.rs:16-28. -/
def updateParameter (p : Profile) (m : Mem α) (o : Opt α) (scale : α) (q : Param α) : Res (Param α) :=
  match o.kind with
  | .sgd eta => do
    let diff ← TF.cMul p (m 0) (scale * eta) q.gradient
    let v ← TF.subAssign p q.value diff
    ok { q with value := v }
  | .momentum eta momentum => do
    let mdiff ← TF.cMul p (m 0) (scale * eta) q.gradient
    let mm ← unwrap (q.stat "MomentumSGD.m")
    let mm ← TF.mulAssign p mm momentum
    let mm ← TF.subAssign p mm mdiff
    let v ← TF.addAssign p q.value mm
    ok { (q.setStat "MomentumSGD.m" mm) with value := v }
  | .adam alpha beta1 beta2 eps => do
    let e ← uadd p o.epoch 1
    let epoch : α := Flt.ofInt e
    let m1 ← unwrap (q.stat "Adam.m1")
    let m2 ← unwrap (q.stat "Adam.m2")
    let m1 ← TF.mulAssign p m1 beta1
    let t ← TF.cMul p (m 0) (1 - beta1) q.gradient
    let m1 ← TF.addAssign p m1 t
    let m2 ← TF.mulAssign p m2 beta2
    let t ← TF.cMul p (m 1) (1 - beta2) q.gradient
    let t ← TF.mul p (m 2) t q.gradient
    let m2 ← TF.addAssign p m2 t
    let mm1 ← TF.divC p (m 3) m1 (1 - Flt.powf beta1 epoch)
    let mm2 ← TF.divC p (m 4) m2 (1 - Flt.powf beta2 epoch)
    let a ← TF.cMul p (m 5) (scale * alpha) mm1
    let b ← TF.sqrt p (m 6) mm2
    let b ← TF.addC p (m 7) b eps
    let t ← TF.div p (m 8) a b
    let v ← TF.subAssign p q.value t
    ok { ((q.setStat "Adam.m1" m1).setStat "Adam.m2" m2) with value := v }

/-- `for param in parameters { f(param) }`: the parameters that were completed and how the loop ended.  (After a panic in the middle of a
parameter, that parameter may be changed in part.) -/
def forEach (f : Nat → Param α → Res (Param α)) : Nat → List (Param α) → List (Param α) × Res Unit
  | _, [] => ([], ok ())
  | i, q :: qs =>
    match f i q with
    | .ok q' =>
      match forEach f (i + 1) qs with
      | (done, r) => (q' :: done, r)
    | .panic => ([], panic)
    | .ub => ([], ub)

/-- `configure_parameters`, optimizer.rs:17-21; `configure_model`, optimizer.rs:50-52, on the list of the model's parameters. -/
def configureParameters (p : Profile) (m : Nat → Mem α) (o : Opt α) (qs : List (Param α)) : List (Param α) × Res Unit :=
  forEach (fun i q => o.configureParameter p (m i) q) 0 qs

/-- optimizer.rs:24-29: weight decay of one parameter. -/
def decay (p : Profile) (m : Nat → α) (l2 : α) (q : Param α) : Res (Param α) := do
  let diff ← TF.cMul p m l2 q.value
  let g ← TF.addAssign p q.gradient diff
  ok { q with gradient := g }

/-- optimizer.rs:34-35: `(g * g).flatten().sum(0).to_float()`. -/
def sqNorm (p : Profile) (m : Mem α) (q : Param α) : Res α := do
  let t ← TF.mul p (m 0) q.gradient q.gradient
  let t ← TF.flatten p (m 1) t
  let t ← TF.sum p (m 2) t 0
  TF.toFloat p t

/-- optimizer.rs:32-36: the sum over all parameters. -/
def sqNorms (p : Profile) (m : Nat → Mem α) : Nat → List (Param α) → α → Res α
  | _, [], acc => ok acc
  | i, q :: qs, acc => do
    let v ← sqNorm p (m i) q
    sqNorms p m (i + 1) qs (acc + v)

/-- optimizer.rs:39-41: scaling of the gradient of one parameter. -/
def scaleGrad (p : Profile) (k : α) (q : Param α) : Res (Param α) := do
  let g ← TF.mulAssign p q.gradient k
  ok { q with gradient := g }

/-- optimizer.rs:44-46: one parameter. -/
def step (p : Profile) (m : Mem α) (o : Opt α) (q : Param α) : Res (Param α) := do
  let q ← o.updateParameter p m o.lrScale q
  q.resetGradient p

/-- Continue with the next loop when the previous one ended normally; otherwise the parameters are those completed followed by the
untouched rest. -/
def andThen (qs : List (Param α)) (r : List (Param α) × Res Unit) (k : List (Param α) → List (Param α) × Res Nat) :
    List (Param α) × Res Nat :=
  match r.2 with
  | .ok () => k r.1
  | .panic => (r.1 ++ qs.drop r.1.length, panic)
  | .ub => (r.1 ++ qs.drop r.1.length, ub)

/-- `update_parameters`, optimizer.rs:22-49 (`update_model`, optimizer.rs:53-55, on the list of the model's parameters): the parameters
afterwards, and the new epoch or a panic.  `m j i` is the memory used by the j-th loop for the i-th parameter. -/
def updateParameters (p : Profile) (m : Nat → Nat → Mem α) (o : Opt α) (qs : List (Param α)) : List (Param α) × Res Nat :=
  andThen qs (if Flt.gt o.l2 0 then forEach (fun i q => decay p (m 0 i 0) o.l2 q) 0 qs else (qs, ok ())) fun qs =>
    let upd (qs : List (Param α)) : List (Param α) × Res Nat :=
      andThen qs (forEach (fun i q => step p (m 2 i) o q) 0 qs) fun qs => (qs, uadd p o.epoch 1)
    if Flt.gt o.clip 0 then
      match sqNorms p (m 1) 0 qs 0 with
      | .ok sq =>
        if Flt.gt sq (o.clip * o.clip) then
          andThen qs (forEach (fun _ q => scaleGrad p (o.clip / Flt.sqrt sq) q) 0 qs) upd
        else upd qs
      | .panic => (qs, panic)
      | .ub => (qs, ub)
    else upd qs

end Opt

/-! ## Models -/

/-- A model: a parameter field, a field that is itself a model (`Vec<M>`, `Vec<Parameter>` or a derived struct; its parts in order), or a
field marked `#[parameter(skip)]`. -/
inductive ModelTree (α : Type) where
  | param (q : Param α)
  | node (fields : List (ModelTree α))
  | skip (contents : List (ModelTree α))

namespace ModelTree

mutual
/-- `parameters()`: parameter.rs:55-57; model.rs:13-30 (`Vec<M>`), 42-45 (`Vec<Parameter>`); the code derived by
prima_undine_derive/src/lib.rs:34-63 (the fields in order, except the skipped ones). -/
def parameters : ModelTree α → List (Param α)
  | param q => [q]
  | node fs => parametersL fs
  | skip _ => []
/-- The fields one after the other. -/
def parametersL : List (ModelTree α) → List (Param α)
  | [] => []
  | t :: ts => parameters t ++ parametersL ts
end

mutual
/-- What writing through the references returned by `parameters_mut()` does (parameter.rs:59-61, model.rs:24-30, 46-48, lib.rs:64-68): the
references are handed out in the same order; `l` are the new contents.  Returns the model and the unused rest of the list. -/
def assign : ModelTree α → List (Param α) → ModelTree α × List (Param α)
  | param q, [] => (param q, [])
  | param _, q' :: l => (param q', l)
  | node fs, l => let r := assignL fs l; (node r.1, r.2)
  | skip fs, l => (skip fs, l)
/-- The fields one after the other. -/
def assignL : List (ModelTree α) → List (Param α) → List (ModelTree α) × List (Param α)
  | [], l => ([], l)
  | t :: ts, l =>
    let r := assign t l
    let r2 := assignL ts r.2
    (r.1 :: r2.1, r2.2)
end

variable [Flt α]

/-- `Model::move_to_device`, model.rs:6-10, 31-37, 49-53. -/
def moveToDevice (p : Profile) (d : Nat) (m : Nat → Mem α) (t : ModelTree α) : ModelTree α × Res Unit :=
  let ps := t.parameters
  let r := Opt.forEach (fun i q => q.moveToDevice p d (m i)) 0 ps
  ((t.assign (r.1 ++ ps.drop r.1.length)).1, r.2)

/-- `configure_model`, optimizer.rs:50-52. -/
def configure (p : Profile) (m : Nat → Mem α) (o : Opt α) (t : ModelTree α) : ModelTree α × Res Unit :=
  let ps := t.parameters
  let r := o.configureParameters p m ps
  ((t.assign (r.1 ++ ps.drop r.1.length)).1, r.2)

/-- `update_model`, optimizer.rs:53-55. -/
def update (p : Profile) (m : Nat → Nat → Mem α) (o : Opt α) (t : ModelTree α) : ModelTree α × Res Nat :=
  let r := o.updateParameters p m t.parameters
  ((t.assign r.1).1, r.2)

end ModelTree
end Verif
