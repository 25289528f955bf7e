import Verif.Param2
import Verif.FlowSpec

/-!
# Three runs of a program of all tensor functions
-/

set_option linter.unusedSectionVars false

namespace Verif
open Res
variable {α β γ κ : Type} {d : Nat} [Flt α] [Flt β] [Flt γ] {R : α → β → γ → Prop}

/-- All functions on elements respect the relation. -/
structure Par2 (R : α → β → γ → Prop) : Prop extends Par R where
  un : ∀ (u : Un) x y z, R x y z → R (u.fn x) (u.fn y) (u.fn z)
  cn : ∀ (o : Cn) x y z x' y' z', R x y z → R x' y' z' → R (o.fn x x') (o.fn y y') (o.fn z z')
  bi : ∀ (o : Bi) x y z x' y' z', R x y z → R x' y' z' → R (o.fn x x') (o.fn y y') (o.fn z z')
  one : R 1 1 1
  powi : ∀ (n : Int) x y z, R x y z → R (Flt.powi x n) (Flt.powi y n) (Flt.powi z n)
  lse : ∀ (n : Nat) t t' t'', (∀ j, R (t j) (t' j) (t'' j)) → R (lseTo n t) (lseTo n t') (lseTo n t'')
  scan : Scans R

section
variable {env : List (Tensor α)} {env' : List (Tensor β)} {env'' : List (Tensor γ)} {p p' : Profile} {x : Tensor α} {y : Tensor β} {z : Tensor γ}
  {x' : Tensor α} {y' : Tensor β} {z' : Tensor γ}

theorem three_three (he : Forall₃ (Three R d) env env' env'') (i j k : Nat) {f : Tensor α → Tensor α → Tensor α → Res (Tensor α)}
    {f' : Tensor β → Tensor β → Tensor β → Res (Tensor β)} {f'' : Tensor γ → Tensor γ → Tensor γ → Res (Tensor γ)}
    (h : ∀ x y z u v w g k l, Three R d x y z → Three R d u v w → Three R d g k l → Follows₃ (Three R d) (f x u g) (f' y v k) (f'' z w l)) :
    Follows₃ (Forall₃ (Three R d)) (callThree env i j k f) (callThree env' i j k f') (callThree env'' i j k f'') :=
  (argAt_three he i).bind fun x y z hx => (argAt_three he j).bind fun u v w hu => (argAt_three he k).bind fun g k l hg =>
    (h x y z u v w g k l hx hu hg).bind fun _ _ _ h => .pure (.cons h .nil)

theorem TF.sub_three (hP : Par2 R) (hx : Three R d x y z) (hy : Three R d x' y' z') (m : Nat → α) (m' : Nat → β) (m'' : Nat → γ) :
    Follows₃ (Three R d) (TF.sub .debug m x x') (TF.sub p m' y y') (TF.sub p' m'' z z') :=
  TF.abOp_three hP.toSums .sub .subL .subR (.sc .subL fun _ _ _ _ _ _ h h' => hP.sub _ _ _ _ _ _ h' h) (.sc .subR hP.sub) (.bi .sub hP.sub) hx hy _ _ _

theorem TF.mul_three (hP : Par2 R) (hx : Three R d x y z) (hy : Three R d x' y' z') (m : Nat → α) (m' : Nat → β) (m'' : Nat → γ) :
    Follows₃ (Three R d) (TF.mul .debug m x x') (TF.mul p m' y y') (TF.mul p' m'' z z') :=
  TF.abOp_three hP.toSums .mul .mul .mul (.sc .mul hP.mul) (.sc .mul hP.mul) (.bi .mul hP.mul) hx hy _ _ _

theorem TF.add_three (hP : Par2 R) (hx : Three R d x y z) (hy : Three R d x' y' z') (m : Nat → α) (m' : Nat → β) (m'' : Nat → γ) :
    Follows₃ (Three R d) (TF.add .debug m x x') (TF.add p m' y y') (TF.add p' m'' z z') :=
  TF.abOp_three hP.toSums .add .add .add (.sc .add hP.add) (.sc .add hP.add) (.bi .add hP.add) hx hy _ _ _

theorem TF.div_three (hP : Par2 R) (hx : Three R d x y z) (hy : Three R d x' y' z') (m : Nat → α) (m' : Nat → β) (m'' : Nat → γ) :
    Follows₃ (Three R d) (TF.div .debug m x x') (TF.div p m' y y') (TF.div p' m'' z z') :=
  TF.abOp_three hP.toSums .div .divL .divR (.sc .divL fun _ _ _ _ _ _ h h' => hP.div _ _ _ _ _ _ h' h) (.sc .divR hP.div) (.bi .div hP.div) hx hy _ _ _

theorem TF.lnSoftmax_three (hP : Par2 R) (hx : Three R d x y z) (dim : Nat) (m : Mem α) (m' : Mem β) (m'' : Mem γ) :
    Follows₃ (Three R d) (TF.lnSoftmax .debug m x dim) (TF.lnSoftmax p m' y dim) (TF.lnSoftmax p' m'' z dim) := by
  unfold TF.lnSoftmax
  rw [hx.device.2.2.2.1, hx.device.2.2.2.2]
  exact (TF.call1_three hP.toSums (.logsumexp dim hP.lse) hx _ _ _).bind fun _ _ _ h =>
    (TF.call1_three hP.toSums (.broadcast dim _) h _ _ _).bind fun _ _ _ h => TF.sub_three hP hx h _ _ _

theorem TF.mean_three (hP : Par2 R) (hx : Three R d x y z) (dim : Nat) (m : Mem α) (m' : Mem β) (m'' : Mem γ) :
    Follows₃ (Three R d) (TF.mean .debug m x dim) (TF.mean p m' y dim) (TF.mean p' m'' z dim) := by
  unfold TF.mean
  rw [hx.device.2.2.2.1, hx.device.2.2.2.2]
  exact (TF.call1_three hP.toSums (.sum dim) hx _ _ _).bind fun _ _ _ h =>
    TF.call1_three hP.toSums (.cn .divR fun x y z h => hP.div _ _ _ _ _ _ h (hP.ofInt _)) h _ _ _

theorem TF.batchMean_three (hP : Par2 R) (hx : Three R d x y z) (m : Mem α) (m' : Mem β) (m'' : Mem γ) :
    Follows₃ (Three R d) (TF.batchMean .debug m x) (TF.batchMean p m' y) (TF.batchMean p' m'' z) := by
  unfold TF.batchMean
  rw [hx.device.2.2.2.1, hx.device.2.2.2.2]
  exact (TF.call1_three hP.toSums .batchSum hx _ _ _).bind fun _ _ _ h =>
    TF.call1_three hP.toSums (.cn .divR fun x y z h => hP.div _ _ _ _ _ _ h (hP.ofInt _)) h _ _ _

theorem TF.normalized_three (hP : Par2 R) {a g b v : Tensor α} {a' g' b' v' : Tensor β} {a'' g'' b'' v'' : Tensor γ} (hx : Three R d x y z)
    (ha : Three R d a a' a'') (hv : Three R d v v' v'') (hg : Three R d g g' g'') (hb : Three R d b b' b'') (m : Mem α) (m' : Mem β) (m'' : Mem γ) :
    Follows₃ (Three R d) (TF.normalized .debug m x a v g b) (TF.normalized p m' y a' v' g' b') (TF.normalized p' m'' z a'' v'' g'' b'') := by
  unfold TF.normalized
  exact (TF.sub_three hP hx ha _ _ _).bind fun _ _ _ h1 => (TF.call1_three hP.toSums (.un .sqrt (hP.un .sqrt)) hv _ _ _).bind fun _ _ _ h2 =>
    (TF.div_three hP h1 h2 _ _ _).bind fun _ _ _ h3 => (TF.mul_three hP hg h3 _ _ _).bind fun _ _ _ h4 => TF.add_three hP h4 hb _ _ _

/-- A call: if the first run returns, the others return related tensors. -/
theorem FnCall.run_three (hP : Par2 R) (c : FnCall κ) {ι : κ → α} {ι' : κ → β} {ι'' : κ → γ}
    (hι : ∀ k, R (ι k) (ι' k) (ι'' k)) (he : Forall₃ (Three R d) env env' env'') (m : Mem α) (m' : Mem β) (m'' : Mem γ) :
    Follows₃ (Forall₃ (Three R d)) (c.run .debug m ι env) (c.run p m' ι' env') (c.run p' m'' ι'' env'') := by
  have hR := hP.toSums
  cases c with
  | base c => exact Calc.run_three hP.toPar (.inr hP.scan) hι he m m' m''
  | sqrt i => exact call1' hR (.un .sqrt (hP.un .sqrt)) he i _ _ _
  | sin i => exact call1' hR (.un .sin (hP.un .sin)) he i _ _ _
  | cos i => exact call1' hR (.un .cos (hP.un .cos)) he i _ _ _
  | tan i => exact call1' hR (.un .tan (hP.un .tan)) he i _ _ _
  | exp i => exact call1' hR (.un .exp (hP.un .exp)) he i _ _ _
  | ln i => exact call1' hR (.un .ln (hP.un .ln)) he i _ _ _
  | softplus i => exact call1' hR (.un .softplus (hP.un .softplus)) he i _ _ _
  | elu i k => exact call1' hR (.cn .elu fun x y z h => hP.cn .elu _ _ _ _ _ _ h (hι k)) he i _ _ _
  | powf i k => exact call1' hR (.cn .powfR fun x y z h => hP.cn .powfR _ _ _ _ _ _ h (hι k)) he i _ _ _
  | powi i n hn => exact call1' hR (.powi n hn (hP.powi n)) he i _ _ _
  | pow i j => exact two_three he i j fun _ _ _ _ _ _ hx hy => TF.call_three hR (.bi .powf (hP.bi .powf)) hx (.cons hx (.cons hy .nil)) _ _ _
  | logsumexp i dim => exact call1' hR (.logsumexp dim hP.lse) he i _ _ _
  | lnSoftmax i dim => exact one_three he i fun _ _ _ hx => TF.lnSoftmax_three hP hx dim _ _ _
  | softmax i dim =>
    exact one_three he i fun _ _ _ hx => (TF.lnSoftmax_three hP hx dim _ _ _).bind fun _ _ _ h => TF.call1_three hR (.un .exp (hP.un .exp)) h _ _ _
  | softmaxCrossEntropy i j dim =>
    exact two_three he i j fun _ _ _ _ _ _ hx hy => (TF.lnSoftmax_three hP hx dim _ _ _).bind fun _ _ _ h => (TF.mul_three hP hy h _ _ _).bind fun _ _ _ h =>
      (TF.call1_three hR (.sum dim) h _ _ _).bind fun _ _ _ h => TF.call1_three hR (.un .neg (hP.un .neg)) h _ _ _
  | sparseSoftmaxCrossEntropy i ids dim =>
    exact one_three he i fun _ _ _ hx => (TF.lnSoftmax_three hP hx dim _ _ _).bind fun _ _ _ h =>
      (TF.call1_three hR (.pick ids dim) h _ _ _).bind fun _ _ _ h => TF.call1_three hR (.un .neg (hP.un .neg)) h _ _ _
  | batchNormalization i g b eps enabled =>
    refine three_three he i g b fun x y z u v w g k l hx hu hg => ?_
    unfold TF.batchNormalization
    cases enabled with
    | false => exact TF.call1_three hR (.cn .mul fun x y z h => hP.mul _ _ _ _ _ _ h hP.one) hx _ _ _
    | true =>
      simp only [if_true]
      exact (TF.batchMean_three hP hx _ _ _).bind fun _ _ _ h1 => (TF.sub_three hP hx h1 _ _ _).bind fun _ _ _ h2 =>
        (TF.mul_three hP h2 h2 _ _ _).bind fun _ _ _ h3 => (TF.batchMean_three hP h3 _ _ _).bind fun _ _ _ h4 =>
        (TF.call1_three hR (.cn .add fun x y z h => hP.add _ _ _ _ _ _ h (hι eps)) h4 _ _ _).bind fun _ _ _ h5 =>
        TF.normalized_three hP hx h1 h5 hu hg _ _ _
  | layerNormalization i g b eps =>
    refine three_three he i g b fun x y z u v w g k l hx hu hg => ?_
    exact (TF.flatten_three hx _ _ _).bind fun _ _ _ h0 => (TF.mean_three hP h0 0 _ _ _).bind fun _ _ _ h1 => (TF.sub_three hP hx h1 _ _ _).bind fun _ _ _ h2 =>
      (TF.mul_three hP h2 h2 _ _ _).bind fun _ _ _ h3 => (TF.flatten_three h3 _ _ _).bind fun _ _ _ h4 => (TF.mean_three hP h4 0 _ _ _).bind fun _ _ _ h5 =>
      (TF.call1_three hR (.cn .add fun x y z h => hP.add _ _ _ _ _ _ h (hι eps)) h5 _ _ _).bind fun _ _ _ h6 =>
      TF.normalized_three hP hx h1 h6 hu hg _ _ _

end

/-- A program: if the first run returns, the others return related tensors. -/
theorem runFns_three (hP : Par2 R) {ι : κ → α} {ι' : κ → β} {ι'' : κ → γ} (hι : ∀ k, R (ι k) (ι' k) (ι'' k)) {p p' : Profile} :
    ∀ (prog : List (FnCall κ)) {env : List (Tensor α)} {env' : List (Tensor β)} {env'' : List (Tensor γ)},
      Forall₃ (Three R d) env env' env'' → ∀ (m : Nat → Mem α) (m' : Nat → Mem β) (m'' : Nat → Mem γ),
      Follows₃ (Forall₃ (Three R d)) (runFns .debug ι m prog env) (runFns p ι' m' prog env') (runFns p' ι'' m'' prog env'')
  | [], _, _, _, he, _, _, _ => .pure he
  | c :: rest, _, _, _, he, m, m', m'' =>
    (FnCall.run_three hP c hι he (m 0) (m' 0) (m'' 0)).bind fun _ _ _ h => runFns_three hP hι rest (he.append h) _ _ _

end Verif
