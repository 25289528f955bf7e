import Verif.Param
import Verif.ErrorSpec

/-!
# Three runs of one program: the programs of C85 and C86
-/

set_option linter.unusedSectionVars false

namespace Verif
open Res
variable {α β γ κ : Type} [Flt α] [Flt β] [Flt γ] {d : Nat} {R : α → β → γ → Prop}

/-- The functions on elements respect the relation. -/
structure Par (R : α → β → γ → Prop) : Prop extends Sums R where
  sub : ∀ x y z x' y' z', R x y z → R x' y' z' → R (x - x') (y - y') (z - z')
  div : ∀ x y z x' y' z', R x y z → R x' y' z' → R (x / x') (y / y') (z / z')
  neg : ∀ x y z, R x y z → R (-x) (-y) (-z)
  abs : ∀ x y z, R x y z → R (Flt.abs x) (Flt.abs y) (Flt.abs z)
  tanh : ∀ x y z, R x y z → R (Flt.tanh x) (Flt.tanh y) (Flt.tanh z)
  half : R Flt.half Flt.half Flt.half
  cent : R Flt.cent Flt.cent Flt.cent
  ofInt : ∀ n : Int, R (Flt.ofInt n) (Flt.ofInt n) (Flt.ofInt n)
  prelu : ∀ x y z x' y' z', R x y z → R x' y' z' → R (Scalar.preluFw x x') (Scalar.preluFw y y') (Scalar.preluFw z z')

/-- `max` respects the relation. -/
def Scans (R : α → β → γ → Prop) : Prop := ∀ (n : Nat) t t' t'', (∀ j, R (t j) (t' j) (t'' j)) →
  R (scanTo (fun v t => Flt.gt v t) n t) (scanTo (fun v t => Flt.gt v t) n t') (scanTo (fun v t => Flt.gt v t) n t'')

theorem argAt_three {A B C : Type} {S : A → B → C → Prop} {l : List A} {m : List B} {n : List C} (h : Forall₃ S l m n) (i : Nat) :
    Follows₃ S (argAt l i) (argAt m i) (argAt n i) := by
  intro x hx
  unfold argAt at hx ⊢
  cases e : l[i]? with
  | none => rw [e] at hx; cases hx
  | some a =>
    rw [e] at hx
    cases hx
    obtain ⟨y, z, e1, e2, h3⟩ := h.get e
    exact ⟨y, z, by rw [e1]; rfl, by rw [e2]; rfl, h3⟩

theorem argsAt_three {A B C : Type} {S : A → B → C → Prop} {l : List A} {m : List B} {n : List C} (h : Forall₃ S l m n) (is : List Nat) :
    Follows₃ (Forall₃ S) (argsAt l is) (argsAt m is) (argsAt n is) := by
  induction is with
  | nil => exact .pure .nil
  | cons i is ih => exact (argAt_three h i).bind fun x y z hx => ih.bind fun _ _ _ hl => .pure (.cons hx hl)

section
variable {env : List (Tensor α)} {env' : List (Tensor β)} {env'' : List (Tensor γ)}

theorem one_three (he : Forall₃ (Three R d) env env' env'') (i : Nat) {f : Tensor α → Res (Tensor α)} {f' : Tensor β → Res (Tensor β)}
    {f'' : Tensor γ → Res (Tensor γ)} (h : ∀ x y z, Three R d x y z → Follows₃ (Three R d) (f x) (f' y) (f'' z)) :
    Follows₃ (Forall₃ (Three R d)) (callOne env i f) (callOne env' i f') (callOne env'' i f'') :=
  (argAt_three he i).bind fun x y z hx => (h x y z hx).bind fun _ _ _ h => .pure (.cons h .nil)

theorem two_three (he : Forall₃ (Three R d) env env' env'') (i j : Nat) {f : Tensor α → Tensor α → Res (Tensor α)}
    {f' : Tensor β → Tensor β → Res (Tensor β)} {f'' : Tensor γ → Tensor γ → Res (Tensor γ)}
    (h : ∀ x y z x' y' z', Three R d x y z → Three R d x' y' z' → Follows₃ (Three R d) (f x x') (f' y y') (f'' z z')) :
    Follows₃ (Forall₃ (Three R d)) (callTwo env i j f) (callTwo env' i j f') (callTwo env'' i j f'') :=
  (argAt_three he i).bind fun x y z hx => (argAt_three he j).bind fun x' y' z' hx' =>
    (h x y z x' y' z' hx hx').bind fun _ _ _ h => .pure (.cons h .nil)

theorem many_three (he : Forall₃ (Three R d) env env' env'') (is : List Nat) {f : List (Tensor α) → Res (Tensor α)}
    {f' : List (Tensor β) → Res (Tensor β)} {f'' : List (Tensor γ) → Res (Tensor γ)}
    (h : ∀ xs ys zs, Forall₃ (Three R d) xs ys zs → Follows₃ (Three R d) (f xs) (f' ys) (f'' zs)) :
    Follows₃ (Forall₃ (Three R d)) (callMany env is f) (callMany env' is f') (callMany env'' is f'') :=
  (argsAt_three he is).bind fun xs ys zs hx => (h xs ys zs hx).bind fun _ _ _ h => .pure (.cons h .nil)

variable {p p' : Profile}

theorem call1' (hR : Sums R) {op : FwOp α} {op' : FwOp β} {op'' : FwOp γ} (ho : OpRel R op op' op'') (he : Forall₃ (Three R d) env env' env'')
    (i : Nat) (m : Nat → α) (m' : Nat → β) (m'' : Nat → γ) :
    Follows₃ (Forall₃ (Three R d)) (callOne env i fun x => TF.call op .debug m x [x]) (callOne env' i fun x => TF.call op' p m' x [x])
      (callOne env'' i fun x => TF.call op'' p' m'' x [x]) :=
  one_three he i fun _ _ _ hx => TF.call1_three hR ho hx m m' m''

theorem ab' (hR : Sums R) (o : Bi) (l r : Sc) (h1 : ∀ x y z x' y' z', R x y z → R x' y' z' → R (l.fn x x') (l.fn y y') (l.fn z z'))
    (h2 : ∀ x y z x' y' z', R x y z → R x' y' z' → R (r.fn x x') (r.fn y y') (r.fn z z'))
    (h3 : ∀ x y z x' y' z', R x y z → R x' y' z' → R (o.fn x x') (o.fn y y') (o.fn z z')) (he : Forall₃ (Three R d) env env' env'')
    (i j : Nat) (m : Nat → α) (m' : Nat → β) (m'' : Nat → γ) :
    Follows₃ (Forall₃ (Three R d)) (callTwo env i j fun x y => TF.abOp o l r .debug m x y) (callTwo env' i j fun x y => TF.abOp o l r p m' x y)
      (callTwo env'' i j fun x y => TF.abOp o l r p' m'' x y) :=
  two_three he i j fun _ _ _ _ _ _ hx hy => TF.abOp_three hR o l r (.sc l h1) (.sc r h2) (.bi o h3) hx hy m m' m''

theorem TF.sumFrom_three (hR : Sums R) {xs : List (Tensor α)} {ys : List (Tensor β)} {zs : List (Tensor γ)} (h : Forall₃ (Three R d) xs ys zs)
    (m : Mem α) (m' : Mem β) (m'' : Mem γ) : ∀ (i : Nat) {a b c}, Three R d a b c →
      Follows₃ (Three R d) (TF.sumFrom .debug m i a xs) (TF.sumFrom p m' i b ys) (TF.sumFrom p' m'' i c zs) := by
  induction h with
  | nil => intro i a b c h; exact .pure h
  | cons h _ ih =>
    intro i a b c ha
    exact (TF.abOp_three hR .add .add .add (.sc .add hR.add) (.sc .add hR.add) (.bi .add hR.add) ha h _ _ _).bind fun _ _ _ h => ih _ h

/-- A call: if the first run returns, the others return related tensors. -/
theorem Calc.run_three (hP : Par R) {c : Calc κ} (hc : c.NoMax ∨ Scans R) {ι : κ → α} {ι' : κ → β} {ι'' : κ → γ}
    (hι : ∀ k, R (ι k) (ι' k) (ι'' k)) (he : Forall₃ (Three R d) env env' env'') (m : Mem α) (m' : Mem β) (m'' : Mem γ) :
    Follows₃ (Forall₃ (Three R d)) (c.run .debug m ι env) (c.run p m' ι' env') (c.run p' m'' ι'' env'') := by
  have hR := hP.toSums
  have hdiv : ∀ k k' k'', R k k' k'' → OpRel R (.cn .divR k) (.cn .divR k') (.cn .divR k'') := fun k k' k'' hk =>
    .cn .divR fun x y z h => hP.div _ _ _ _ _ _ h hk
  cases c with
  | neg i => exact call1' hR (.un .neg hP.neg) he i _ _ _
  | abs i => exact call1' hR (.un .abs hP.abs) he i _ _ _
  | tanh i => exact call1' hR (.un .tanh hP.tanh) he i _ _ _
  | sigmoid i =>
    exact call1' hR (.un .sigmoid fun x y z h => hP.add _ _ _ _ _ _ hP.half (hP.mul _ _ _ _ _ _ hP.half (hP.tanh _ _ _
      (hP.mul _ _ _ _ _ _ hP.half h)))) he i _ _ _
  | relu i => exact call1' hR (.cn .prelu fun x y z h => hP.prelu _ _ _ _ _ _ h hP.zero) he i _ _ _
  | lrelu i => exact call1' hR (.cn .prelu fun x y z h => hP.prelu _ _ _ _ _ _ h hP.cent) he i _ _ _
  | prelu i k => exact call1' hR (.cn .prelu fun x y z h => hP.prelu _ _ _ _ _ _ h (hι k)) he i _ _ _
  | addC i k => exact call1' hR (.cn .add fun x y z h => hP.add _ _ _ _ _ _ h (hι k)) he i _ _ _
  | cAdd k i => exact call1' hR (.cn .add fun x y z h => hP.add _ _ _ _ _ _ h (hι k)) he i _ _ _
  | subC i k => exact call1' hR (.cn .subR fun x y z h => hP.sub _ _ _ _ _ _ h (hι k)) he i _ _ _
  | cSub k i => exact call1' hR (.cn .subL fun x y z h => hP.sub _ _ _ _ _ _ (hι k) h) he i _ _ _
  | mulC i k => exact call1' hR (.cn .mul fun x y z h => hP.mul _ _ _ _ _ _ h (hι k)) he i _ _ _
  | cMul k i => exact call1' hR (.cn .mul fun x y z h => hP.mul _ _ _ _ _ _ h (hι k)) he i _ _ _
  | divC i k => exact call1' hR (hdiv _ _ _ (hι k)) he i _ _ _
  | cDiv k i => exact call1' hR (.cn .divL fun x y z h => hP.div _ _ _ _ _ _ (hι k) h) he i _ _ _
  | add i j => exact ab' hR .add .add .add hP.add hP.add hP.add he i j _ _ _
  | sub i j => exact ab' hR .sub .subL .subR (fun _ _ _ _ _ _ h h' => hP.sub _ _ _ _ _ _ h' h) hP.sub hP.sub he i j _ _ _
  | mul i j => exact ab' hR .mul .mul .mul hP.mul hP.mul hP.mul he i j _ _ _
  | div i j => exact ab' hR .div .divL .divR (fun _ _ _ _ _ _ h h' => hP.div _ _ _ _ _ _ h' h) hP.div hP.div he i j _ _ _
  | matmul i j => exact two_three he i j fun _ _ _ _ _ _ hx hy => TF.call_three hR .matmul hx (.cons hx (.cons hy .nil)) _ _ _
  | sum i dim => exact call1' hR (.sum dim) he i _ _ _
  | mean i dim =>
    refine one_three he i fun x y z hx => ?_
    unfold TF.mean
    rw [hx.device.2.2.2.1, hx.device.2.2.2.2]
    exact (TF.call1_three hR (.sum dim) hx _ _ _).bind fun _ _ _ h => TF.call1_three hR (hdiv _ _ _ (hP.ofInt _)) h _ _ _
  | max i dim => exact call1' hR (.max dim (hc.resolve_left id)) he i _ _ _
  | broadcast i dim size => exact call1' hR (.broadcast dim size) he i _ _ _
  | transpose i => exact call1' hR .transpose he i _ _ _
  | triangularL i k => exact call1' hR (.triangularL k) he i _ _ _
  | triangularU i k => exact call1' hR (.triangularU k) he i _ _ _
  | slice i dim lower upper => exact call1' hR (.slice dim lower upper) he i _ _ _
  | pick i ids dim => exact call1' hR (.pick ids dim) he i _ _ _
  | concat is dim =>
    refine many_three he is fun xs ys zs h => ?_
    unfold TF.concat
    cases h with
    | nil => intro y hy; cases hy
    | cons hx ht =>
      simp only [ix_cons_zero, ok_bind]
      exact TF.call_three hR (.concat dim) hx (.cons hx ht) _ _ _
  | split i dim n =>
    refine (argAt_three he i).bind fun x y z hx => ?_
    unfold TF.split
    rw [hx.device.2.2.2.1, hx.device.2.2.2.2]
    refine .check (.check (.loop n (fun i a b c ha => ?_) .nil))
    exact (TF.call1_three hR (.slice dim _ _) hx _ _ _).bind fun _ _ _ h => .pure (ha.append (.cons h .nil))
  | reshape i dims batch =>
    refine one_three he i fun x y z hx w hw => ?_
    rw [Res.bind_eq_ok] at hw
    obtain ⟨t, h1, h2⟩ := hw
    obtain ⟨q1, q2, q3⟩ := Shape.new_ok h1
    have hn : ∀ p, Shape.new p dims batch = ok t := by
      intro p
      obtain ⟨g1, g2, g3, g4⟩ := Shape.new_ok_imp h1
      obtain ⟨t', e', w', b', r'⟩ := Shape.new_of (dims := dims) (b := batch) p ⟨g1, g2, g3, g4⟩
      rw [e', w'.ext q1 (b'.trans q2.symm) fun i => by rw [r' i]; exact (q3 i).symm]
    rw [hn p, hn p', ok_bind, ok_bind]
    exact TF.reshape_three hx t q1 _ _ _ w h2
  | flatten i => exact one_three he i fun _ _ _ hx => TF.flatten_three hx _ _ _
  | batchSum i => exact call1' hR .batchSum he i _ _ _
  | batchMean i =>
    refine one_three he i fun x y z hx => ?_
    unfold TF.batchMean
    rw [hx.device.2.2.2.1, hx.device.2.2.2.2]
    exact (TF.call1_three hR .batchSum hx _ _ _).bind fun _ _ _ h => TF.call1_three hR (hdiv _ _ _ (hP.ofInt _)) h _ _ _
  | batchSlice i lower upper => exact call1' hR (.batchSlice lower upper) he i _ _ _
  | batchPick i ids => exact call1' hR (.batchPick ids) he i _ _ _
  | batchConcat is =>
    refine many_three he is fun xs ys zs h => ?_
    unfold TF.batchConcat
    rw [h.length.1, h.length.2]
    refine .check ?_
    cases h with
    | nil => intro y hy; cases hy
    | cons hx ht =>
      simp only [ix_cons_zero, ok_bind]
      exact TF.call_three hR .batchConcat hx (.cons hx ht) _ _ _
  | batchSplit i n =>
    refine (argAt_three he i).bind fun x y z hx => ?_
    unfold TF.batchSplit
    rw [hx.device.2.2.2.1, hx.device.2.2.2.2]
    refine .check (.check (.loop n (fun i a b c ha => ?_) .nil))
    exact (TF.call1_three hR (.batchSlice _ _) hx _ _ _).bind fun _ _ _ h => .pure (ha.append (.cons h .nil))
  | sliceSum is =>
    refine many_three he is fun xs ys zs h => ?_
    unfold TF.sliceSum
    rw [h.length.1, h.length.2]
    refine .check ?_
    cases h with
    | nil => intro y hy; cases hy
    | cons hx ht =>
      simp only [ix_cons_zero, ok_bind, Tensor.dev, hx.device.1, hx.device.2.1, hx.device.2.2.1, unwrap]
      exact (newByConstant_three hx hR.zero _ _ _).bind fun _ _ _ hz => TF.sumFrom_three hR (.cons hx ht) _ _ _ 1 hz

end

/-- A program: if the first run returns, the others return related tensors. -/
theorem runCalc_three (hP : Par R) {ι : κ → α} {ι' : κ → β} {ι'' : κ → γ} (hι : ∀ k, R (ι k) (ι' k) (ι'' k)) {p p' : Profile} :
    ∀ (prog : List (Calc κ)), (∀ c ∈ prog, c.NoMax ∨ Scans R) → ∀ {env : List (Tensor α)} {env' : List (Tensor β)} {env'' : List (Tensor γ)},
      Forall₃ (Three R d) env env' env'' → ∀ (m : Nat → Mem α) (m' : Nat → Mem β) (m'' : Nat → Mem γ),
      Follows₃ (Forall₃ (Three R d)) (runCalc .debug ι m prog env) (runCalc p ι' m' prog env') (runCalc p' ι'' m'' prog env'')
  | [], _, _, _, _, he, _, _, _ => .pure he
  | c :: rest, hc, _, _, _, he, m, m', m'' =>
    (Calc.run_three hP (hc c (by simp)) hι he (m 0) (m' 0) (m'' 0)).bind fun _ _ _ h =>
      runCalc_three hP hι rest (fun c hc' => hc c (by simp [hc'])) (he.append h) _ _ _

end Verif
