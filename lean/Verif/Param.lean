import Verif.PropsFw4
import Verif.Contrib

/-!
# Three runs of one program over different numbers

A relation between three types of numbers that the functions on elements respect is respected by the functions on tensors.
-/

set_option linter.unusedSectionVars false

namespace Verif
open Res
variable {α β γ : Type} {d : Nat}

/-- Three lists of the same length, related element by element. -/
inductive Forall₃ {A B C : Type} (R : A → B → C → Prop) : List A → List B → List C → Prop
  | nil : Forall₃ R [] [] []
  | cons {x y z l m n} : R x y z → Forall₃ R l m n → Forall₃ R (x :: l) (y :: m) (z :: n)

namespace Forall₃
variable {A B C : Type} {R : A → B → C → Prop} {l : List A} {m : List B} {n : List C}

theorem length (h : Forall₃ R l m n) : m.length = l.length ∧ n.length = l.length := by
  induction h with
  | nil => exact ⟨rfl, rfl⟩
  | cons _ _ ih => exact ⟨congrArg (· + 1) ih.1, congrArg (· + 1) ih.2⟩

theorem append {l' m' n'} (h : Forall₃ R l m n) (h' : Forall₃ R l' m' n') : Forall₃ R (l ++ l') (m ++ m') (n ++ n') := by
  induction h with
  | nil => exact h'
  | cons h _ ih => exact .cons h ih

theorem get (h : Forall₃ R l m n) : ∀ {i : Nat} {x : A}, l[i]? = some x → ∃ y z, m[i]? = some y ∧ n[i]? = some z ∧ R x y z := by
  induction h with
  | nil => intro i x hx; simp at hx
  | @cons x y z _ _ _ h _ ih =>
    intro i a hx
    cases i with
    | zero => simp at hx; subst hx; exact ⟨y, z, rfl, rfl, h⟩
    | succ i => simpa using ih (by simpa using hx)

end Forall₃

/-- If the first call returns, the others return related values. -/
def Follows₃ {A B C : Type} (R : A → B → C → Prop) (r : Res A) (r' : Res B) (r'' : Res C) : Prop :=
  ∀ x, r = ok x → ∃ y z, r' = ok y ∧ r'' = ok z ∧ R x y z

namespace Follows₃
variable {A B C A' B' C' : Type} {R : A → B → C → Prop} {R' : A' → B' → C' → Prop}

theorem bind {r : Res A} {r' : Res B} {r'' : Res C} {k : A → Res A'} {k' : B → Res B'} {k'' : C → Res C'} (h : Follows₃ R r r' r'')
    (hk : ∀ x y z, R x y z → Follows₃ R' (k x) (k' y) (k'' z)) : Follows₃ R' (r >>= k) (r' >>= k') (r'' >>= k'') := by
  intro w hw
  rw [Res.bind_eq_ok] at hw
  obtain ⟨x, h1, h2⟩ := hw
  obtain ⟨y, z, e1, e2, h3⟩ := h x h1
  obtain ⟨y', z', e3, e4, h4⟩ := hk x y z h3 w h2
  exact ⟨y', z', by rw [e1, ok_bind]; exact e3, by rw [e2, ok_bind]; exact e4, h4⟩

theorem pure {x : A} {y : B} {z : C} (h : R x y z) : Follows₃ R (ok x) (ok y) (ok z) := by
  intro w hw; cases hw; exact ⟨y, z, rfl, rfl, h⟩

theorem check {c : Prop} [Decidable c] {k : Unit → Res A} {k' : Unit → Res B} {k'' : Unit → Res C} (h : Follows₃ R (k ()) (k' ()) (k'' ())) :
    Follows₃ R (Verif.check c >>= k) (Verif.check c >>= k') (Verif.check c >>= k'') := by
  intro x hx
  obtain ⟨h1, h2⟩ := check_bind_ok.mp hx
  obtain ⟨y, z, e1, e2, hr⟩ := h x h2
  exact ⟨y, z, by rw [check_true _ h1, ok_bind]; exact e1, by rw [check_true _ h1, ok_bind]; exact e2, hr⟩

theorem loop {f : Nat → A → Res A} {f' : Nat → B → Res B} {f'' : Nat → C → Res C} (n : Nat)
    (h : ∀ i x y z, R x y z → Follows₃ R (f i x) (f' i y) (f'' i z)) :
    ∀ {x y z}, R x y z → Follows₃ R (Verif.loop n f x) (Verif.loop n f' y) (Verif.loop n f'' z) := by
  induction n with
  | zero => intro x y z h; exact .pure h
  | succ n ih =>
    intro x y z h0
    rw [loop_succ, loop_succ, loop_succ]
    exact (ih h0).bind fun a b c hb => h n a b c hb

end Follows₃

/-- The same extents, and related elements at all coordinates. -/
def Rel (R : α → β → γ → Prop) (i : Shape × Arr α) (i' : Shape × Arr β) (i'' : Shape × Arr γ) : Prop :=
  i'.1 = i.1 ∧ i''.1 = i.1 ∧ ∀ c b, R (i.2 c b) (i'.2 c b) (i''.2 c b)

section
variable [Flt α] [Flt β] [Flt γ] {R : α → β → γ → Prop}

/-- What `logsumexp` computes from the numbers `t 0`, …, `t (n-1)`. -/
def lseTo (n : Nat) (t : Nat → α) : α := Flt.down (foldN (n - 1) (fun j a => Scalar.lseStep a (Flt.up (t (j + 1)))) (Flt.up (t 0)))

/-- A device function of the three numbers, respecting the relation. -/
inductive OpRel (R : α → β → γ → Prop) : FwOp α → FwOp β → FwOp γ → Prop
  | un (u : Un) (h : ∀ x y z, R x y z → R (u.fn x) (u.fn y) (u.fn z)) : OpRel R (.un u) (.un u) (.un u)
  | cn (o : Cn) {k k' k''} (h : ∀ x y z, R x y z → R (o.fn x k) (o.fn y k') (o.fn z k'')) : OpRel R (.cn o k) (.cn o k') (.cn o k'')
  | bi (o : Bi) (h : ∀ x y z x' y' z', R x y z → R x' y' z' → R (o.fn x x') (o.fn y y') (o.fn z z')) : OpRel R (.bi o) (.bi o) (.bi o)
  | sc (o : Sc) (h : ∀ x y z x' y' z', R x y z → R x' y' z' → R (o.fn x x') (o.fn y y') (o.fn z z')) : OpRel R (.sc o) (.sc o) (.sc o)
  | max (dim : Nat) (h : ∀ (n : Nat) t t' t'', (∀ j, R (t j) (t' j) (t'' j)) →
      R (scanTo (fun v t => Flt.gt v t) n t) (scanTo (fun v t => Flt.gt v t) n t') (scanTo (fun v t => Flt.gt v t) n t'')) :
      OpRel R (.max dim) (.max dim) (.max dim)
  | min (dim : Nat) (h : ∀ (n : Nat) t t' t'', (∀ j, R (t j) (t' j) (t'' j)) →
      R (scanTo (fun v t => Flt.gt t v) n t) (scanTo (fun v t => Flt.gt t v) n t') (scanTo (fun v t => Flt.gt t v) n t'')) :
      OpRel R (.min dim) (.min dim) (.min dim)
  | powi (n : Int) (hn : -2147483648 ≤ n ∧ n ≤ 2147483647) (h : ∀ x y z, R x y z → R (Flt.powi x n) (Flt.powi y n) (Flt.powi z n)) :
      OpRel R (.powi n) (.powi n) (.powi n)
  | logsumexp (dim : Nat) (h : ∀ (n : Nat) t t' t'', (∀ j, R (t j) (t' j) (t'' j)) → R (lseTo n t) (lseTo n t') (lseTo n t'')) :
      OpRel R (.logsumexp dim) (.logsumexp dim) (.logsumexp dim)
  | sum (dim : Nat) : OpRel R (.sum dim) (.sum dim) (.sum dim)
  | broadcast (dim size : Nat) : OpRel R (.broadcast dim size) (.broadcast dim size) (.broadcast dim size)
  | matmul : OpRel R .matmul .matmul .matmul
  | transpose : OpRel R .transpose .transpose .transpose
  | triangularL (k : Nat) : OpRel R (.triangularL k) (.triangularL k) (.triangularL k)
  | triangularU (k : Nat) : OpRel R (.triangularU k) (.triangularU k) (.triangularU k)
  | slice (dim l u : Nat) : OpRel R (.slice dim l u) (.slice dim l u) (.slice dim l u)
  | pick (ids : List Nat) (dim : Nat) : OpRel R (.pick ids dim) (.pick ids dim) (.pick ids dim)
  | concat (dim : Nat) : OpRel R (.concat dim) (.concat dim) (.concat dim)
  | batchSum : OpRel R .batchSum .batchSum .batchSum
  | batchSlice (l u : Nat) : OpRel R (.batchSlice l u) (.batchSlice l u) (.batchSlice l u)
  | batchPick (ids : List Nat) : OpRel R (.batchPick ids) (.batchPick ids) (.batchPick ids)
  | batchConcat : OpRel R .batchConcat .batchConcat .batchConcat

/-- Zero, sums and products are respected. -/
structure Sums (R : α → β → γ → Prop) : Prop where
  zero : R 0 0 0
  add : ∀ x y z x' y' z', R x y z → R x' y' z' → R (x + x') (y + y') (z + z')
  mul : ∀ x y z x' y' z', R x y z → R x' y' z' → R (x * x') (y * y') (z * z')

theorem foldN_rel (hR : Sums R) (n : Nat) {t : Nat → α} {t' : Nat → β} {t'' : Nat → γ} (h : ∀ j, R (t j) (t' j) (t'' j)) :
    R (foldN n (fun j a => a + t j) 0) (foldN n (fun j a => a + t' j) 0) (foldN n (fun j a => a + t'' j) 0) := by
  induction n with
  | zero => exact hR.zero
  | succ n ih => exact hR.add _ _ _ _ _ _ ih (h n)

theorem catAt_rel (hR : Sums R) {ins : List (Shape × Arr α)} {ins' : List (Shape × Arr β)} {ins'' : List (Shape × Arr γ)}
    (h : Forall₃ (Rel R) ins ins' ins'') (dim : Nat) : ∀ c b, R (catAt dim ins c b) (catAt dim ins' c b) (catAt dim ins'' c b) := by
  induction h with
  | nil => intro c b; exact hR.zero
  | @cons i i' i'' _ _ _ hi _ ih =>
    intro c b
    obtain ⟨s, f⟩ := i
    obtain ⟨s', f'⟩ := i'
    obtain ⟨s'', f''⟩ := i''
    obtain ⟨e1, e2, hv⟩ := hi
    simp only at e1 e2
    subst e1 e2
    simp only [catAt]
    split
    · exact hv _ _
    · exact ih _ _

theorem batchCatAt_rel (hR : Sums R) {ins : List (Shape × Arr α)} {ins' : List (Shape × Arr β)} {ins'' : List (Shape × Arr γ)}
    (h : Forall₃ (Rel R) ins ins' ins'') : ∀ c b, R (batchCatAt ins c b) (batchCatAt ins' c b) (batchCatAt ins'' c b) := by
  induction h with
  | nil => intro c b; exact hR.zero
  | @cons i i' i'' _ _ _ hi _ ih =>
    intro c b
    obtain ⟨s, f⟩ := i
    obtain ⟨s', f'⟩ := i'
    obtain ⟨s'', f''⟩ := i''
    obtain ⟨e1, e2, hv⟩ := hi
    simp only at e1 e2
    subst e1 e2
    simp only [batchCatAt]
    split
    · exact hv _ _
    · exact ih _ _

/-- The arrays the functions compute are related. -/
theorem sem_rel (hR : Sums R) {op : FwOp α} {op' : FwOp β} {op'' : FwOp γ} (ho : OpRel R op op' op'') {ins : List (Shape × Arr α)}
    {ins' : List (Shape × Arr β)} {ins'' : List (Shape × Arr γ)} (h : Forall₃ (Rel R) ins ins' ins'') :
    ∀ c b, R (op.sem ins c b) (op'.sem ins' c b) (op''.sem ins'' c b) := by
  intro c b
  by_cases hcat : (∃ dim, op = .concat dim) ∨ op = .batchConcat
  · rcases hcat with ⟨dim, rfl⟩ | rfl
    · cases ho; exact catAt_rel hR h dim c b
    · cases ho; exact batchCatAt_rel hR h c b
  cases h with
  | nil => cases ho <;> exact hR.zero
  | @cons i i' i'' l l' l'' hi ht =>
    obtain ⟨s, f⟩ := i
    obtain ⟨s', f'⟩ := i'
    obtain ⟨s'', f''⟩ := i''
    obtain ⟨e1, e2, hv⟩ := hi
    simp only at e1 e2 hv
    subst e1 e2
    cases ht with
    | nil =>
      cases ho
      case un u h => exact h _ _ _ (hv _ _)
      case cn o h => exact h _ _ _ (hv _ _)
      case max dim h => exact h _ _ _ _ fun j => hv _ _
      case min dim h => exact h _ _ _ _ fun j => hv _ _
      case powi n hn h => exact h _ _ _ (hv _ _)
      case logsumexp dim h => exact h _ _ _ _ fun j => hv _ _
      case sum dim => exact foldN_rel hR _ fun j => hv _ _
      case batchSum => exact foldN_rel hR _ fun j => hv _ _
      case triangularL k => simp only [FwOp.sem]; split; exacts [hv _ _, hR.zero]
      case triangularU k => simp only [FwOp.sem]; split; exacts [hv _ _, hR.zero]
      all_goals first | exact hv _ _ | exact hR.zero | exact (hcat (by simp)).elim
    | @cons j j' j'' l l' l'' hj ht =>
      obtain ⟨t, g⟩ := j
      obtain ⟨t', g'⟩ := j'
      obtain ⟨t'', g''⟩ := j''
      obtain ⟨e1, e2, hw⟩ := hj
      simp only at e1 e2 hw
      subst e1 e2
      cases ht with
      | nil =>
        cases ho
        case bi o h => exact h _ _ _ _ _ _ (hv _ _) (hw _ _)
        case sc o h => exact h _ _ _ _ _ _ (hv _ _) (hw _ _)
        case matmul =>
          exact foldN_rel hR _ fun q => foldN_rel hR _ fun j => hR.mul _ _ _ _ _ _ (hv _ _) (hw _ _)
        all_goals first | exact hR.zero | exact (hcat (by simp)).elim
      | cons hk ht => cases ho <;> first | exact hR.zero | exact (hcat (by simp)).elim

/-- Tensors of the three numbers on one device, of one shape, with related elements. -/
def Three (R : α → β → γ → Prop) (d : Nat) (x : Tensor α) (y : Tensor β) (z : Tensor γ) : Prop :=
  ∃ (s : Shape) (f : Arr α) (g : Arr β) (h : Arr γ), x.Holds d s f ∧ y.Holds d s g ∧ z.Holds d s h ∧ ∀ c b, R (f c b) (g c b) (h c b)

theorem Three.device {x : Tensor α} {y : Tensor β} {z : Tensor γ} (h : Three R d x y z) :
    x.device = some d ∧ y.device = some d ∧ z.device = some d ∧ y.shape = x.shape ∧ z.shape = x.shape := by
  obtain ⟨s, f, g, e, h1, h2, h3, _⟩ := h
  exact ⟨h1.device, h2.device, h3.device, by rw [h1.shape, h2.shape], by rw [h1.shape, h3.shape]⟩

theorem three_all {xs : List (Tensor α)} {ys : List (Tensor β)} {zs : List (Tensor γ)} (h : Forall₃ (Three R d) xs ys zs) :
    ∃ ins ins' ins'', HoldAll d xs ins ∧ HoldAll d ys ins' ∧ HoldAll d zs ins'' ∧ Forall₃ (Rel R) ins ins' ins'' ∧
      ins'.map Prod.fst = ins.map Prod.fst ∧ ins''.map Prod.fst = ins.map Prod.fst := by
  induction h with
  | nil => exact ⟨[], [], [], .nil, .nil, .nil, .nil, rfl, rfl⟩
  | cons h _ ih =>
    obtain ⟨l, l', l'', h1, h2, h3, h4, h5, h6⟩ := ih
    obtain ⟨s, f, g, e, q1, q2, q3, q4⟩ := h
    exact ⟨(s, f) :: l, (s, g) :: l', (s, e) :: l'', .cons q1 h1, .cons q2 h2, .cons q3 h3, .cons ⟨rfl, rfl, q4⟩ h4,
      congrArg (s :: ·) h5, congrArg (s :: ·) h6⟩

theorem OpRel.shape_eq {op : FwOp α} {op' : FwOp β} {op'' : FwOp γ} (ho : OpRel R op op' op'') (p : Profile) (ss : List Shape) :
    op'.shape p ss = op.shape p ss ∧ op''.shape p ss = op.shape p ss := by
  cases ho <;> rcases ss with _ | ⟨a, _ | ⟨b, _ | ⟨c, l⟩⟩⟩ <;> exact ⟨rfl, rfl⟩

theorem OpRel.fits_eq {op : FwOp α} {op' : FwOp β} {op'' : FwOp γ} (ho : OpRel R op op' op'') {s : Shape} (h : op.Fits s) :
    op'.Fits s ∧ op''.Fits s := by cases ho <;> exact ⟨h, h⟩

theorem OpRel.inRange {op : FwOp α} {op' : FwOp β} {op'' : FwOp γ} (ho : OpRel R op op' op'') : op.InRange := by cases ho <;> trivial

/-- Every device function: if the first call returns (with overflow checks), the others return related tensors. -/
theorem Dev.fw_three (hR : Sums R) {op : FwOp α} {op' : FwOp β} {op'' : FwOp γ} (ho : OpRel R op op' op'') {xs : List (Tensor α)}
    {ys : List (Tensor β)} {zs : List (Tensor γ)} (h : Forall₃ (Three R d) xs ys zs) (p p' : Profile) (m : Nat → α) (m' : Nat → β) (m'' : Nat → γ) :
    Follows₃ (Three R d) (Dev.fw op .debug d m xs) (Dev.fw op' p d m' ys) (Dev.fw op'' p' d m'' zs) := by
  intro y hy
  obtain ⟨ins, ins', ins'', h1, h2, h3, h4, h5, h6⟩ := three_all h
  have hp : ∃ s, op.Pre d xs s := by
    by_contra hne
    rw [Dev.fw_panics h1.fine ho.inRange hne m] at hy
    cases hy
  obtain ⟨s, hp⟩ := hp
  have hs := hp.shape
  rw [h1.shapes] at hs
  obtain ⟨q1, q2⟩ := ho.shape_eq .debug (ins.map Prod.fst)
  obtain ⟨f1, f2⟩ := ho.fits_eq hp.fits
  obtain ⟨y1, e1, k1⟩ := Dev.fw_ok h1 hs hp.size hp.fits .debug m
  obtain ⟨y2, e2, k2⟩ := Dev.fw_ok h2 (by rw [h5, q1]; exact hs) hp.size f1 p m'
  obtain ⟨y3, e3, k3⟩ := Dev.fw_ok h3 (by rw [h6, q2]; exact hs) hp.size f2 p' m''
  rw [hy] at e1; cases e1
  exact ⟨y2, y3, e2, e3, s, _, _, _, k1, k2, k3, sem_rel hR ho h4⟩

variable {x : Tensor α} {y : Tensor β} {z : Tensor γ} {x' : Tensor α} {y' : Tensor β} {z' : Tensor γ} {p p' : Profile}

theorem TF.call_three (hR : Sums R) {op : FwOp α} {op' : FwOp β} {op'' : FwOp γ} (ho : OpRel R op op' op'') (hx : Three R d x y z)
    {xs : List (Tensor α)} {ys : List (Tensor β)} {zs : List (Tensor γ)} (h : Forall₃ (Three R d) xs ys zs) (m : Nat → α) (m' : Nat → β)
    (m'' : Nat → γ) : Follows₃ (Three R d) (TF.call op .debug m x xs) (TF.call op' p m' y ys) (TF.call op'' p' m'' z zs) := by
  unfold TF.call Tensor.dev unwrap
  rw [hx.device.1, hx.device.2.1, hx.device.2.2.1]
  exact Dev.fw_three hR ho h p p' m m' m''

theorem TF.call1_three (hR : Sums R) {op : FwOp α} {op' : FwOp β} {op'' : FwOp γ} (ho : OpRel R op op' op'') (hx : Three R d x y z)
    (m : Nat → α) (m' : Nat → β) (m'' : Nat → γ) :
    Follows₃ (Three R d) (TF.call op .debug m x [x]) (TF.call op' p m' y [y]) (TF.call op'' p' m'' z [z]) :=
  TF.call_three hR ho hx (.cons hx .nil) m m' m''

theorem TF.abOp_three (hR : Sums R) (o : Bi) (l r : Sc) (h1 : OpRel R (.sc l) (.sc l) (.sc l)) (h2 : OpRel R (.sc r) (.sc r) (.sc r))
    (h3 : OpRel R (.bi o) (.bi o) (.bi o)) (hx : Three R d x y z) (hy : Three R d x' y' z') (m : Nat → α) (m' : Nat → β) (m'' : Nat → γ) :
    Follows₃ (Three R d) (TF.abOp o l r .debug m x x') (TF.abOp o l r p m' y y') (TF.abOp o l r p' m'' z z') := by
  unfold TF.abOp
  rw [hx.device.2.2.2.1, hx.device.2.2.2.2, hy.device.2.2.2.1, hy.device.2.2.2.2]
  split
  · exact TF.call_three hR h1 hx (.cons hy (.cons hx .nil)) m m' m''
  · split
    · exact TF.call_three hR h2 hx (.cons hx (.cons hy .nil)) m m' m''
    · exact TF.call_three hR h3 hx (.cons hx (.cons hy .nil)) m m' m''

theorem TF.reshape_three (hx : Three R d x y z) (t : Shape) (ht : t.WF) (m : Nat → α) (m' : Nat → β) (m'' : Nat → γ) :
    Follows₃ (Three R d) (TF.reshape .debug m x t) (TF.reshape p m' y t) (TF.reshape p' m'' z t) := by
  intro w hw
  obtain ⟨s, f, g, h, h1, h2, h3, h4⟩ := hx
  have hsz : t.size = s.size := by
    by_contra hne
    rw [C53_reshape_panics h1 hne m] at hw
    cases hw
  obtain ⟨y1, e1, k1⟩ := TF.reshape_ok h1 ht hsz .debug m
  obtain ⟨y2, e2, k2⟩ := TF.reshape_ok h2 ht hsz p m'
  obtain ⟨y3, e3, k3⟩ := TF.reshape_ok h3 ht hsz p' m''
  rw [hw] at e1; cases e1
  exact ⟨y2, y3, e2, e3, t, _, _, _, k1, k2, k3, fun c b => h4 _ _⟩

theorem TF.flatten_three (hx : Three R d x y z) (m : Nat → α) (m' : Nat → β) (m'' : Nat → γ) :
    Follows₃ (Three R d) (TF.flatten .debug m x) (TF.flatten p m' y) (TF.flatten p' m'' z) := by
  intro w hw
  unfold TF.flatten at hw ⊢
  rw [hx.device.2.2.2.1, hx.device.2.2.2.2]
  rw [Res.bind_eq_ok] at hw
  obtain ⟨t, h1, h2⟩ := hw
  obtain ⟨q1, q2, q3⟩ := Shape.new_ok h1
  have hb := q1.batch_pos
  have hn : ∀ p, Shape.new p [x.shape.volume] x.shape.batch = ok t := by
    intro p
    obtain ⟨g1, g2, g3, g4⟩ := Shape.new_ok_imp h1
    obtain ⟨t', e', w', b', r'⟩ := Shape.new_of (dims := [x.shape.volume]) (b := x.shape.batch) p ⟨g1, by omega, g3, g4⟩
    rw [e', w'.ext q1 (b'.trans q2.symm) fun i => by rw [r' i]; exact (q3 i).symm]
  rw [hn p, hn p', ok_bind, ok_bind]
  exact TF.reshape_three hx t q1 m m' m'' w h2

theorem newByConstant_three (hx : Three R d x y z) {k : α} {k' : β} {k'' : γ} (hk : R k k' k'') (m : Nat → α) (m' : Nat → β) (m'' : Nat → γ) :
    Follows₃ (Three R d) (Dev.newByConstant .debug d m x.shape k) (Dev.newByConstant p d m' y.shape k') (Dev.newByConstant p' d m'' z.shape k'') := by
  obtain ⟨s, f, g, h, h1, h2, h3, h4⟩ := hx
  intro w hw
  rw [h1.shape] at hw
  rw [h2.shape, h3.shape]
  obtain ⟨y1, e1, k1⟩ := Dev.newByConstant_ok (α := α) h1.wf h1.small .debug d m k
  obtain ⟨y2, e2, k2⟩ := Dev.newByConstant_ok (α := β) h1.wf h1.small p d m' k'
  obtain ⟨y3, e3, k3⟩ := Dev.newByConstant_ok (α := γ) h1.wf h1.small p' d m'' k''
  rw [hw] at e1; cases e1
  exact ⟨y2, y3, e2, e3, s, _, _, _, k1, k2, k3, fun _ _ => hk⟩

end

end Verif
