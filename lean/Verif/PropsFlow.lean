import Verif.Param3
import Verif.PropsError2

/-!
# C89: what an element of a result depends on
-/

set_option linter.unusedSectionVars false

namespace Verif
open Res

attribute [local instance] flowFlt

theorem flow_un (u : Un) (x : Bool) : u.fn x = x := by cases u <;> cases x <;> rfl
theorem flow_cn (o : Cn) (x k : Bool) : o.fn x k = (x || k) := by cases o <;> cases x <;> cases k <;> rfl
theorem flow_bi (o : Bi) (x k : Bool) : o.fn x k = (x || k) := by cases o <;> cases x <;> cases k <;> rfl
theorem flow_sc (o : Sc) (x k : Bool) : o.fn x k = (x || k) := by cases o <;> cases x <;> cases k <;> rfl
theorem flow_prelu (x k : Bool) : Scalar.preluFw x k = (x || k) := by cases x <;> cases k <;> rfl

/-- Whether one of the first `n` (at least one) numbers is marked. -/
def anyTo (n : Nat) (t : Nat → Bool) : Bool := foldN n (fun j a => a || t j) (t 0)

theorem anyTo_true {n : Nat} {t : Nat → Bool} : anyTo n t = true ↔ t 0 = true ∨ ∃ j, j < n ∧ t j = true := by
  unfold anyTo
  induction n with
  | zero => simp [foldN]
  | succ n ih =>
    rw [foldN_succ, Bool.or_eq_true, ih]
    constructor
    · rintro ((h | ⟨j, h, e⟩) | h)
      exacts [.inl h, .inr ⟨j, by omega, e⟩, .inr ⟨n, by omega, h⟩]
    · rintro (h | ⟨j, h, e⟩)
      · exact .inl (.inl h)
      · rcases Nat.lt_succ_iff_lt_or_eq.mp h with h | rfl
        exacts [.inl (.inr ⟨j, h, e⟩), .inr e]

theorem flow_scan (n : Nat) (t : Nat → Bool) : scanTo (fun v t => Flt.gt v t) n t = anyTo n t := by
  unfold scanTo anyTo
  induction n with
  | zero => rfl
  | succ n ih =>
    rw [foldN_succ, foldN_succ, ih]
    show (if t n = true then t n else _) = _
    cases h : t n <;> simp

theorem flow_lse (n : Nat) (t : Nat → Bool) : lseTo n t = anyTo n t := by
  have h : ∀ a b : Bool, Scalar.lseStep (α := Bool) a b = (a || b) := by intro a b; cases a <;> cases b <;> rfl
  have key : ∀ n, foldN n (fun j a => Scalar.lseStep (α := Bool) a (Flt.up (t (j + 1)))) (Flt.up (t 0)) = anyTo (n + 1) t := by
    intro n
    induction n with
    | zero => show t 0 = (t 0 || t 0); simp
    | succ n ih =>
      rw [foldN_succ, ih]
      exact h _ _
  unfold lseTo
  cases n with
  | zero => rfl
  | succ n => exact key n

section
variable {α κ : Type} [Flt α] {d : Nat} {p p' : Profile}

/-- Equal unless marked. -/
def SameUnless (x y : α) (t : Bool) : Prop := t = false → x = y

theorem same_scan : Scans (SameUnless (α := α)) := by
  intro n t t' t'' h
  rw [flow_scan]
  intro hf
  have h' : ∀ j, j < n ∨ j = 0 → t j = t' j := fun j hj => h j (by
    cases e : t'' j with
    | false => rfl
    | true =>
      have := anyTo_true (n := n) (t := t'')
      rw [hf] at this
      exact absurd (this.mpr (by rcases hj with hj | rfl; exacts [.inr ⟨j, hj, e⟩, .inl e])) (by simp))
  unfold scanTo
  have key : ∀ k, k ≤ n → foldN k (fun j a => if Flt.gt (t j) a = true then t j else a) (t 0) = foldN k (fun j a => if Flt.gt (t' j) a = true then t' j else a) (t' 0) := by
    intro k hk
    induction k with
    | zero => exact h' 0 (.inr rfl)
    | succ k ih => rw [foldN_succ, foldN_succ, ih (by omega), h' k (.inl (by omega))]
  exact key n le_rfl

theorem same_lse (n : Nat) (t t' : Nat → α) (t'' : Nat → Bool) (h : ∀ j, SameUnless (t j) (t' j) (t'' j)) : SameUnless (lseTo n t) (lseTo n t') (lseTo n t'') := by
  rw [flow_lse]
  intro hf
  have h' : ∀ j, j < n ∨ j = 0 → t j = t' j := fun j hj => h j (by
    cases e : t'' j with
    | false => rfl
    | true =>
      have := anyTo_true (n := n) (t := t'')
      rw [hf] at this
      exact absurd (this.mpr (by rcases hj with hj | rfl; exacts [.inr ⟨j, hj, e⟩, .inl e])) (by simp))
  unfold lseTo
  have key : ∀ k, k ≤ n - 1 → foldN k (fun j a => Scalar.lseStep a (Flt.up (t (j + 1)))) (Flt.up (t 0)) =
      foldN k (fun j a => Scalar.lseStep a (Flt.up (t' (j + 1)))) (Flt.up (t' 0)) := by
    intro k hk
    induction k with
    | zero => exact congrArg Flt.up (h' 0 (.inr rfl))
    | succ k ih => rw [foldN_succ, foldN_succ, ih (by omega), h' (k + 1) (.inl (by omega))]
  rw [key _ le_rfl]

theorem same_one {f : α → α} {x y : α} {t t' : Bool} (e : t' = t) (h : SameUnless x y t) : SameUnless (f x) (f y) t' :=
  fun ht => congrArg f (h (e ▸ ht))

theorem same_two {f : α → α → α} {x y x' y' : α} {s t r : Bool} (e : r = (s || t)) (h : SameUnless x y s) (h' : SameUnless x' y' t) :
    SameUnless (f x x') (f y y') r := by
  intro ht
  rw [e, Bool.or_eq_false_iff] at ht
  rw [h ht.1, h' ht.2]

/-- Marks are right: an unmarked result is the same in both runs. -/
theorem flow_right : Par2 (SameUnless (α := α)) where
  zero := fun _ => rfl
  add := fun _ _ _ _ _ _ h h' => same_two rfl h h'
  mul := fun _ _ _ _ _ _ h h' => same_two rfl h h'
  sub := fun _ _ _ _ _ _ h h' => same_two rfl h h'
  div := fun _ _ _ _ _ _ h h' => same_two rfl h h'
  neg := fun _ _ _ h => same_one rfl h
  abs := fun _ _ _ h => same_one rfl h
  tanh := fun _ _ _ h => same_one rfl h
  half := fun _ => rfl
  cent := fun _ => rfl
  ofInt := fun _ _ => rfl
  prelu := fun _ _ _ _ _ _ h h' => same_two (flow_prelu _ _) h h'
  un := fun u _ _ _ h => same_one (flow_un u _) h
  cn := fun o _ _ _ _ _ _ h h' => same_two (flow_cn o _ _) h h'
  bi := fun o _ _ _ _ _ _ h h' => same_two (flow_bi o _ _) h h'
  one := fun _ => rfl
  powi := fun n _ _ _ h => same_one (f := fun x => Flt.powi x n) rfl h
  lse := same_lse
  scan := same_scan

open Classical in
theorem Marked.three {x y : Tensor α} {z : Tensor Bool} (h : Marked d x y z) : Three SameUnless d x y z := by
  obtain ⟨s, f, g, t, h1, h2, h3, h4⟩ := h
  refine ⟨s, f, fun c b => if s.Valid c b then g c b else f c b, t, h1, h2.congr fun c b hv => by rw [if_pos hv], h3, fun c b ht => ?_⟩
  show f c b = if s.Valid c b then g c b else f c b
  split
  · next hv => exact h4 c b hv ht
  · rfl

theorem Marked.all {xs ys : List (Tensor α)} {zs : List (Tensor Bool)} (h : Forall₃ (Marked d) xs ys zs) : Forall₃ (Three SameUnless d) xs ys zs := h.imp fun _ _ _ h => h.three

/-- C89: a program of any functions of the library (but the random ones and `min`), run on two lists of tensors which differ in marked elements only (and with
constants which differ only if marked): if it returns on the first, it returns on the second, the same program run on marks returns, and the results of the two
runs, and all intermediate results, differ in marked elements only. -/
theorem C89_flow (prog : List (FnCall κ)) {ι ι' : κ → α} {μ : κ → Bool} (hμ : ∀ k, μ k = false → ι k = ι' k) {xs ys : List (Tensor α)} {zs : List (Tensor Bool)}
    (h : Forall₃ (Marked d) xs ys zs) (m m' : Nat → Mem α) (m'' : Nat → Mem Bool) {out : List (Tensor α)} (hr : runFns .debug ι m prog xs = ok out) :
    ∃ out' marks, runFns p ι' m' prog ys = ok out' ∧ runFns p' μ m'' prog zs = ok marks ∧ Forall₃ (Marked d) out out' marks := by
  obtain ⟨out', marks, h1, h2, h3⟩ := runFns_three (p := p) (p' := p') flow_right hμ prog (Marked.all h) m m' m'' out hr
  exact ⟨out', marks, h1, h2, h3.imp fun _ _ _ ⟨s, f, g, t, q1, q2, q3, q4⟩ => ⟨s, f, g, t, q1, q2, q3, fun c b _ => q4 c b⟩⟩

/-- All numbers are related. -/
theorem par_true {α β γ : Type} [Flt α] [Flt β] [Flt γ] : Par2 (fun (_ : α) (_ : β) (_ : γ) => True) where
  zero := trivial
  add := fun _ _ _ _ _ _ _ _ => trivial
  mul := fun _ _ _ _ _ _ _ _ => trivial
  sub := fun _ _ _ _ _ _ _ _ => trivial
  div := fun _ _ _ _ _ _ _ _ => trivial
  neg := fun _ _ _ _ => trivial
  abs := fun _ _ _ _ => trivial
  tanh := fun _ _ _ _ => trivial
  half := trivial
  cent := trivial
  ofInt := fun _ => trivial
  prelu := fun _ _ _ _ _ _ _ _ => trivial
  un := fun _ _ _ _ _ => trivial
  cn := fun _ _ _ _ _ _ _ _ _ => trivial
  bi := fun _ _ _ _ _ _ _ _ _ => trivial
  one := trivial
  powi := fun _ _ _ _ _ => trivial
  lse := fun _ _ _ _ _ => trivial
  scan := fun _ _ _ _ _ => trivial

/-- Tensors of one shape on one device. -/
def Alike {α β : Type} (d : Nat) (x : Tensor α) (y : Tensor β) : Prop := ∃ (s : Shape) (f : Arr α) (g : Arr β), x.Holds d s f ∧ y.Holds d s g

/-- C89: whether a program returns (in a build with overflow checks) does not depend on the elements of the tensors, nor on the constants, nor even on the type of the
numbers, but on the shapes only; if it returns, it returns in every build, with results of the same shapes. -/
theorem C89_panics {β : Type} [Flt β] (prog : List (FnCall κ)) {ι : κ → α} {ι' : κ → β} {xs : List (Tensor α)} {ys : List (Tensor β)} (h : List.Forall₂ (Alike d) xs ys)
    (m : Nat → Mem α) (m' : Nat → Mem β) {out : List (Tensor α)} (hr : runFns .debug ι m prog xs = ok out) :
    ∃ out', runFns p ι' m' prog ys = ok out' ∧ List.Forall₂ (Alike d) out out' := by
  have h3 : Forall₃ (Three (fun _ _ _ => True) d) xs ys ys := by
    clear hr
    induction h with
    | nil => exact .nil
    | cons h _ ih =>
      obtain ⟨s, f, g, h1, h2⟩ := h
      exact .cons ⟨s, f, g, g, h1, h2, h2, fun _ _ => trivial⟩ ih
  obtain ⟨out', _, h1, e, h2⟩ := runFns_three (p := p) (p' := p) par_true (ι' := ι') (ι'' := ι') (fun _ => trivial) prog h3 m m' m' out hr
  refine ⟨out', h1, ?_⟩
  clear h1 hr e
  induction h2 with
  | nil => exact .nil
  | cons h _ ih =>
    obtain ⟨s, f, g, _, h1, h2, _⟩ := h
    exact .cons ⟨s, f, g, h1, h2⟩ ih

end

/-- The mark is in one of the two. -/
def Joined (x y z : Bool) : Prop := z = (x || y)

theorem joined_any {n : Nat} {t t' t'' : Nat → Bool} (h : ∀ j, Joined (t j) (t' j) (t'' j)) : Joined (anyTo n t) (anyTo n t') (anyTo n t'') := by
  unfold Joined anyTo at *
  induction n with
  | zero => exact h 0
  | succ n ih =>
    simp only [foldN_succ]
    rw [ih, h n]
    generalize foldN n (fun j a => a || t j) (t 0) = a
    generalize foldN n (fun j a => a || t' j) (t' 0) = b
    cases a <;> cases b <;> simp

theorem joined_two {x y z x' y' z' r s t : Bool} (e1 : r = (x || x')) (e2 : s = (y || y')) (e3 : t = (z || z')) (h : Joined x y z) (h' : Joined x' y' z') : Joined r s t := by
  unfold Joined at *
  subst e1 e2 e3 h h'
  cases x <;> cases y <;> cases x' <;> rfl

theorem join_right : Par2 Joined where
  zero := rfl
  add := fun _ _ _ _ _ _ h h' => joined_two rfl rfl rfl h h'
  mul := fun _ _ _ _ _ _ h h' => joined_two rfl rfl rfl h h'
  sub := fun _ _ _ _ _ _ h h' => joined_two rfl rfl rfl h h'
  div := fun _ _ _ _ _ _ h h' => joined_two rfl rfl rfl h h'
  neg := fun _ _ _ h => h
  abs := fun _ _ _ h => h
  tanh := fun _ _ _ h => h
  half := rfl
  cent := rfl
  ofInt := fun _ => rfl
  prelu := fun _ _ _ _ _ _ h h' => joined_two (flow_prelu _ _) (flow_prelu _ _) (flow_prelu _ _) h h'
  un := fun u x y z h => by rw [flow_un, flow_un, flow_un]; exact h
  cn := fun o _ _ _ _ _ _ h h' => joined_two (flow_cn o _ _) (flow_cn o _ _) (flow_cn o _ _) h h'
  bi := fun o _ _ _ _ _ _ h h' => joined_two (flow_bi o _ _) (flow_bi o _ _) (flow_bi o _ _) h h'
  one := rfl
  powi := fun _ _ _ _ h => h
  lse := fun n t t' t'' h => by rw [flow_lse, flow_lse, flow_lse]; exact joined_any h
  scan := fun n t t' t'' h => by rw [flow_scan, flow_scan, flow_scan]; exact joined_any h

/-- Marks of three tensors: those of the third are those of the first two together. -/
def JoinedT (d : Nat) (x y z : Tensor Bool) : Prop :=
  ∃ (s : Shape) (f g : Arr Bool), x.Holds d s f ∧ y.Holds d s g ∧ z.Holds d s (fun c b => f c b || g c b)

theorem JoinedT.iff {d : Nat} {x y z : Tensor Bool} : JoinedT d x y z ↔ Three Joined d x y z := by
  constructor
  · rintro ⟨s, f, g, h1, h2, h3⟩
    exact ⟨s, f, g, _, h1, h2, h3, fun _ _ => rfl⟩
  · rintro ⟨s, f, g, t, h1, h2, h3, h4⟩
    exact ⟨s, f, g, h1, h2, h3.congr fun c b _ => (h4 c b).symm⟩

/-- C89: the marks of a result are those that each marked input causes on its own: marking the elements of two sets together marks exactly what marking them
separately marks. -/
theorem C89_union {κ : Type} {d : Nat} {p p' : Profile} (prog : List (FnCall κ)) {μ μ' : κ → Bool} {xs ys zs : List (Tensor Bool)} (h : Forall₃ (JoinedT d) xs ys zs)
    (m m' m'' : Nat → Mem Bool) {out : List (Tensor Bool)} (hr : runFns .debug μ m prog xs = ok out) :
    ∃ out' out'', runFns p μ' m' prog ys = ok out' ∧ runFns p' (fun k => μ k || μ' k) m'' prog zs = ok out'' ∧ Forall₃ (JoinedT d) out out' out'' := by
  obtain ⟨a, b, h1, h2, h3⟩ := runFns_three (p := p) (p' := p') join_right (ι := μ) (ι' := μ') (ι'' := fun k => μ k || μ' k) (fun _ => rfl) prog
    (h.imp fun _ _ _ h => JoinedT.iff.mp h) m m' m'' out hr
  exact ⟨a, b, h1, h2, h3.imp fun _ _ _ h => JoinedT.iff.mpr h⟩

/-- A tensor given by the list of its elements. -/
theorem literal_holds {α : Type} [Flt α] {s : Shape} (hs : s.WF) (hsz : s.size ≤ 2 ^ 31) (d : Nat) {l : List α} (hl : s.size ≤ l.length) :
    (⟨some d, s, some l, none⟩ : Tensor α).Holds d s (fun c b => l.getD (s.offset c b) 0) :=
  ⟨rfl, rfl, rfl, hs, hsz, ⟨l, rfl, hl, fun c b hv => by
    have := hs.offset_lt hv
    rw [List.getElem?_eq_getElem (by omega), List.getD_eq_getElem?_getD, List.getElem?_eq_getElem (by omega), Option.getD_some]⟩⟩

/-- The elements of the tensors. -/
def contents {α : Type} : Res (List (Tensor α)) → List (Shape × List α)
  | .ok l => l.map fun t => (t.shape, (t.buf.getD []).take t.shape.size)
  | _ => []

/-- Marks of one element of a 2×3 matrix: after `softmax` along columns and a product with an unmarked matrix from the left, its column is marked, and nothing else. -/
theorem column_marks : contents (runFns (κ := Bool) .debug id (fun _ _ _ => true) [.softmax 0 0, .base (.matmul 1 2)]
    [⟨some 0, matShape 2 3 1, some [true, false, false, false, false, false], none⟩, ⟨some 0, matShape 2 2 1, some [false, false, false, false], none⟩]) =
    [(matShape 2 3 1, [true, false, false, false, false, false]), (matShape 2 2 1, [false, false, false, false]), (matShape 2 3 1, [true, true, false, false, false, false]),
      (matShape 2 3 1, [true, true, false, false, false, false])] := by
  decide

/-- A 2×3 matrix of f32 numbers and one with NaN in place of the first: `softmax` along columns and a product with any matrix from the left. Both runs return, and
the second and third columns of the results are the same. -/
example [Ieee] (v w : Nat → Fl f32) (p : Profile) (m m' : Nat → Mem (Fl f32)) : ∃ (x y u : Tensor (Fl f32)) (out out' : List (Tensor (Fl f32))),
    x.Holds 0 (matShape 2 3 1) (fun c b => v ((matShape 2 3 1).offset c b)) ∧
    y.Holds 0 (matShape 2 3 1) (fun c b => if (matShape 2 3 1).offset c b = 0 then .nan else v ((matShape 2 3 1).offset c b)) ∧
    u.Holds 0 (matShape 2 2 1) (fun c b => w ((matShape 2 2 1).offset c b)) ∧
    runFns (κ := Bool) .debug (fun _ => 0) m [.softmax 0 0, .base (.matmul 1 2)] [x, u] = ok out ∧
    runFns (κ := Bool) p (fun _ => 0) m' [.softmax 0 0, .base (.matmul 1 2)] [y, u] = ok out' ∧
    ∃ z z' f f', out[3]? = some z ∧ out'[3]? = some z' ∧ z.Holds 0 (matShape 2 3 1) f ∧ z'.Holds 0 (matShape 2 3 1) f' ∧
      ∀ c b, (matShape 2 3 1).Valid c b → c 1 ≠ 0 → f c b = f' c b := by
  have hs := matShape_wf (n := 2) (m := 3) (b := 1) rfl
  have hs2 := matShape_wf (n := 2) (m := 2) (b := 1) rfl
  obtain ⟨x, hx⟩ := exists_holds hs (by decide) 0 v
  obtain ⟨y, hy⟩ := exists_holds hs (by decide) 0 (fun i => if i = 0 then .nan else v i)
  obtain ⟨u, hu⟩ := exists_holds hs2 (by decide) 0 w
  have h1 := literal_holds (α := Bool) hs (by decide) 0 (l := [true, false, false, false, false, false]) (by decide)
  have h2 := literal_holds (α := Bool) hs2 (by decide) 0 (l := [false, false, false, false]) (by decide)
  have hin : Forall₃ (Marked 0) [x, u] [y, u] [_, _] := .cons ⟨_, _, _, _, hx, hy, h1, fun c b hv ht => by
    have : (matShape 2 3 1).offset c b ≠ 0 := by intro e; rw [e] at ht; cases ht
    rw [if_neg this]⟩ (.cons ⟨_, _, _, _, hu, hu, h2, fun _ _ _ _ => rfl⟩ .nil)
  obtain ⟨l, hl⟩ : ∃ l, runFns (κ := Bool) .debug id (fun _ _ _ => true) [.softmax 0 0, .base (.matmul 1 2)]
      [⟨some 0, matShape 2 3 1, some [true, false, false, false, false, false], none⟩, ⟨some 0, matShape 2 2 1, some [false, false, false, false], none⟩] = ok l := by
    have := column_marks
    revert this
    cases runFns (κ := Bool) .debug id (fun _ _ _ => true) [.softmax 0 0, .base (.matmul 1 2)]
      [⟨some 0, matShape 2 3 1, some [true, false, false, false, false, false], none⟩, ⟨some 0, matShape 2 2 1, some [false, false, false, false], none⟩] with
    | ok l => exact fun _ => ⟨l, rfl⟩
    | panic => intro h; cases h
    | ub => intro h; cases h
  have hmarks := column_marks
  rw [hl] at hmarks
  obtain ⟨out, hout, -⟩ := C89_panics (p := .debug) (ι' := fun _ => (0 : Fl f32)) _ (.cons ⟨_, _, _, h1, hx⟩ (.cons ⟨_, _, _, h2, hu⟩ .nil)) _ m hl
  obtain ⟨out', l', e1, e2, e3⟩ := C89_flow (p := p) (p' := .debug) (ι' := fun _ => (0 : Fl f32)) (μ := id) _ (fun _ _ => rfl) hin m m' (fun _ _ _ => true) hout
  rw [hl] at e2
  cases e2
  refine ⟨x, y, u, out, out', hx, hy, hu, hout, e1, ?_⟩
  match l, e3, hmarks with
  | [a1, a2, a3, a4], .cons _ (.cons _ (.cons _ (.cons (x := z) (y := z') ⟨s, f, g, t, q1, q2, q3, q4⟩ .nil))), hm =>
    simp only [contents, List.map_cons, List.map_nil, List.cons.injEq, Prod.mk.injEq, and_true] at hm
    obtain ⟨-, -, -, hsh, hbuf⟩ := hm
    have hss : s = matShape 2 3 1 := by rw [← q3.shape, hsh]
    subst hss
    refine ⟨z, z', f, g, rfl, rfl, q1, q2, fun c b hv hc => q4 c b hv ?_⟩
    obtain ⟨k, k1, k2, k3⟩ := q3.buf
    rw [k1, hsh, Option.getD_some] at hbuf
    have hlt := hs.offset_lt hv
    have hk := k3 c b hv
    rw [← List.getElem?_take_of_lt hlt, hbuf] at hk
    have c0 : c 0 < 2 := hv.1 0
    have c1 : c 1 < 3 := hv.1 1
    have hoff : (matShape 2 3 1).offset c b = c 0 + 2 * c 1 := by
      rw [offset_mat hs (fun i hi => by rcases i with _ | _ | _ | _ | _ | _ | _ | _ | i <;> first | omega | rfl) hv]
      have : b < 1 := hv.2
      obtain rfl : b = 0 := by omega
      show c 0 + c 1 * 2 + _ = _
      omega
    rw [hoff] at hk
    have : c 1 = 1 ∨ c 1 = 2 := by omega
    have : c 0 = 0 ∨ c 0 = 1 := by omega
    rcases ‹c 1 = 1 ∨ c 1 = 2› with e | e <;> rcases ‹c 0 = 0 ∨ c 0 = 1› with e' | e' <;> rw [e, e'] at hk <;> exact (Option.some.inj hk).symm

/-- Marking the first element of a 2×3 matrix, the last one, and both: `softmax` along columns marks the first column, the last one, and both. -/
example : ∃ out out' out'' : List (Tensor Bool), runFns (κ := Bool) .debug id (fun _ _ _ => true) [.softmax 0 0]
      [⟨some 0, matShape 2 3 1, some [true, false, false, false, false, false], none⟩] = ok out ∧
    runFns (κ := Bool) .debug id (fun _ _ _ => true) [.softmax 0 0] [⟨some 0, matShape 2 3 1, some [false, false, false, false, false, true], none⟩] = ok out' ∧
    runFns (κ := Bool) .debug (fun k => id k || id k) (fun _ _ _ => true) [.softmax 0 0]
      [⟨some 0, matShape 2 3 1, some [true, false, false, false, false, true], none⟩] = ok out'' ∧
    Forall₃ (JoinedT 0) out out' out'' ∧ contents (ok out'') =
      [(matShape 2 3 1, [true, false, false, false, false, true]), (matShape 2 3 1, [true, true, false, false, true, true])] := by
  have hs := matShape_wf (n := 2) (m := 3) (b := 1) rfl
  have h1 := literal_holds (α := Bool) hs (by decide) 0 (l := [true, false, false, false, false, false]) (by decide)
  have h2 := literal_holds (α := Bool) hs (by decide) 0 (l := [false, false, false, false, false, true]) (by decide)
  have h3 := literal_holds (α := Bool) hs (by decide) 0 (l := [true, false, false, false, false, true]) (by decide)
  have hc : contents (runFns (κ := Bool) .debug (fun k => id k || id k) (fun _ _ _ => true) [.softmax 0 0]
      [⟨some 0, matShape 2 3 1, some [true, false, false, false, false, true], none⟩]) =
      [(matShape 2 3 1, [true, false, false, false, false, true]), (matShape 2 3 1, [true, true, false, false, true, true])] := by decide
  obtain ⟨out, e⟩ : ∃ out, runFns (κ := Bool) .debug id (fun _ _ _ => true) [.softmax 0 0]
      [⟨some 0, matShape 2 3 1, some [true, false, false, false, false, false], none⟩] = ok out := by
    have hc : contents (runFns (κ := Bool) .debug id (fun _ _ _ => true) [.softmax 0 0]
      [⟨some 0, matShape 2 3 1, some [true, false, false, false, false, false], none⟩]) ≠ [] := by decide
    revert hc
    cases runFns (κ := Bool) .debug id (fun _ _ _ => true) [.softmax 0 0] [⟨some 0, matShape 2 3 1, some [true, false, false, false, false, false], none⟩] with
    | ok l => exact fun _ => ⟨l, rfl⟩
    | panic => intro h; exact absurd rfl h
    | ub => intro h; exact absurd rfl h
  have hd : ∀ i, i < 6 → [true, false, false, false, false, true].getD i false =
      ([true, false, false, false, false, false].getD i false || [false, false, false, false, false, true].getD i false) := by decide
  obtain ⟨out', out'', e', e'', hj⟩ := C89_union (p := .debug) (p' := .debug) (μ' := id) _
    (.cons ⟨_, _, _, h1, h2, h3.congr fun c b hv => (hd _ (hs.offset_lt hv)).symm⟩ .nil) _ (fun _ _ _ => true) (fun _ _ _ => true) e
  rw [e''] at hc
  exact ⟨out, out', out'', e, e', e'', hj, hc⟩

end Verif
