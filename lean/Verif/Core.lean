import Mathlib.Tactic.Ring
import Mathlib.Tactic.Linarith
import Mathlib.Tactic.Push
import Mathlib.Data.Nat.Basic

/-!
# Core: results of running Rust code, loops, raw buffers

`Res α` is the outcome of a piece of Rust code: a value, a panic (assertion, slice index out of range, arithmetic
overflow in a build with overflow checks, `unwrap` of `None`), or undefined behaviour (a raw pointer access outside
its buffer).
-/

namespace Verif

/-- Outcome of running a piece of Rust code. -/
inductive Res (α : Type u) where
  | ok (a : α)
  | panic
  | ub
  deriving DecidableEq, Repr

namespace Res

/-- Sequencing: the first `panic`/`ub` wins. -/
def bind {α : Type u} {β : Type v} (x : Res α) (f : α → Res β) : Res β :=
  match x with
  | ok a => f a
  | panic => panic
  | ub => ub

instance : Monad Res where
  pure := Res.ok
  bind := Res.bind

@[simp] theorem pure_eq (a : α) : (pure a : Res α) = ok a := rfl
@[simp] theorem ok_bind (a : α) (f : α → Res β) : (ok a >>= f) = f a := rfl
@[simp] theorem panic_bind (f : α → Res β) : ((panic : Res α) >>= f) = panic := rfl
@[simp] theorem ub_bind (f : α → Res β) : ((ub : Res α) >>= f) = ub := rfl
@[simp] theorem bind_ok (x : Res α) : (x >>= fun a => ok a) = x := by cases x <;> rfl
@[simp] theorem bind_panic (x : Res α) (h : x ≠ ub) : (x >>= fun _ => (panic : Res β)) = panic := by
  cases x <;> first | rfl | contradiction

theorem bind_assoc (x : Res α) (f : α → Res β) (g : β → Res γ) :
    ((x >>= f) >>= g) = (x >>= fun a => f a >>= g) := by cases x <;> rfl

instance : LawfulMonad Res := LawfulMonad.mk' _
  (id_map := by intro α x; cases x <;> rfl)
  (pure_bind := by intros; rfl)
  (bind_assoc := by intro α β γ x f g; cases x <;> rfl)

theorem bind_eq_ok {x : Res α} {f : α → Res β} {b : β} :
    (x >>= f) = ok b ↔ ∃ a, x = ok a ∧ f a = ok b := by
  cases x <;> simp

theorem bind_congr {x : Res α} {f g : α → Res β} (h : ∀ a, x = ok a → f a = g a) :
    (x >>= f) = (x >>= g) := by
  cases x with
  | ok a => simpa using h a rfl
  | panic => rfl
  | ub => rfl

/-- Did not run into undefined behaviour. -/
def Safe (x : Res α) : Prop := x ≠ ub

@[simp] theorem safe_ok (a : α) : (ok a).Safe := by simp [Safe]
@[simp] theorem safe_panic : (panic : Res α).Safe := by simp [Safe]

theorem Safe.bind {x : Res α} {f : α → Res β} (hx : x.Safe) (hf : ∀ a, x = ok a → (f a).Safe) :
    (x >>= f).Safe := by
  cases x with
  | ok a => exact hf a rfl
  | panic => simp
  | ub => exact absurd rfl hx

end Res

open Res

/-- Rust `assert!(c)`. -/
def check (c : Prop) [Decidable c] : Res Unit := if c then ok () else panic

@[simp] theorem check_true (c : Prop) [Decidable c] (h : c) : check c = ok () := by simp [check, h]
@[simp] theorem check_false (c : Prop) [Decidable c] (h : ¬ c) : check c = panic := by simp [check, h]
theorem check_eq_ok {c : Prop} [Decidable c] {u : Unit} : check c = ok u ↔ c := by
  unfold check; split <;> simp_all
theorem check_bind_ok {c : Prop} [Decidable c] {f : Unit → Res α} {a : α} :
    (check c >>= f) = ok a ↔ c ∧ f () = ok a := by
  unfold check; split <;> simp_all
theorem check_safe (c : Prop) [Decidable c] : (check c).Safe := by
  unfold check; split <;> simp

/-- `for i in 0..n { s = f(i, s) }` (iterations in increasing order). -/
def loop (n : Nat) (f : Nat → σ → Res σ) (s : σ) : Res σ :=
  match n with
  | 0 => ok s
  | n + 1 => loop n f s >>= f n

@[simp] theorem loop_zero (f : Nat → σ → Res σ) (s : σ) : loop 0 f s = ok s := rfl
theorem loop_succ (n : Nat) (f : Nat → σ → Res σ) (s : σ) :
    loop (n + 1) f s = (loop n f s >>= f n) := rfl

/-- Loop rule with an invariant. -/
theorem loop_inv {n : Nat} {f : Nat → σ → Res σ} {s : σ} (P : Nat → σ → Prop) (h0 : P 0 s)
    (hstep : ∀ i t, i < n → P i t → ∃ t', f i t = ok t' ∧ P (i + 1) t') :
    ∃ t, loop n f s = ok t ∧ P n t := by
  induction n with
  | zero => exact ⟨s, rfl, h0⟩
  | succ n ih =>
    obtain ⟨t, ht, hp⟩ := ih (fun i t hi => hstep i t (by omega))
    obtain ⟨t', ht', hp'⟩ := hstep n t (by omega) hp
    exact ⟨t', by rw [loop_succ, ht]; exact ht', hp'⟩

theorem loop_congr {n : Nat} {f g : Nat → σ → Res σ} {s : σ}
    (h : ∀ i, i < n → ∀ t, f i t = g i t) : loop n f s = loop n g s := by
  induction n with
  | zero => rfl
  | succ n ih =>
    rw [loop_succ, loop_succ, ih (fun i hi => h i (by omega))]
    exact Res.bind_congr (fun a _ => h n (by omega) a)

/-- Congruence for loops under an invariant preserved by the body. -/
theorem loop_congr_inv {n : Nat} {f g : Nat → σ → Res σ} {s : σ} (P : σ → Prop) (h0 : P s)
    (h : ∀ i, i < n → ∀ t, P t → f i t = g i t)
    (hp : ∀ i, i < n → ∀ t t', P t → f i t = ok t' → P t') : loop n f s = loop n g s := by
  have key : loop n f s = loop n g s ∧ ∀ t, loop n f s = ok t → P t := by
    induction n with
    | zero => exact ⟨rfl, by simp; exact h0⟩
    | succ n ih =>
      obtain ⟨e, hP⟩ := ih (fun i hi => h i (by omega)) (fun i hi => hp i (by omega))
      refine ⟨?_, ?_⟩
      · rw [loop_succ, loop_succ, ← e]
        exact Res.bind_congr (fun a ha => h n (by omega) a (hP a ha))
      · intro t ht
        rw [loop_succ, Res.bind_eq_ok] at ht
        obtain ⟨a, ha, hb⟩ := ht
        exact hp n (by omega) a t (hP a ha) hb
  exact key.1

theorem loop_add (m n : Nat) (f : Nat → σ → Res σ) (s : σ) :
    loop (m + n) f s = (loop m f s >>= loop n (fun i => f (m + i))) := by
  induction n with
  | zero => simp [loop]
  | succ n ih =>
    rw [← Nat.add_assoc, loop_succ, ih, Res.bind_assoc]
    rfl

/-- Two nested loops over a rectangle are one loop over the flat index. -/
theorem loop_nest (m n : Nat) (f : Nat → σ → Res σ) (s : σ) :
    loop m (fun b => loop n (fun i => f (b * n + i))) s = loop (m * n) f s := by
  induction m with
  | zero => simp
  | succ m ih => rw [loop_succ, ih, Nat.add_mul, Nat.one_mul, loop_add]

/-- Nested loops, with the body given in terms of the two indices. -/
theorem loop_nest' (m n : Nat) (f : Nat → Nat → σ → Res σ) (s : σ) :
    loop m (fun b => loop n (fun i => f b i)) s = loop (m * n) (fun k => f (k / n) (k % n)) s := by
  rw [← loop_nest]
  apply loop_congr
  intro b _ t
  apply loop_congr
  intro i hi t
  rw [Nat.add_comm, Nat.add_mul_div_right _ _ (by omega), Nat.div_eq_of_lt hi, Nat.add_mul_mod_self_right,
    Nat.mod_eq_of_lt hi, Nat.zero_add]

theorem loop_ne_ub {n : Nat} {f : Nat → σ → Res σ} {s : σ} (h : ∀ i t, i < n → (f i t).Safe) :
    (loop n f s).Safe := by
  induction n with
  | zero => simp
  | succ n ih =>
    rw [loop_succ]
    exact Res.Safe.bind (ih (fun i t hi => h i t (by omega))) (fun a _ => h n a (by omega))

/-- Pure fold over `0..n` (increasing order). -/
def foldN (n : Nat) (f : Nat → σ → σ) (s : σ) : σ :=
  match n with
  | 0 => s
  | n + 1 => f n (foldN n f s)

@[simp] theorem foldN_zero (f : Nat → σ → σ) (s : σ) : foldN 0 f s = s := rfl
theorem foldN_succ (n : Nat) (f : Nat → σ → σ) (s : σ) : foldN (n + 1) f s = f n (foldN n f s) := rfl

theorem foldN_congr {n : Nat} {f g : Nat → σ → σ} {s : σ}
    (h : ∀ i, i < n → ∀ t, f i t = g i t) : foldN n f s = foldN n g s := by
  induction n with
  | zero => rfl
  | succ n ih => rw [foldN_succ, foldN_succ, ih (fun i hi => h i (by omega)), h n (by omega)]

theorem foldN_id {n : Nat} {f : Nat → σ → σ} {s : σ} (h : ∀ i, i < n → ∀ t, f i t = t) :
    foldN n f s = s := by
  induction n with
  | zero => rfl
  | succ n ih => rw [foldN_succ, h n (by omega), ih (fun i hi => h i (by omega))]

theorem foldN_add (m n : Nat) (f : Nat → σ → σ) (s : σ) :
    foldN (m + n) f s = foldN n (fun i => f (m + i)) (foldN m f s) := by
  induction n with
  | zero => rfl
  | succ n ih => rw [← Nat.add_assoc, foldN_succ, ih]; rfl

theorem foldN_nest (m n : Nat) (f : Nat → σ → σ) (s : σ) :
    foldN m (fun b => foldN n (fun i => f (b * n + i))) s = foldN (m * n) f s := by
  induction m with
  | zero => simp
  | succ m ih => rw [foldN_succ, ih, Nat.add_mul, Nat.one_mul, foldN_add]

/-- Only one iteration does something. -/
theorem foldN_single {n : Nat} {f : Nat → σ → σ} {s : σ} (j : Nat) (hj : j < n)
    (h : ∀ i, i < n → i ≠ j → ∀ t, f i t = t) : foldN n f s = f j s := by
  induction n with
  | zero => omega
  | succ n ih =>
    rw [foldN_succ]
    by_cases hjn : j = n
    · subst hjn
      rw [foldN_id (fun i hi t => h i (by omega) (by omega) t)]
    · rw [ih (by omega) (fun i hi => h i (by omega)), h n (by omega) (by omega)]

/-- A loop whose body never fails is a pure fold. -/
theorem loop_pure (n : Nat) (f : Nat → σ → σ) (s : σ) :
    loop n (fun i t => ok (f i t)) s = ok (foldN n f s) := by
  induction n with
  | zero => rfl
  | succ n ih => rw [loop_succ, ih]; rfl

theorem loop_eq_foldN {n : Nat} {g : Nat → σ → Res σ} {f : Nat → σ → σ} {s : σ}
    (h : ∀ i, i < n → ∀ t, g i t = ok (f i t)) : loop n g s = ok (foldN n f s) := by
  rw [loop_congr h, loop_pure]

/-! ## Raw buffers -/

/-- `*p.add(i)`: undefined behaviour outside the buffer. -/
def rd (l : List α) (i : Nat) : Res α :=
  match l[i]? with
  | some a => ok a
  | none => ub

/-- `*p.add(i) = v`. -/
def wr (l : List α) (i : Nat) (v : α) : Res (List α) :=
  if i < l.length then ok (l.set i v) else ub

/-- `*p.add(i) = f(*p.add(i))`, e.g. `+=`. -/
def upd (l : List α) (i : Nat) (f : α → α) : Res (List α) :=
  rd l i >>= fun a => wr l i (f a)

/-- `v[i]` on a slice: panics outside. -/
def ix (l : List α) (i : Nat) : Res α :=
  match l[i]? with
  | some a => ok a
  | none => panic

theorem rd_eq {l : List α} {i : Nat} (h : i < l.length) : rd l i = ok l[i] := by
  simp [rd, List.getElem?_eq_getElem h]
theorem rd_some {l : List α} {i : Nat} {a : α} (h : l[i]? = some a) : rd l i = ok a := by simp [rd, h]
theorem rd_eq_ok {l : List α} {i : Nat} {a : α} : rd l i = ok a ↔ l[i]? = some a := by
  unfold rd; split <;> simp_all
theorem rd_none {l : List α} {i : Nat} (h : l.length ≤ i) : rd l i = ub := by
  simp [rd, List.getElem?_eq_none h]
theorem ix_eq {l : List α} {i : Nat} (h : i < l.length) : ix l i = ok l[i] := by
  simp [ix, List.getElem?_eq_getElem h]
theorem ix_none {l : List α} {i : Nat} (h : l.length ≤ i) : ix l i = panic := by
  simp [ix, List.getElem?_eq_none h]
theorem ix_some {l : List α} {i : Nat} {a : α} (h : l[i]? = some a) : ix l i = ok a := by simp [ix, h]
theorem ix_safe (l : List α) (i : Nat) : (ix l i).Safe := by unfold ix; split <;> simp
theorem wr_eq {l : List α} {i : Nat} (h : i < l.length) (v : α) : wr l i v = ok (l.set i v) := by
  simp [wr, h]
theorem upd_eq {l : List α} {i : Nat} (h : i < l.length) (f : α → α) :
    upd l i f = ok (l.set i (f l[i])) := by
  simp [upd, rd_eq h, wr_eq h]

/-- Total read used in specifications (default outside). -/
def at' [Inhabited α] (l : List α) (i : Nat) : α := (l[i]?).getD default

/-- The general rule for kernels that, in iteration `i`, modify at most one element `pos i` of the
output buffer by a function `g i` that does not depend on the output buffer. -/
theorem loop_accum {n : Nat} {y : List α} {body : Nat → List α → Res (List α)}
    (pos : Nat → Option Nat) (g : Nat → α → α)
    (hb : ∀ i, i < n → ∀ t : List α, t.length = y.length →
      body i t = match pos i with
        | some p => upd t p (g i)
        | none => ok t)
    (hpos : ∀ i, i < n → ∀ p, pos i = some p → p < y.length) :
    ∃ y' : List α, loop n body y = ok y' ∧ y'.length = y.length ∧
      ∀ k, y'[k]? = (y[k]?).map (foldN n (fun i a => if pos i = some k then g i a else a)) := by
  induction n with
  | zero =>
    refine ⟨y, rfl, rfl, fun k => ?_⟩
    cases h : y[k]? <;> simp
  | succ n ih =>
    obtain ⟨t, ht, hl, hk⟩ := ih (fun i hi => hb i (by omega)) (fun i hi => hpos i (by omega))
    rw [loop_succ, ht]
    show ∃ y', body n t = ok y' ∧ _
    rw [hb n (by omega) t hl]
    cases hp : pos n with
    | none =>
      refine ⟨t, rfl, hl, fun k => ?_⟩
      rw [hk k]
      cases y[k]? <;> simp [foldN_succ, hp]
    | some p =>
      have hpl : p < t.length := by rw [hl]; exact hpos n (by omega) p hp
      refine ⟨t.set p (g n t[p]), upd_eq hpl _, by simp [hl], fun k => ?_⟩
      rw [List.getElem?_set]
      by_cases hkp : p = k
      · subst hkp
        have h1 := hk p
        rw [List.getElem?_eq_getElem hpl] at h1
        cases hy : y[p]? with
        | none => rw [hy] at h1; simp at h1
        | some a =>
          rw [hy] at h1
          simp only [Option.map_some, Option.some.injEq] at h1
          simp [hpl, foldN_succ, hp, h1]
      · simp only [hkp, if_false]
        rw [hk k]
        cases y[k]? <;> simp [foldN_succ, hp, hkp]

/-- Special case: every iteration modifies exactly one element. -/
theorem loop_upd {n : Nat} {y : List α} {body : Nat → List α → Res (List α)}
    (pos : Nat → Nat) (g : Nat → α → α)
    (hb : ∀ i, i < n → ∀ t : List α, t.length = y.length → body i t = upd t (pos i) (g i))
    (hpos : ∀ i, i < n → pos i < y.length) :
    ∃ y' : List α, loop n body y = ok y' ∧ y'.length = y.length ∧
      ∀ k, y'[k]? = (y[k]?).map (foldN n (fun i a => if pos i = k then g i a else a)) := by
  obtain ⟨y', h1, h2, h3⟩ := loop_accum (fun i => some (pos i)) g
    (fun i hi t ht => by simpa using hb i hi t ht) (fun i hi p hp => by simp at hp; subst hp; exact hpos i hi)
  exact ⟨y', h1, h2, fun k => by simpa using h3 k⟩

theorem wr_eq_upd (t : List α) (p : Nat) (v : α) : wr t p v = upd t p (fun _ => v) := by
  by_cases h : p < t.length
  · rw [wr_eq h, upd_eq h]
  · simp [wr, h, upd, rd_none (Nat.le_of_not_lt h)]

/-- Special case: stores at pairwise distinct positions. -/
theorem loop_store {n : Nat} {y : List α} {body : Nat → List α → Res (List α)}
    (pos : Nat → Nat) (v : Nat → α)
    (hb : ∀ i, i < n → ∀ t : List α, t.length = y.length → body i t = wr t (pos i) (v i))
    (hpos : ∀ i, i < n → pos i < y.length)
    (hinj : ∀ i j, i < n → j < n → pos i = pos j → i = j) :
    ∃ y' : List α, loop n body y = ok y' ∧ y'.length = y.length ∧
      (∀ i, i < n → y'[pos i]? = some (v i)) ∧
      (∀ k, (∀ i, i < n → pos i ≠ k) → y'[k]? = y[k]?) := by
  obtain ⟨y', h1, h2, h3⟩ := loop_upd (body := body) pos (fun i _ => v i)
    (fun i hi t ht => by rw [hb i hi t ht, wr_eq_upd]) hpos
  refine ⟨y', h1, h2, fun i hi => ?_, fun k hk => ?_⟩
  · rw [h3, List.getElem?_eq_getElem (hpos i hi), Option.map_some,
      foldN_single i hi (fun j hj hne t => by
        rw [if_neg]; exact fun e => hne (hinj j i hj hi e))]
    simp
  · rw [h3, foldN_id' hk]
where
  foldN_id' {n : Nat} {y : List α} {pos : Nat → Nat} {v : Nat → α} {k : Nat}
      (hk : ∀ i, i < n → pos i ≠ k) :
      (y[k]?).map (foldN n (fun i a => if pos i = k then v i else a)) = y[k]? := by
    cases y[k]? with
    | none => rfl
    | some a => simp only [Option.map_some]; rw [foldN_id (fun i hi t => by rw [if_neg (hk i hi)])]

/-- Stores at `0, 1, …, n-1`. -/
theorem loop_store_id {n : Nat} {y : List α} {body : Nat → List α → Res (List α)}
    (v : Nat → α)
    (hb : ∀ i, i < n → ∀ t : List α, t.length = y.length → body i t = wr t i (v i))
    (hpos : n ≤ y.length) :
    ∃ y' : List α, loop n body y = ok y' ∧ y'.length = y.length ∧
      (∀ i, i < n → y'[i]? = some (v i)) ∧ (∀ k, n ≤ k → y'[k]? = y[k]?) := by
  obtain ⟨y', h1, h2, h3, h4⟩ := loop_store (fun i => i) v hb (fun i hi => by omega) (fun i j _ _ e => e)
  exact ⟨y', h1, h2, h3, fun k hk => h4 k (fun i hi => by omega)⟩

end Verif
