import Verif.RandomLock
import Verif.PropsInit
import Verif.IntInst

/-!
# Property C59: a refused random call disables the random functions of its device
-/

set_option linter.unusedSectionVars false
set_option linter.unusedSimpArgs false

namespace Verif
open Res
variable {α : Type} [Flt α]

/-- The arguments the distributions accept. -/
def RandCall.Accepted : RandCall α → Prop
  | .bernoulli _ p => Flt.le 0 p = true ∧ Flt.le p 1 = true
  | .normal _ _ sd => Flt.le 0 sd = true
  | .uniform _ lower upper => Flt.gt upper lower = true

/-- The pool can make a block for the result (otherwise the call panics before it reaches the randomizer). -/
def RandCall.Sized (p : Profile) (c : RandCall α) : Prop := ∃ n, c.shape.sizeU p = ok n ∧ 0 < n ∧ n ≤ 2 ^ 31

/-- The samples the call is to store. -/
def RandCall.sample (r : Rng α) : RandCall α → Nat → α
  | .bernoulli _ p => fun i => if r.coin p i then 1 else 0
  | .normal _ mean sd => r.normal mean sd
  | .uniform _ lower upper => r.uniform lower upper

theorem RandCall.fill_eq (r : Rng α) (c : RandCall α) : (c.Accepted → c.fill r = ok (c.sample r)) ∧ (¬ c.Accepted → c.fill r = panic) := by
  cases c with
  | bernoulli s p =>
    constructor
    · intro h
      simp only [RandCall.Accepted] at h
      simp only [RandCall.fill, Rng.fillBernoulli, Rng.fillNormal, Rng.fillUniform]
      rw [check_true _ h]; rfl
    · intro h
      simp only [RandCall.Accepted] at h
      simp only [RandCall.fill, Rng.fillBernoulli, Rng.fillNormal, Rng.fillUniform]
      rw [check_false _ h]; rfl
  | normal s a b =>
    constructor
    · intro h
      simp only [RandCall.Accepted] at h
      simp only [RandCall.fill, Rng.fillBernoulli, Rng.fillNormal, Rng.fillUniform]
      rw [check_true _ h]; rfl
    · intro h
      simp only [RandCall.Accepted] at h
      simp only [RandCall.fill, Rng.fillBernoulli, Rng.fillNormal, Rng.fillUniform]
      rw [check_false _ h]; rfl
  | uniform s a b =>
    constructor
    · intro h
      simp only [RandCall.Accepted] at h
      simp only [RandCall.fill, Rng.fillBernoulli, Rng.fillNormal, Rng.fillUniform]
      rw [check_true _ h]; rfl
    · intro h
      simp only [RandCall.Accepted] at h
      simp only [RandCall.fill, Rng.fillBernoulli, Rng.fillNormal, Rng.fillUniform]
      rw [check_false _ h]; rfl

theorem RandCall.run_unsized {p : Profile} {c : RandCall α} (hc : ¬ c.Sized p) (d : Nat) (m : Nat → α) (r : Rng α) (q : Bool) : c.run p d m r q = (q, panic) := by
  have h : (Tensor.new d c.shape : Tensor α).alloc p m = panic := by
    unfold Tensor.alloc
    rw [check_true _ (by rfl), ok_bind, check_true _ (by rfl), ok_bind]
    show (ok d >>= fun _ => _) = _
    rw [ok_bind]
    show (c.shape.sizeU p >>= fun _ => _) = _
    have hs := Shape.sizeU_safe p c.shape
    cases hn : c.shape.sizeU p with
    | panic => rfl
    | ub => exact (hs hn).elim
    | ok n =>
      have hlt : n < U32 := by
        unfold Shape.sizeU umul u32 at hn
        split at hn
        · cases hn; assumption
        · cases p <;> simp at hn
          rw [← hn]; exact Nat.mod_lt _ (by decide)
      have : Pool.classOf n = none := by
        rw [Pool.classOf_none_iff hlt]
        by_contra hcon
        exact hc ⟨n, hn, by omega, by omega⟩
      rw [ok_bind]
      simp only [newBuf, this]
      rfl
  simp only [RandCall.run, h]

theorem RandCall.run_sized {p : Profile} {c : RandCall α} (hc : c.Sized p) (d : Nat) (m : Nat → α) (r : Rng α) :
    (c.run p d m r true = (true, panic)) ∧ (¬ c.Accepted → c.run p d m r false = (true, panic)) ∧
    (c.Accepted → (c.run p d m r false).1 = false ∧ ∃ y, (c.run p d m r false).2 = ok y) := by
  obtain ⟨n, hn, h0, h31⟩ := hc
  obtain ⟨h1, h2⟩ := c.fill_eq r
  have hlt : n < U32 := by unfold U32; omega
  obtain ⟨k, hk⟩ : ∃ k, Pool.classOf n = some k := by
    cases h : Pool.classOf n with
    | some k => exact ⟨k, rfl⟩
    | none => rcases (Pool.classOf_none_iff hlt).mp h with e | e <;> omega
  have hal : (Tensor.new d c.shape : Tensor α).alloc p m = ok ⟨some d, c.shape, some ((List.range (2 ^ k)).map m), none⟩ := by
    unfold Tensor.alloc
    rw [check_true _ (by rfl), ok_bind, check_true _ (by rfl), ok_bind]
    show (ok d >>= fun _ => _) = _
    rw [ok_bind]
    show (c.shape.sizeU p >>= fun _ => _) = _
    rw [hn, ok_bind]
    simp only [newBuf, hk]
    rfl
  have hcap : n ≤ 2 ^ k := by have := ((Pool.classOf_iff hlt).mp hk).2.2.1; omega
  simp only [RandCall.run, hal, K.randomLocked, Tensor.ptr, unwrap, hn, if_true, true_and]
  refine ⟨fun h => by rw [h2 h]; rfl, fun h => ?_⟩
  rw [h1 h]
  refine ⟨rfl, ?_⟩
  obtain ⟨l', e⟩ : ∃ l', loop n (fun i py => wr py i (c.sample r i)) ((List.range (2 ^ k)).map m) = ok l' := by
    have pw : PW ((List.range (2 ^ k)).map m).length (loop n fun i py => wr py i (c.sample r i)) (fun j => foldN n (fun i a => if j = i then c.sample r i else a)) :=
      PW.loop fun i hi => (PW.wr (by simp; omega))
    obtain ⟨l', e, _⟩ := pw _ rfl
    exact ⟨l', e⟩
  exact ⟨_, by simp only [Bool.false_eq_true, if_false, e, ok_bind]; rfl⟩

/-- C59: after any history of random calls with caught panics the randomizer is unusable if and only if one of them, with a size that the
pool accepts, had arguments that its distribution refuses. -/
theorem C59_disabled_iff (p : Profile) (d : Nat) (hist : List (RandCall α × (Nat → α) × Rng α)) :
    RandCall.after p d false hist = true ↔ ∃ c m r, (c, m, r) ∈ hist ∧ c.Sized p ∧ ¬ c.Accepted := by
  have stuck : ∀ hist : List (RandCall α × (Nat → α) × Rng α), RandCall.after p d true hist = true := by
    intro hist
    induction hist with
    | nil => rfl
    | cons x hist ih =>
      obtain ⟨c, m, r⟩ := x
      have : (c.run p d m r true).1 = true := by
        by_cases h : c.Sized p
        · rw [(c.run_sized h d m r).1]
        · rw [c.run_unsized h]
      simp only [RandCall.after, this, ih]
  induction hist with
  | nil => simp [RandCall.after]
  | cons x hist ih =>
    obtain ⟨c, m, r⟩ := x
    simp only [RandCall.after]
    by_cases h : c.Sized p
    · by_cases ha : c.Accepted
      · rw [((c.run_sized h d m r).2.2 ha).1]
        refine ih.trans ⟨?_, ?_⟩
        · rintro ⟨c', m', r', h1, h2⟩; exact ⟨c', m', r', List.mem_cons_of_mem _ h1, h2⟩
        · rintro ⟨c', m', r', h1, h2, h3⟩
          rcases List.mem_cons.mp h1 with e | h1
          · cases e; exact (h3 ha).elim
          · exact ⟨c', m', r', h1, h2, h3⟩
      · rw [(c.run_sized h d m r).2.1 ha, stuck]
        exact ⟨fun _ => ⟨c, m, r, List.mem_cons_self, h, ha⟩, fun _ => rfl⟩
    · rw [c.run_unsized h]
      refine ih.trans ⟨?_, ?_⟩
      · rintro ⟨c', m', r', h1, h2⟩; exact ⟨c', m', r', List.mem_cons_of_mem _ h1, h2⟩
      · rintro ⟨c', m', r', h1, h2, h3⟩
        rcases List.mem_cons.mp h1 with e | h1
        · cases e; exact (h h2).elim
        · exact ⟨c', m', r', h1, h2, h3⟩

/-- C59: a random call panics exactly if the pool refuses its size, its distribution refuses its arguments, or an earlier call on the device
(of any of the three functions) had refused arguments; otherwise it returns. -/
theorem C59_panics_iff (p : Profile) (d : Nat) (hist : List (RandCall α × (Nat → α) × Rng α)) (c : RandCall α) (m : Nat → α) (r : Rng α) :
    ((c.run p d m r (RandCall.after p d false hist)).2 = panic ↔
      ¬ c.Sized p ∨ ¬ c.Accepted ∨ ∃ c' m' r', (c', m', r') ∈ hist ∧ c'.Sized p ∧ ¬ c'.Accepted) ∧
    (c.run p d m r (RandCall.after p d false hist)).2 ≠ ub := by
  rw [← C59_disabled_iff p d hist]
  by_cases h : c.Sized p
  · cases hq : RandCall.after p d false hist with
    | true => rw [(c.run_sized h d m r).1]; simp
    | false =>
      by_cases ha : c.Accepted
      · obtain ⟨_, y, e⟩ := (c.run_sized h d m r).2.2 ha
        rw [e]; simp [h, ha]
      · rw [(c.run_sized h d m r).2.1 ha]; simp [ha]
  · rw [c.run_unsized h]; simp [h]

/-- C59: as long as no call had refused arguments, the functions do what C52 says: each element gets its own sample. -/
theorem C59_samples {p : Profile} {d : Nat} {hist : List (RandCall α × (Nat → α) × Rng α)} (hh : ∀ c m r, (c, m, r) ∈ hist → c.Sized p → c.Accepted)
    {c : RandCall α} (hc : c.Accepted) (hs : c.shape.WF) (hsz : c.shape.size ≤ 2 ^ 31) (m : Nat → α) (r : Rng α) :
    Yields (c.run p d m r (RandCall.after p d false hist)).2 d c.shape (fun x b => c.sample r (c.shape.offset x b)) := by
  have hq : RandCall.after p d false hist = false := by
    rw [← Bool.not_eq_true, C59_disabled_iff]
    rintro ⟨c', m', r', h1, h2, h3⟩
    exact h3 (hh c' m' r' h1 h2)
  obtain ⟨y, e, hr⟩ := Tensor.alloc_new hs hsz p d m
  obtain ⟨y', e2, hy⟩ := K.random_ok (p := p) (g := c.sample r) hr
  obtain ⟨ly, hpy, _, hly⟩ := hr.ptr
  refine ⟨y', ?_, hy.holds fun _ _ _ => rfl⟩
  simp only [K.random, ok_bind, hr.shape, Shape.sizeU_eq hr.small, hpy] at e2
  simp only [RandCall.run, hq, e, K.randomLocked, hpy, hr.shape, Shape.sizeU_eq hr.small, Bool.false_eq_true, if_false, (c.fill_eq r).1 hc]
  exact e2

/-- C59 (what a user would expect is false): after `random_bernoulli(s, 2)`, whose panic is caught, every random function of the device panics,
whatever its arguments. -/
theorem C59_caught_panic_disables (p : Profile) (d : Nat) {α : Type} [Flt α] {k : α} (hk : Flt.le k 1 = false) {s : Shape} (hs : RandCall.Sized p (.bernoulli s k))
    (m : Nat → α) (r : Rng α) (c : RandCall α) (m' : Nat → α) (r' : Rng α) :
    (c.run p d m' r' (RandCall.after p d false [(.bernoulli s k, m, r)])).2 = panic :=
  (C59_panics_iff p d _ c m' r').1.mpr (.inr (.inr ⟨_, m, r, List.mem_cons_self, hs, fun h => by have h2 := h.2; rw [hk] at h2; cases h2⟩))

section
attribute [local instance] intFlt

/-- Non-vacuity: `random_uniform(shape, 0, 1)` works on a new device, and panics after `random_bernoulli` with
probability 2. -/
example (r : Rng ℤ) : let u : RandCall ℤ := .uniform (vecShape 3 1) 0 1
    ((u.run .debug 0 (fun _ => 7) r (RandCall.after (α := ℤ) .debug 0 false [])).2 ≠ Res.panic) ∧
    (u.run .debug 0 (fun _ => 7) r (RandCall.after (α := ℤ) .debug 0 false [(.bernoulli (vecShape 3 1) 2, fun _ => 0, r)])).2 = Res.panic ∧ u.Accepted ∧ u.Sized .debug := by
  have hs : RandCall.Sized .debug (.uniform (vecShape 3 1) 0 1 : RandCall ℤ) := ⟨3, rfl, by decide, by decide⟩
  refine ⟨fun h => ?_, C59_caught_panic_disables .debug 0 (k := (2 : ℤ)) rfl ⟨3, rfl, by decide, by decide⟩ _ _ _ _ _, rfl, hs⟩
  rcases (C59_panics_iff .debug 0 [] _ _ r).1.mp h with h | h | ⟨_, _, _, h, _⟩
  · exact h hs
  · exact h rfl
  · cases h

end

end Verif
