import Verif.ThreadsExec
import Verif.LifeSim2
import Verif.NodeLemmas
import Verif.PropsSafety
import Verif.PropsFw
import Verif.IntInst

/-!
# Property C58: threads that share a device

`Thd.Step` interleaves single memory accesses and lock operations of all threads; `Thd.AStep` is the same program on tensors that each
have their own array.
-/

set_option linter.unusedSimpArgs false
set_option linter.unusedSectionVars false

namespace Verif
namespace Thd
open Pool (classOf)
variable {α : Type} [Zero α] {progs : Nat → Prog α} {σ : St α}

/-- C58: under every schedule of the threads, at every moment, every tensor has the contents it has when all tensors have their own memory
and the same actions of the programs are executed in the same order. -/
theorem C58_independent_arrays (h : Reach progs σ) : AReach progs σ.abs := by
  induction h with
  | init => exact .init
  | step h hs ih =>
    rcases hs.refines h.inv with e | e
    · exact .step ih e
    · rw [e]; exact ih

/-- The shared tensors never change once they are there. -/
theorem AStep.shared {t : Nat} {a b : Abs α} (h : AStep t a b) {g : Nat} {x : Nat × (Nat → α)} (hx : a.val (.shared g) = some x) : b.val (.shared g) = some x := by
  cases h with
  | new | drop | read | write | send | recv => simp_all [upd]
  | publish _ _ s g' k y hp hy hg =>
    have : g ≠ g' := by rintro rfl; rw [hg] at hx; cases hx
    simp [upd, this, hx]

/-- The other threads do not touch a thread's tensors. -/
theorem AStep.other {t u : Nat} {a b : Abs α} (h : AStep u a b) (hne : t ≠ u) : b.prog t = a.prog t ∧ ∀ s, b.val (.own t s) = a.val (.own t s) := by
  cases h <;> simp [Pool.set, upd, hne]

theorem Alone.isPrivate {F : Nat → Option (Nat × (Nat → α))} {p q : Prog α} {v : Nat → Option (Nat × (Nat → α))} (h : Alone F p q v) (hp : p.Private) : q.Private := by
  induction h with
  | start => exact hp
  | new _ _ ih => exact ih
  | drop _ _ ih => exact ih
  | readOwn _ _ _ ih => exact ih _
  | readShared _ _ _ ih => exact ih _
  | write _ _ _ ih => exact ih

theorem own_set (f : Loc → Option (Nat × (Nat → α))) (t s : Nat) (x : Option (Nat × (Nat → α))) :
    (fun s' => upd f (.own t s) x (.own t s')) = Pool.set (fun s' => f (.own t s')) s x := by
  funext s'
  simp [upd, Pool.set]

theorem AReach.alone {a : Abs α} (h : AReach progs a) {t : Nat} (hp : (progs t).Private) {F : Nat → Option (Nat × (Nat → α))}
    (hF : ∀ g b, a.val (.shared g) = some b → F g = some b) : Alone F (progs t) (a.prog t) (fun s => a.val (.own t s)) := by
  induction h with
  | init => exact .start
  | step h hs ih =>
    rename_i a u b
    have ih := ih fun g x hx => hF g x (hs.shared hx)
    by_cases hne : t = u
    · subst hne
      have hpr := ih.isPrivate hp
      cases hs with
      | new _ _ s size k m e he => rw [e] at ih; simpa [set_same, own_set] using Alone.new m ih
      | drop _ _ s k x e he => rw [e] at ih; simpa [set_same, own_set] using Alone.drop ih he
      | read _ _ x i k size f e he hi =>
        rw [e] at ih
        cases x with
        | own s => simpa [set_same] using Alone.readOwn ih he hi
        | shared g => simpa [set_same] using Alone.readShared ih (hF g _ he) hi
      | write _ _ s i v k size f e he hi => rw [e] at ih; simpa [set_same, own_set] using Alone.write ih he hi
      | send _ _ s c k x e he hc => rw [e] at hpr; exact hpr.elim
      | recv _ _ s c k x e he => rw [e] at hpr; exact hpr.elim
      | publish _ _ s g k x e he hg => rw [e] at hpr; exact hpr.elim
    · obtain ⟨e1, e2⟩ := hs.other hne
      rw [e1]
      simp only [e2]
      exact ih

/-- C58: a thread that exchanges no tensors (it may read shared ones) does, under every schedule and whatever the other threads do, what
it does when it runs alone: the values it reads, what it computes from them and the contents of its tensors. -/
theorem C58_as_if_alone (h : Reach progs σ) {t : Nat} (hp : (progs t).Private) {F : Nat → Option (Nat × (Nat → α))}
    (hF : ∀ g b, σ.abs.val (.shared g) = some b → F g = some b) : Alone F (progs t) (σ.prog t) (fun s => σ.abs.val (.own t s)) :=
  (C58_independent_arrays h).alone hp hF

/-- C58: the other threads never change, free or recycle a buffer of a tensor: distinct tensors have distinct blocks, and no block of a
tensor is in an idle list of the pool or in the hands of a thread that is inside `new_handle` or `drop_handle`. -/
theorem C58_exclusive_blocks (h : Reach progs σ) {l : Loc} {a size : Nat} (hl : σ.ten l = some (a, size)) :
    (∀ l' size', σ.ten l' = some (a, size') → l' = l) ∧ (∀ s, a ∉ σ.sys.pool.free s) ∧ (∀ t, (σ.sys.thr t).handle ≠ some a) := by
  have hu : σ.sys.Holds .user a := ⟨size, h.inv.owned l a size hl⟩
  refine ⟨fun l' s' e => h.inv.inj _ _ _ _ _ e hl, fun s hs => ?_, fun t ht => ?_⟩
  · cases h.inv.sys.inv.excl _ (.idle s) _ hu hs
  · cases h.inv.sys.inv.excl _ (.thread t) _ hu ht

/-- C58 (no data races): when the next action of a thread writes to (or drops) a buffer, the next action of no other thread touches that
buffer. -/
theorem C58_no_data_race (h : Reach progs σ) {t u : Nat} (hne : t ≠ u) {l l' : Loc} {w : Bool} {a size size' : Nat}
    (ht : (σ.prog t).touches t = some (l, true)) (hl : σ.ten l = some (a, size)) (hu : (σ.prog u).touches u = some (l', w)) : σ.ten l' ≠ some (a, size') := by
  intro hl'
  have e := (C58_exclusive_blocks h hl).1 l' size' hl'
  subst e
  have h1 : ∃ s, l' = .own t s := by
    unfold Prog.touches at ht
    split at ht <;> simp at ht
    · exact ⟨_, ht.symm⟩
    · exact ⟨_, ht.symm⟩
  obtain ⟨s, rfl⟩ := h1
  unfold Prog.touches at hu
  split at hu
  · rename_i x i k _
    cases x <;> simp [Arg.loc] at hu
    exact hne hu.1.1.symm
  · simp at hu; exact hne hu.1.1.symm
  · simp at hu; exact hne hu.1.1.symm
  · cases hu

/-- C58: every tensor's block was made by the back end with the capacity that accesses are checked against, which is at least the
requested number of elements. -/
theorem C58_within_block (h : Reach progs σ) {l : Loc} {a size : Nat} (hl : σ.ten l = some (a, size)) :
    (a, cap size) ∈ σ.sys.pool.blocks ∧ ∃ s, classOf size = some s ∧ cap size = 2 ^ s := by
  obtain ⟨s, h1, _, h3⟩ := h.inv.sys.inv.owned a size (h.inv.owned l a size hl)
  have : cap size = 2 ^ s := by simp [cap, h1]
  exact ⟨this ▸ h3, s, h1, this⟩

/-- C58: a thread panics in the pool only when it asks for 0 or for more than 2^31 elements; a panic of one thread is no obstacle for the
others (the locks are never poisoned). -/
theorem C58_panics (h : Reach progs σ) : σ.sys.pool.poisoned = false ∧
    ∀ t, σ.sys.thr t = .panicked → ∃ s size k, σ.prog t = .new s size k ∧ (size = 0 ∨ 2 ^ 31 < size) := by
  refine ⟨(C11_no_panic h.inv.sys).1, fun t ht => ?_⟩
  obtain ⟨s, size, k, h1, h2, h3⟩ := h.inv.panicked t ht
  exact ⟨s, size, k, h1, (Pool.classOf_none_iff h2).mp h3⟩

theorem lift (I : Inv σ) {t : Nat} {τ : Sys} (hs : Sys.Step σ.sys τ) (hc : τ.thr t ≠ σ.sys.thr t) (hi : σ.sys.thr t ≠ .idle) :
    ∃ τ', Step t σ τ' ∧ τ'.sys = τ := by
  have key : ∀ (u : Nat) (x : Thr), τ.thr = Pool.set σ.sys.thr u x → u = t ∧ ∀ v, v ≠ t → τ.thr v = σ.sys.thr v := by
    intro u x e
    have hut : u = t := by
      by_contra hne
      rw [e, set_ne (Ne.symm hne)] at hc
      exact hc rfl
    subst hut
    exact ⟨rfl, fun v hv => by rw [e, set_ne hv]⟩
  cases hs with
  | callNew u size s h1 h2 => obtain ⟨rfl, _⟩ := key u _ rfl; exact (hi h1).elim
  | callNewPanic u size h1 h2 => obtain ⟨rfl, _⟩ := key u _ rfl; exact (hi h1).elim
  | newLock u size s h1 h2 => obtain ⟨rfl, k⟩ := key u _ rfl; exact ⟨_, .inCall σ u _ hi (.newLock _ u size s h1 h2) rfl k, rfl⟩
  | newBody u size s fresh h1 h2 => obtain ⟨rfl, k⟩ := key u _ rfl; exact ⟨_, .inCall σ u _ hi (.newBody _ u size s fresh h1 h2) rfl k, rfl⟩
  | regLock u size s a h1 h2 => obtain ⟨rfl, k⟩ := key u _ rfl; exact ⟨_, .inCall σ u _ hi (.regLock _ u size s a h1 h2) rfl k, rfl⟩
  | regBody u size s a P' h1 h2 =>
    obtain ⟨rfl, _⟩ := key u _ rfl
    obtain ⟨_, sl, k, e⟩ := I.call u size (by rw [h1]; rfl)
    exact ⟨_, .newReturn σ u sl size k s a P' e h1 h2, rfl⟩
  | regPanic u size s a h1 h2 => obtain ⟨rfl, k⟩ := key u _ rfl; exact ⟨_, .inCall σ u _ hi (.regPanic _ u size s a h1 h2) rfl k, rfl⟩
  | callDrop u a size h1 h2 => obtain ⟨rfl, _⟩ := key u _ rfl; exact (hi h1).elim
  | dropLock u a h1 h2 => obtain ⟨rfl, k⟩ := key u _ rfl; exact ⟨_, .inCall σ u _ hi (.dropLock _ u a h1 h2) rfl k, rfl⟩
  | dropBody u a h1 => obtain ⟨rfl, k⟩ := key u _ rfl; exact ⟨_, .inCall σ u _ hi (.dropBody _ u a h1) rfl k, rfl⟩
  | giveLock u s a h1 h2 => obtain ⟨rfl, k⟩ := key u _ rfl; exact ⟨_, .inCall σ u _ hi (.giveLock _ u s a h1 h2) rfl k, rfl⟩
  | giveBody u s a h1 => obtain ⟨rfl, k⟩ := key u _ rfl; exact ⟨_, .inCall σ u _ hi (.giveBody _ u s a h1) rfl k, rfl⟩

/-- C58 (no deadlock): if thread `t` could go on when all tensors have their own memory, or is inside a call of the pool, then it can take
a step, or a thread that holds one of the two mutexes can take a step, and that step releases it. -/
theorem C58_progress (h : Reach progs σ) {t : Nat} (hp : σ.sys.thr t ≠ .panicked) (ht : σ.sys.thr t ≠ .idle ∨ ∃ b, AStep t σ.abs b) :
    (∃ τ, Step t σ τ) ∨ (∃ u τ, σ.sys.lockP = some u ∧ Step u σ τ ∧ τ.sys.lockP = none) ∨
    (∃ u τ, σ.sys.lockR = some u ∧ Step u σ τ ∧ τ.sys.lockR = none) := by
  have I := h.inv
  have nidleP : ∀ u, σ.sys.lockP = some u → σ.sys.thr u ≠ .idle := by
    intro u hu e
    have := (I.sys.inv.lockP u).mp hu
    rw [e] at this; cases this
  have nidleR : ∀ u, σ.sys.lockR = some u → σ.sys.thr u ≠ .idle := by
    intro u hu e
    have := (I.sys.inv.lockR u).mp hu
    rw [e] at this; cases this
  by_cases hi : σ.sys.thr t = .idle
  · left
    rcases ht with hn | ⟨b, hb⟩
    · exact (hn hi).elim
    · cases hb with
      | new _ _ s size k m e he =>
        cases hc : classOf size with
        | none => exact ⟨_, .callNewPanic σ t s size k e he hi hc⟩
        | some c => exact ⟨_, .callNew σ t s size k c e he hi hc⟩
      | drop _ _ s k x e he =>
        simp only [St.abs, Option.map_eq_some_iff] at he
        obtain ⟨⟨a, size⟩, he, _⟩ := he
        exact ⟨_, .callDrop σ t s k a size e hi he⟩
      | read _ _ x i k size f e he hlt =>
        simp only [St.abs, Option.map_eq_some_iff] at he
        obtain ⟨⟨a, sz⟩, he, hh⟩ := he
        cases hh
        exact ⟨_, .read σ t x i k a _ e hi he hlt⟩
      | write _ _ s i v k size f e he hlt =>
        simp only [St.abs, Option.map_eq_some_iff] at he
        obtain ⟨⟨a, sz⟩, he, hh⟩ := he
        cases hh
        exact ⟨_, .write σ t s i v k a _ e hi he hlt⟩
      | send _ _ s c k x e he hc =>
        simp only [St.abs, Option.map_eq_some_iff, Option.map_eq_none_iff] at he hc
        obtain ⟨y, he, _⟩ := he
        exact ⟨_, .send σ t s c k y e hi he hc⟩
      | recv _ _ s c k x e he =>
        simp only [St.abs, Option.map_eq_some_iff] at he
        obtain ⟨y, he, _⟩ := he
        exact ⟨_, .recv σ t s c k y e hi he⟩
      | publish _ _ s g k x e he hg =>
        simp only [St.abs, Option.map_eq_some_iff, Option.map_eq_none_iff] at he hg
        obtain ⟨y, he, _⟩ := he
        exact ⟨_, .publish σ t s g k y e hi he hg⟩
  · rcases C11_no_deadlock I.sys hi hp with ⟨τ, h1, h2⟩ | ⟨u, τ, h1, h2, h3, h4⟩ | ⟨u, τ, h1, h2, h3, h4⟩
    · obtain ⟨τ', a, _⟩ := lift I h1 h2 hi
      exact .inl ⟨τ', a⟩
    · obtain ⟨τ', a, b⟩ := lift I h2 h3 (nidleP u h1)
      exact .inr (.inl ⟨u, τ', h1, a, b ▸ h4⟩)
    · obtain ⟨τ', a, b⟩ := lift I h2 h3 (nidleR u h1)
      exact .inr (.inr ⟨u, τ', h1, a, b ▸ h4⟩)

/-! ### Forward functions under every schedule -/

/-- What holds at the end of a program that runs alone. -/
def wp (F : Nat → Option (Nat × (Nat → α))) (Q : (Nat → Option (Nat × (Nat → α))) → Prop) : Prog α → (Nat → Option (Nat × (Nat → α))) → Prop
  | .done, v => Q v
  | .new s size k, v => ∀ m, wp F Q k (Pool.set v s (some (size, m)))
  | .drop s k, v => wp F Q k (Pool.set v s none)
  | .read (.own s) i k, v => ∀ size f, v s = some (size, f) → i < cap size → wp F Q (k (f i)) v
  | .read (.shared g) i k, v => ∀ size f, F g = some (size, f) → i < cap size → wp F Q (k (f i)) v
  | .write s i x k, v => ∀ size f, v s = some (size, f) → i < cap size → wp F Q k (Pool.set v s (some (size, Pool.set f i x)))
  | .send _ _ _, _ | .recv _ _ _, _ | .publish _ _ _, _ => True

theorem Alone.wp {F : Nat → Option (Nat × (Nat → α))} {Q : (Nat → Option (Nat × (Nat → α))) → Prop} {p q : Prog α} {v : Nat → Option (Nat × (Nat → α))}
    (h : Alone F p q v) (hp : Thd.wp F Q p (fun _ => none)) : Thd.wp F Q q v := by
  induction h with
  | start => exact hp
  | new m _ ih => exact ih m
  | drop _ _ ih => exact ih
  | readOwn _ h1 h2 ih => exact ih _ _ h1 h2
  | readShared _ h1 h2 ih => exact ih _ _ h1 h2
  | write _ h1 h2 ih => exact ih _ _ h1 h2

/-- The tensor an argument denotes for a thread alone. -/
def look (F v : Nat → Option (Nat × (Nat → α))) : Arg → Option (Nat × (Nat → α))
  | .own s => v s
  | .shared g => F g

theorem wp_readFrom {F : Nat → Option (Nat × (Nat → α))} {Q : (Nat → Option (Nat × (Nat → α))) → Prop} {v : Nat → Option (Nat × (Nat → α))} {a : Arg} {size : Nat}
    {f : Nat → α} (ha : look F v a = some (size, f)) : ∀ (n i : Nat) (k : List α → Prog α), wp F Q (k ((List.range' i n).map f)) v → wp F Q (readFrom a i n k) v := by
  intro n
  induction n with
  | zero => intro i k h; exact h
  | succ n ih =>
    intro i k h
    have step : ∀ size' f', look F v a = some (size', f') → wp F Q (readFrom a (i + 1) n fun l => k (f' i :: l)) v := by
      intro size' f' e
      rw [ha] at e; cases e
      exact ih (i + 1) _ (by simpa [List.range'_succ] using h)
    cases a with
    | own s => exact fun size' f' e _ => step size' f' e
    | shared g => exact fun size' f' e _ => step size' f' e

theorem wp_readMany {F : Nat → Option (Nat × (Nat → α))} {Q : (Nat → Option (Nat × (Nat → α))) → Prop} {v : Nat → Option (Nat × (Nat → α))} :
    ∀ (as : List (Arg × Nat)) (fs : List (Nat × (Nat → α))) (k : List (List α) → Prog α), as.map (fun a => look F v a.1) = fs.map some →
      wp F Q (k (List.zipWith (fun a b => (List.range a.2).map b.2) as fs)) v → wp F Q (readMany as k) v := by
  intro as
  induction as with
  | nil => intro fs k _ h; exact h
  | cons a as ih =>
    intro fs k e h
    cases fs with
    | nil => cases e
    | cons b fs =>
      simp only [List.map_cons, List.cons.injEq] at e
      refine wp_readFrom (size := b.1) (f := b.2) e.1 a.2 0 _ (ih fs _ e.2 ?_)
      simpa [List.range_eq_range'] using h

theorem wp_writeFrom {F : Nat → Option (Nat × (Nat → α))} {Q : (Nat → Option (Nat × (Nat → α))) → Prop} {k : Prog α} {s size : Nat} :
    ∀ (l : List α) (i : Nat) (v : Nat → Option (Nat × (Nat → α))) (f : Nat → α), v s = some (size, f) →
      (∀ f', (∀ j x, l[j]? = some x → f' (i + j) = x) → (∀ j, j < i → f' j = f j) → wp F Q k (Pool.set v s (some (size, f')))) → wp F Q (writeFrom s i l k) v := by
  intro l
  induction l with
  | nil =>
    intro i v f hv h
    have := h f (by simp) (fun _ _ => rfl)
    rwa [← hv, set_eq_self] at this
  | cons x l ih =>
    intro i v f hv h size' f' e _
    rw [hv] at e; cases e
    refine ih (i + 1) _ (Pool.set f i x) (set_same) fun f' h1 h2 => ?_
    rw [set_set]
    refine h f' (fun j y hj => ?_) (fun j hj => ?_)
    · cases j with
      | zero =>
        simp only [List.getElem?_cons_zero, Option.some.injEq] at hj
        rw [h2 (i + 0) (by omega), Nat.add_zero, set_same, hj]
      | succ j => rw [← h1 j y (by simpa using hj)]; congr 1; omega
    · rw [h2 j (by omega), set_ne (by omega)]

theorem private_readFrom (a : Arg) : ∀ (n i : Nat) (k : List α → Prog α), (∀ l, (k l).Private) → (readFrom a i n k).Private := by
  intro n
  induction n with
  | zero => intro i k h; exact h _
  | succ n ih => intro i k h v; exact ih _ _ fun l => h _

theorem private_readMany : ∀ (as : List (Arg × Nat)) (k : List (List α) → Prog α), (∀ l, (k l).Private) → (readMany as k).Private := by
  intro as
  induction as with
  | nil => intro k h; exact h _
  | cons a as ih => intro k h; exact private_readFrom _ _ _ _ fun l => ih _ fun ls => h _

theorem private_writeFrom (s : Nat) : ∀ (l : List α) (i : Nat) (k : Prog α), k.Private → (writeFrom s i l k).Private := by
  intro l
  induction l with
  | nil => intro i k h; exact h
  | cons x l ih => intro i k h; exact ih _ _ h

theorem private_straight {α : Type} [Flt α] (p : Profile) (d : Nat) : ∀ cs : List (Call α), (straight p d cs).Private := by
  intro cs
  induction cs with
  | nil => exact trivial
  | cons c cs ih =>
    simp only [straight, fwProg]
    split
    · split
      · refine private_readMany _ _ fun bufs => private_readFrom _ _ _ _ fun m => ?_
        split
        · exact private_writeFrom _ _ _ _ ih
        · exact trivial
      · exact trivial
    · exact trivial

end Thd

section
open Thd
variable {α : Type} [Flt α]

/-- The thread's variables hold the arrays `E`. -/
def Thd.Fit (d : Nat) (F v : Nat → Option (Nat × (Nat → α))) (E : Env α) : Prop :=
  ∀ a s f, E a = some (s, f) → ∃ g, look F v a = some (s.size, g) ∧ (view d s (s.size, g)).Holds d s f

theorem Thd.args_hold {d : Nat} {F v : Nat → Option (Nat × (Nat → α))} {E : Env α} (hv : Fit d F v E) :
    ∀ {as : List (Arg × Shape)} {ins : List (Shape × Arr α)}, as.map (fun a => E a.1) = ins.map some → as.map Prod.snd = ins.map Prod.fst →
      ∃ fs : List (Nat × (Nat → α)), as.map (fun a => look F v a.1) = fs.map some ∧
        HoldAll d (List.zipWith (fun (a : Arg × Shape) (b : Nat × (Nat → α)) => (⟨some d, a.2, some ((List.range (cap a.2.size)).map b.2), none⟩ : Tensor α)) as fs) ins := by
  intro as
  induction as with
  | nil =>
    intro ins ha _
    cases ins with
    | nil => exact ⟨[], rfl, .nil⟩
    | cons _ _ => cases ha
  | cons a as iha =>
    intro ins ha hsh
    cases ins with
    | nil => cases ha
    | cons i ins =>
      simp only [List.map_cons, List.cons.injEq] at ha hsh
      obtain ⟨fs, e1, e2⟩ := iha ha.2 hsh.2
      obtain ⟨g, g1, g2⟩ := hv a.1 i.1 i.2 ha.1
      refine ⟨(i.1.size, g) :: fs, by simp [g1, e1], .cons ?_ e2⟩
      dsimp only; rw [hsh.1]
      exact g2

theorem Thd.wp_straight {p : Profile} {d : Nat} {F : Nat → Option (Nat × (Nat → α))} {cs : List (Call α)} {E E' : Env α} (hc : Computes E cs E') :
    ∀ v, Fit d F v E → wp F (fun v' => Fit d F v' E') (straight p d cs) v := by
  induction hc with
  | nil => intro v h; exact h
  | @cons E E' c cs ins s ha hsh hy hs hsz hfit _ ih =>
    intro v hv
    -- the contents of the arguments
    obtain ⟨fs, hfs, hold⟩ := args_hold hv ha hsh
    have hops : c.op.shape p (c.args.map Prod.snd) = .ok s := by
      obtain ⟨y', e, hy'⟩ := Dev.fw_ok hold hs hsz hfit p (fun _ => 0)
      have := (Dev.fw_frame e).2.2.1
      rw [hold.shapes, ← hsh] at this
      rw [this, hy'.shape]
    have hn := Shape.sizeU_eq hsz p
    simp only [straight, fwProg, hops, hn]
    intro m
    have hlook : ∀ a : Arg, a ≠ .own c.y → look F (Pool.set v c.y (some (s.size, m))) a = look F v a := by
      intro a hne
      cases a with
      | own t => exact set_ne (fun q => hne (q ▸ rfl))
      | shared g => rfl
    have hmem : ∀ a ∈ c.args, a.1 ≠ .own c.y := by
      intro a hm e
      have : E a.1 ∈ ins.map some := ha ▸ List.mem_map.mpr ⟨a, hm, rfl⟩
      obtain ⟨x, _, hx⟩ := List.mem_map.mp this
      rw [e, hy] at hx; cases hx
    refine wp_readMany _ fs _ ?_ ?_
    · rw [List.map_map, ← hfs]
      exact List.map_congr_left fun a hm => hlook a.1 (hmem a hm)
    · refine wp_readFrom (size := s.size) (f := m) (by simp [look, set_same]) _ _ _ ?_
      obtain ⟨w, ew, hw⟩ := Dev.fw_ok hold hs hsz hfit p m
      unfold Dev.fw at ew
      simp only [Res.bind_eq_ok] at ew
      obtain ⟨_, _, s', hs', t1, hal, hcall⟩ := ew
      have hs'' : s' = s := by
        rw [hold.shapes, ← hsh, hops] at hs'
        cases hs'; rfl
      subst hs''
      simp only [Tensor.alloc, Tensor.new, hn, newBuf, Res.bind_eq_ok, Res.ok.injEq] at hal
      obtain ⟨_, _, _, _, _, _, _, rfl, b, hb, rfl⟩ := hal
      have hb' : b = (List.range (cap s'.size)).map m := by
        unfold cap
        split at hb <;> simp_all
      subst hb'
      have hz : List.zipWith (fun (a : Arg × Shape) b => (⟨some d, a.2, some b, none⟩ : Tensor α)) c.args
          (List.zipWith (fun (a : Arg × Nat) (b : Nat × (Nat → α)) => (List.range a.2).map b.2) (c.args.map fun a => (a.1, cap a.2.size)) fs) =
          List.zipWith (fun (a : Arg × Shape) (b : Nat × (Nat → α)) => (⟨some d, a.2, some ((List.range (cap a.2.size)).map b.2), none⟩ : Tensor α)) c.args fs := by
        generalize c.args = as
        clear * -
        induction as generalizing fs with
        | nil => rfl
        | cons a as iha => cases fs with
          | nil => rfl
          | cons b fs => simp [iha]
      simp only [hz, ← List.range_eq_range', hcall]
      obtain ⟨w1, w2, w3, w4⟩ := callFw_local p c.op.name _ c.op.u32data c.op.f32data _ w hcall
      obtain ⟨l, hl, hlen⟩ : ∃ l, w.buf = some l ∧ l.length = cap s'.size := by
        simp only [Option.map_some, List.length_map, List.length_range, Option.map_eq_some_iff] at w4
        exact w4
      simp only [hl, Option.getD_some]
      refine wp_writeFrom (size := s'.size) l 0 _ m set_same fun f' hf' _ => ?_
      rw [set_set]
      refine ih _ fun a sa fa ea => ?_
      by_cases haq : a = .own c.y
      · subst haq
        simp only [if_true, Option.some.injEq, Prod.mk.injEq] at ea
        obtain ⟨rfl, rfl⟩ := ea
        refine ⟨f', by simp [look, set_same], ?_⟩
        have : view d s' (s'.size, f') = w := by
          have hlf : (List.range (cap s'.size)).map f' = l := by
            refine List.ext_getElem? fun j => ?_
            by_cases hj : j < l.length
            · rw [List.getElem?_eq_getElem hj, List.getElem?_map, List.getElem?_range (by omega), Option.map_some]
              have := hf' j _ (List.getElem?_eq_getElem hj)
              rw [Nat.zero_add] at this
              rw [this]
            · rw [List.getElem?_eq_none (by simp; omega), List.getElem?_eq_none (by omega)]
          unfold view
          dsimp only at w1 w2 w3 ⊢
          rw [hlf]
          cases w; simp_all
        rw [this]
        exact hw
      · simp only [haq, if_false] at ea
        obtain ⟨g, g1, g2⟩ := hv a sa fa ea
        refine ⟨g, ?_, g2⟩
        rw [← g1]
        cases a with
        | own t => exact set_ne (fun q => haq (q ▸ rfl))
        | shared g => rfl

/-- C58: a thread that evaluates forward functions, on shared tensors and on its own results, gets the arrays that the definitions of
the functions give, under every schedule and whatever the other threads do on the same device (allocate, free, write, exchange tensors). -/
theorem C58_forward {progs : Nat → Prog α} {σ : Thd.St α} (h : Thd.Reach progs σ) {t d : Nat} {p : Profile} {cs : List (Thd.Call α)} {E E' : Env α}
    (hprog : progs t = straight p d cs) (hdone : σ.prog t = .done) (hc : Computes E cs E') (hown : ∀ s, E (.own s) = none)
    (hsh : ∀ g s f, E (.shared g) = some (s, f) → ∃ b, σ.abs.val (.shared g) = some (s.size, b) ∧ (view d s (s.size, b)).Holds d s f)
    {y : Nat} {s : Shape} {f : Arr α} (hy : E' (.own y) = some (s, f)) :
    ∃ b, σ.abs.val (.own t y) = some (s.size, b) ∧ (view d s (s.size, b)).Holds d s f := by
  have ha := C58_as_if_alone h (t := t) (F := fun g => σ.abs.val (.shared g)) (by rw [hprog]; exact private_straight p d cs) (fun g b e => e)
  have hw := ha.wp (Q := fun v' => Fit d (fun g => σ.abs.val (.shared g)) v' E') (by
    rw [hprog]
    refine wp_straight hc _ fun a s f e => ?_
    cases a with
    | own s => rw [hown] at e; cases e
    | shared g => exact hsh g s f e)
  rw [hdone] at hw
  exact hw (.own y) s f hy

end

/-! ### Non-vacuity -/

section
open Thd
attribute [local instance] intFlt

/-- Thread 0 shares a tensor with the element 5; thread 1 negates it; thread 2 writes 9 to a tensor, drops it, allocates again and sends the
new tensor to thread 3; thread 4 asks for 0 elements. -/
def Thd.exProgs : Nat → Prog ℤ
  | 0 => .new 0 1 (.write 0 0 5 (.publish 0 7 .done))
  | 1 => straight .debug 0 [⟨.un .neg, [(.shared 7, vecShape 1 1)], 0⟩]
  | 2 => .new 0 1 (.write 0 0 9 (.drop 0 (.new 1 2 (.send 1 3 .done))))
  | 3 => .recv 3 6 (.write 6 0 4 .done)
  | 4 => .new 0 0 .done
  | _ => .done

/-- Threads 0 and 2 alternate (they have to wait for each other's locks now and then), then thread 1 runs, interleaved with the others. -/
def Thd.exSched : List (Nat × Nat) :=
  ([0, 2, 0, 0, 2, 0, 2, 0, 0, 2, 2, 4, 2, 0, 2, 1, 2, 2, 1, 1, 2, 2, 1, 2, 1, 2, 2, 2, 2, 2, 3] ++ List.replicate 192 1 ++ [3]).zipIdx

/-- What is to be checked at the end of the schedule: threads 0 to 3 are finished, thread 4 has panicked, thread 1 has the result -5, the
tensor that thread 3 got from thread 2 (in the block that thread 2 had freed before) has the element that thread 3 wrote. -/
def Thd.exCheck (σ : Thd.St ℤ) : Bool :=
  ((List.range 4).all fun t => (σ.prog t).isDone) && ((σ.abs.val (.own 1 0)).any fun b => b.2 0 == -5) && ((σ.abs.val (.own 3 6)).any fun b => b.2 0 == 4) &&
  (σ.sys.thr 4 == .panicked) && ((σ.abs.val (.shared 7)).any fun b => b.1 == 1 && b.2 0 == 5) && (σ.ten (.own 3 6) == some (6, 2))

theorem Thd.ex_run : ∃ σ : Thd.St ℤ, Thd.Reach exProgs σ ∧ exCheck σ = true := exists_run exProgs exSched exCheck (by decide +kernel)

/-- Two threads about to access memory, one of them writing. -/
example : ∃ σ : Thd.St ℤ, Thd.Reach exProgs σ ∧ ((σ.prog 0).touches 0).any (fun x => x.2) = true ∧ (σ.ten (.own 0 0)).isSome = true ∧
    ((σ.prog 2).touches 2).any (fun x => x.2) = true ∧ (σ.ten (.own 2 0)).isSome = true ∧ (Thd.Prog.Private (exProgs 0) → False) ∧ (exProgs 1).Private := by
  obtain ⟨σ, h, e⟩ := exists_run exProgs ([0, 2, 0, 0, 2, 0, 2, 0, 2, 2].zipIdx)
    (fun σ => ((σ.prog 0).touches 0).any (fun x => x.2) && (σ.ten (.own 0 0)).isSome && ((σ.prog 2).touches 2).any (fun x => x.2) && (σ.ten (.own 2 0)).isSome)
    (by decide +kernel)
  simp only [Bool.and_eq_true] at e
  exact ⟨σ, h, e.1.1.1, e.1.1.2, e.1.2, e.2, fun h => h, private_straight _ _ _⟩

/-- The hypotheses of `C58_forward` are met in the run above: the result of thread 1 is the negative of what thread 0 shared. -/
example : ∃ σ : Thd.St ℤ, Thd.Reach exProgs σ ∧ ∃ b, σ.abs.val (.own 1 0) = some (1, b) ∧ (view 0 (vecShape 1 1) (1, b)).Holds 0 (vecShape 1 1) (fun _ _ => -5) := by
  obtain ⟨σ, h, e⟩ := ex_run
  refine ⟨σ, h, ?_⟩
  simp only [exCheck, Bool.and_eq_true] at e
  have hd : σ.prog 1 = .done := by
    have := List.all_eq_true.mp e.1.1.1.1.1 1 (by decide)
    revert this
    cases σ.prog 1 <;> simp [Prog.isDone]
  obtain ⟨b, hb, hb1, hb2⟩ : ∃ b, σ.abs.val (.shared 7) = some b ∧ b.1 = 1 ∧ b.2 0 = 5 := by
    have := e.1.2
    cases hv : σ.abs.val (.shared 7) with
    | none => rw [hv] at this; cases this
    | some b =>
      rw [hv] at this
      simp only [Option.any_some, Bool.and_eq_true, beq_iff_eq] at this
      exact ⟨b, rfl, this⟩
  have hc : Computes (α := ℤ) (fun a => if a = .shared 7 then some (vecShape 1 1, fun _ _ => 5) else none) [⟨.un .neg, [(.shared 7, vecShape 1 1)], 0⟩]
      (fun a => if a = .own 0 then some (vecShape 1 1, (FwOp.un Un.neg).sem [(vecShape 1 1, fun _ _ => (5 : ℤ))]) else if a = .shared 7 then some (vecShape 1 1, fun _ _ => 5) else none) :=
    .cons (ins := [(vecShape 1 1, fun _ _ => 5)]) rfl rfl rfl rfl (by decide) trivial .nil
  refine C58_forward h (cs := [⟨.un .neg, [(.shared 7, vecShape 1 1)], 0⟩]) (y := 0) (s := vecShape 1 1) rfl hd hc (fun _ => rfl) (fun g s f hg => ?_) rfl
  split at hg
  · rename_i hgg
    cases hgg
    cases hg
    obtain ⟨n, f⟩ := b
    dsimp only at hb1 hb2
    subst hb1
    refine ⟨f, hb, rfl, rfl, rfl, vecShape_wf rfl, by decide, _, rfl, by simp only [List.length_map, List.length_range]; decide, fun c b' hv => ?_⟩
    have h0 : (vecShape 1 1).offset c b' < 1 := (vecShape_wf rfl).offset_lt hv
    have : (vecShape 1 1).offset c b' = 0 := by omega
    dsimp only
    rw [this, List.getElem?_map, List.getElem?_range (by decide), Option.map_some, hb2]
  · cases hg

end

end Verif
