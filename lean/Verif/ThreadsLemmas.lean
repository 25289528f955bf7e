import Verif.ThreadsSpec

/-! # Invariant of the machine of `Threads.lean` -/

set_option linter.unusedSimpArgs false

namespace Verif
namespace Thd
open Pool (classOf)
variable {α : Type}

theorem upd_same {β : Type} {f : Loc → β} {l : Loc} {v : β} : upd f l v l = v := by simp [upd]
theorem upd_ne {β : Type} {f : Loc → β} {l l' : Loc} {v : β} (h : l' ≠ l) : upd f l v l' = f l' := by simp [upd, h]
theorem set_same {β : Type} {f : Nat → β} {i : Nat} {v : β} : Pool.set f i v i = v := by simp [Pool.set]
theorem set_ne {β : Type} {f : Nat → β} {i j : Nat} {v : β} (h : j ≠ i) : Pool.set f i v j = f j := by simp [Pool.set, h]

/-- Size of the request of a thread that is inside `new_handle`. -/
def newSize : Thr → Option Nat
  | .newWait size _ | .newIn size _ | .regWait size _ _ | .regIn size _ _ => some size
  | _ => none

structure Inv (σ : St α) : Prop where
  sys : σ.sys.Reach
  owned : ∀ l h size, σ.ten l = some (h, size) → (h, size) ∈ σ.sys.owned
  inj : ∀ l l' h s s', σ.ten l = some (h, s) → σ.ten l' = some (h, s') → l = l'
  call : ∀ t size, newSize (σ.sys.thr t) = some size → size < U32 ∧ ∃ s k, σ.prog t = .new s size k
  panicked : ∀ t, σ.sys.thr t = .panicked → ∃ s size k, σ.prog t = .new s size k ∧ size < U32 ∧ classOf size = none

theorem Inv.init [Zero α] (progs : Nat → Prog α) : Inv (St.init progs) where
  sys := .init
  owned := fun _ _ _ h => by cases h
  inj := fun _ _ _ _ _ h => by cases h
  call := fun t size h => by simp [St.init, Sys.init, newSize] at h
  panicked := fun t h => by simp [St.init, Sys.init] at h

/-- A step inside a call is made by the thread that is in the call; it stays in the same call. -/
theorem inCall_thr {σ τ : Sys} (h : σ.Reach) {t : Nat} (hi : σ.thr t ≠ .idle) (hs : Sys.Step σ τ) (ho : τ.owned = σ.owned)
    (hu : ∀ u, u ≠ t → τ.thr u = σ.thr u) :
    (newSize (τ.thr t) = newSize (σ.thr t)) ∧ τ.thr t ≠ .panicked := by
  have key : ∀ (u : Nat) (x : Thr), σ.thr u ≠ x → τ.thr = Pool.set σ.thr u x → u = t := by
    intro u x hx e
    by_contra hne
    have := hu u hne
    rw [e, set_same] at this
    exact hx this.symm
  cases hs with
  | callNew u size s h1 h2 => obtain rfl := key u _ (by rw [h1]; simp) rfl; exact (hi h1).elim
  | callNewPanic u size h1 h2 => obtain rfl := key u _ (by rw [h1]; simp) rfl; exact (hi h1).elim
  | newLock u size s h1 h2 => obtain rfl := key u _ (by rw [h1]; simp) rfl; simp [set_same, h1, newSize]
  | newBody u size s fresh h1 h2 => obtain rfl := key u _ (by rw [h1]; simp) rfl; simp [set_same, h1, newSize]
  | regLock u size s a h1 h2 => obtain rfl := key u _ (by rw [h1]; simp) rfl; simp [set_same, h1, newSize]
  | regBody u size s a P' h1 h2 => exact absurd (congrArg List.length ho) (by simp)
  | regPanic u size s a h1 h2 => exact ((C11_no_panic h).2.2 u size s a h1 h2).elim
  | callDrop u a size h1 h2 => obtain rfl := key u _ (by rw [h1]; simp) rfl; exact (hi h1).elim
  | dropLock u a h1 h2 => obtain rfl := key u _ (by rw [h1]; simp) rfl; simp [set_same, h1, newSize]
  | dropBody u a h1 =>
    have hp := (C11_no_panic h).2.1 u a h1
    obtain ⟨s, hs⟩ := Option.ne_none_iff_exists'.mp hp
    obtain rfl := key u _ (by rw [h1, hs]; simp [Sys.afterUnreg]) rfl
    simp [set_same, h1, newSize, hs, Sys.afterUnreg]
  | giveLock u s a h1 h2 => obtain rfl := key u _ (by rw [h1]; simp) rfl; simp [set_same, h1, newSize]
  | giveBody u s a h1 => obtain rfl := key u _ (by rw [h1]; simp) rfl; simp [set_same, h1, newSize]

theorem user_block {σ : Sys} (h : σ.Reach) {a size : Nat} (ho : (a, size) ∈ σ.owned) : a ∈ σ.pool.blocks.map Prod.fst :=
  h.inv.holds_block (p := .user) ⟨size, ho⟩

theorem idle_prog {σ : St α} (I : Inv σ) {t u : Nat} {k : Prog α} (ht : σ.sys.thr t = .idle) (size : Nat) (h : newSize (σ.sys.thr u) = some size) :
    size < U32 ∧ ∃ s k', Pool.set σ.prog t k u = .new s size k' := by
  have hne : u ≠ t := by rintro rfl; rw [ht] at h; cases h
  rw [set_ne hne]
  exact I.call u size h

theorem idle_panicked {σ : St α} (I : Inv σ) {t u : Nat} {k : Prog α} (ht : σ.sys.thr t = .idle) (h : σ.sys.thr u = .panicked) :
    ∃ s size k', Pool.set σ.prog t k u = .new s size k' ∧ size < U32 ∧ classOf size = none := by
  have hne : u ≠ t := by rintro rfl; rw [ht] at h; cases h
  rw [set_ne hne]
  exact I.panicked u h

/-- Moving a tensor keeps the tensors distinct. -/
theorem inj_move {f : Loc → Option (Nat × Nat)} {l l' : Loc} {b : Nat × Nat}
    (hi : ∀ x y h s s', f x = some (h, s) → f y = some (h, s') → x = y) (hl : f l = some b) :
    ∀ x y h s s', upd (upd f l none) l' (some b) x = some (h, s) → upd (upd f l none) l' (some b) y = some (h, s') → x = y := by
  obtain ⟨b1, b2⟩ := b
  have aux : ∀ x h s, x ≠ l' → upd (upd f l none) l' (some (b1, b2)) x = some (h, s) → f x = some (h, s) ∧ x ≠ l := by
    intro x h s hx e
    rw [upd_ne hx] at e
    by_cases hxl : x = l
    · subst hxl; rw [upd_same] at e; cases e
    · rw [upd_ne hxl] at e; exact ⟨e, hxl⟩
  intro x y h s s' ex ey
  by_cases hx : x = l' <;> by_cases hy : y = l'
  · rw [hx, hy]
  · subst hx
    rw [upd_same] at ex; cases ex
    obtain ⟨e, hne⟩ := aux y _ _ hy ey
    exact (hne (hi _ _ _ _ _ e hl)).elim
  · subst hy
    rw [upd_same] at ey; cases ey
    obtain ⟨e, hne⟩ := aux x _ _ hx ex
    exact (hne (hi _ _ _ _ _ e hl)).elim
  · exact hi _ _ _ _ _ (aux x _ _ hx ex).1 (aux y _ _ hy ey).1

theorem owned_move {f : Loc → Option (Nat × Nat)} {l l' : Loc} {b : Nat × Nat} {o : List (Nat × Nat)}
    (ho : ∀ x h s, f x = some (h, s) → (h, s) ∈ o) (hl : f l = some b) :
    ∀ x h s, upd (upd f l none) l' (some b) x = some (h, s) → (h, s) ∈ o := by
  intro x h s e
  by_cases hx : x = l'
  · subst hx; rw [upd_same] at e; cases e; exact ho l _ _ hl
  · rw [upd_ne hx] at e
    by_cases hxl : x = l
    · subst hxl; rw [upd_same] at e; cases e
    · rw [upd_ne hxl] at e; exact ho _ _ _ e

theorem Inv.step [Zero α] {σ τ : St α} {t : Nat} (I : Inv σ) (h : Step t σ τ) : Inv τ := by
  cases h with
  | callNew _ _ s size k c hp hlt hi hc =>
    refine ⟨I.sys.step (.callNew _ t size c hi hc), I.owned, I.inj, fun u sz hu => ?_, fun u hu => ?_⟩
    · by_cases hne : u = t
      · subst hne; simp only [set_same, newSize, Option.some.injEq] at hu; subst hu; exact ⟨hlt, s, k, hp⟩
      · simp only [set_ne hne] at hu; exact I.call u sz hu
    · by_cases hne : u = t
      · subst hne; simp [set_same] at hu
      · simp only [set_ne hne] at hu; exact I.panicked u hu
  | callNewPanic _ _ s size k hp hlt hi hc =>
    refine ⟨I.sys.step (.callNewPanic _ t size hi hc), I.owned, I.inj, fun u sz hu => ?_, fun u hu => ?_⟩
    · by_cases hne : u = t
      · subst hne; simp [set_same, newSize] at hu
      · simp only [set_ne hne] at hu; exact I.call u sz hu
    · by_cases hne : u = t
      · subst hne; exact ⟨s, size, k, hp, hlt, hc⟩
      · simp only [set_ne hne] at hu; exact I.panicked u hu
  | inCall _ _ τ' hi hs ho hu =>
    obtain ⟨h1, h2⟩ := inCall_thr I.sys hi hs ho hu
    refine ⟨I.sys.step hs, fun l h size e => ho ▸ I.owned l h size e, I.inj, fun u sz e => ?_, fun u e => ?_⟩
    · by_cases hne : u = t
      · subst hne; exact I.call u sz (h1 ▸ e)
      · rw [hu u hne] at e; exact I.call u sz e
    · by_cases hne : u = t
      · subst hne; exact (h2 e).elim
      · rw [hu u hne] at e; exact I.panicked u e
  | newReturn _ _ s size k c a P' hp ht hr =>
    have hfresh : ∀ l sz, σ.ten l ≠ some (a, sz) := by
      intro l sz e
      have h1 : σ.sys.Holds .user a := ⟨sz, I.owned l a sz e⟩
      have h2 : σ.sys.Holds (.thread t) a := by simp [Sys.Holds, ht, Thr.handle]
      cases I.sys.inv.excl _ _ _ h1 h2
    refine ⟨I.sys.step (.regBody _ t size c a P' ht hr), fun l b sz e => ?_, fun l l' b sz sz' e e' => ?_, fun u sz hu => ?_, fun u hu => ?_⟩
    · by_cases hl : l = .own t s
      · subst hl; simp only [upd_same, Option.some.injEq] at e; rw [← e]; exact List.mem_cons_self
      · simp only [upd_ne hl] at e; exact List.mem_cons_of_mem _ (I.owned l b sz e)
    · by_cases hl : l = .own t s <;> by_cases hl' : l' = .own t s
      · rw [hl, hl']
      · subst hl; simp only [upd_same, upd_ne hl', Option.some.injEq] at e e'; cases e; exact (hfresh _ _ e').elim
      · subst hl'; simp only [upd_same, upd_ne hl, Option.some.injEq] at e e'; cases e'; exact (hfresh _ _ e).elim
      · simp only [upd_ne hl, upd_ne hl'] at e e'; exact I.inj _ _ _ _ _ e e'
    · by_cases hne : u = t
      · subst hne; simp [set_same, newSize] at hu
      · simp only [set_ne hne] at hu ⊢; exact I.call u sz hu
    · by_cases hne : u = t
      · subst hne; simp [set_same] at hu
      · simp only [set_ne hne] at hu ⊢; exact I.panicked u hu
  | callDrop _ _ s k a size hp hi he =>
    refine ⟨I.sys.step (.callDrop _ t a size hi (I.owned _ _ _ he)), fun l b sz e => ?_, fun l l' b sz sz' e e' => ?_, fun u sz hu => ?_, fun u hu => ?_⟩
    · by_cases hl : l = .own t s
      · subst hl; simp [upd_same] at e
      · simp only [upd_ne hl] at e
        have hb : b ≠ a := fun q => hl (I.inj _ _ _ _ _ (q ▸ e) he)
        exact (List.mem_erase_of_ne (by simp [hb])).mpr (I.owned l b sz e)
    · by_cases hl : l = .own t s
      · subst hl; simp [upd_same] at e
      · by_cases hl' : l' = .own t s
        · subst hl'; simp [upd_same] at e'
        · simp only [upd_ne hl, upd_ne hl'] at e e'; exact I.inj _ _ _ _ _ e e'
    · by_cases hne : u = t
      · subst hne; simp [set_same, newSize] at hu
      · simp only [set_ne hne] at hu ⊢; exact I.call u sz hu
    · by_cases hne : u = t
      · subst hne; simp [set_same] at hu
      · simp only [set_ne hne] at hu ⊢; exact I.panicked u hu
  | read _ _ a i k b size hp hi he hlt =>
    exact ⟨I.sys, I.owned, I.inj, fun u sz hu => idle_prog I hi sz hu, fun u hu => idle_panicked I hi hu⟩
  | write _ _ s i v k b size hp hi he hlt =>
    exact ⟨I.sys, I.owned, I.inj, fun u sz hu => idle_prog I hi sz hu, fun u hu => idle_panicked I hi hu⟩
  | send _ _ s c k b hp hi he hc =>
    exact ⟨I.sys, owned_move I.owned he, inj_move I.inj he, fun u sz hu => idle_prog I hi sz hu, fun u hu => idle_panicked I hi hu⟩
  | recv _ _ s c k b hp hi he =>
    exact ⟨I.sys, owned_move I.owned he, inj_move I.inj he, fun u sz hu => idle_prog I hi sz hu, fun u hu => idle_panicked I hi hu⟩
  | publish _ _ s g k b hp hi he hg =>
    exact ⟨I.sys, owned_move I.owned he, inj_move I.inj he, fun u sz hu => idle_prog I hi sz hu, fun u hu => idle_panicked I hi hu⟩

theorem Reach.inv [Zero α] {progs : Nat → Prog α} {σ : St α} (h : Reach progs σ) : Inv σ := by
  induction h with
  | init => exact Inv.init progs
  | step _ hs ih => exact ih.step hs

theorem upd_map {β γ : Type} (g : β → γ) (f : Loc → Option β) (l : Loc) (v : Option β) :
    (fun x => (upd f l v x).map g) = upd (fun x => (f x).map g) l (v.map g) := by
  funext x
  unfold upd
  split <;> rfl

/-- Every step of the machine is a step on independent arrays, or changes nothing that the program sees. -/
theorem Step.refines [Zero α] {σ τ : St α} {t : Nat} (I : Inv σ) (h : Step t σ τ) : AStep t σ.abs τ.abs ∨ τ.abs = σ.abs := by
  cases h with
  | callNew _ _ s size k c hp hlt hi hc => exact .inr rfl
  | callNewPanic _ _ s size k hp hlt hi hc => exact .inr rfl
  | inCall _ _ τ' hi hs ho hu =>
    right
    simp only [St.abs, Abs.mk.injEq, true_and]
    funext l
    cases hl : σ.ten l with
    | none => rfl
    | some b =>
      simp only [Option.map_some, Option.some.injEq, Prod.mk.injEq, true_and]
      funext i
      have := user_block I.sys (I.owned l b.1 b.2 hl)
      simp only [zeroNew, this, not_true_eq_false, and_false, if_false]
  | newReturn _ _ s size k c a P' hp ht hr =>
    left
    have := AStep.new σ.abs t s size k (σ.heap a) hp (I.call t size (by rw [ht]; rfl)).1
    simp only [St.abs] at this ⊢
    rw [upd_map]
    exact this
  | callDrop _ _ s k a size hp hi he =>
    left
    have := AStep.drop σ.abs t s k (size, σ.heap a) hp (by simp [St.abs, he])
    simp only [St.abs] at this ⊢
    rw [upd_map]
    exact this
  | read _ _ a i k b size hp hi he hlt =>
    left
    exact AStep.read σ.abs t a i k size (σ.heap b) hp (by simp [St.abs, he]) hlt
  | write _ _ s i v k b size hp hi he hlt =>
    left
    have := AStep.write σ.abs t s i v k size (σ.heap b) hp (by simp [St.abs, he]) hlt
    refine (congrArg (AStep t σ.abs) ?_).mp this
    simp only [St.abs, Abs.mk.injEq, true_and]
    funext l
    by_cases hl : l = .own t s
    · subst hl; simp [upd_same, he, set_same]
    · rw [upd_ne hl]
      cases hb : σ.ten l with
      | none => rfl
      | some x =>
        have : x.1 ≠ b := fun q => hl (I.inj _ _ _ x.2 size (by rw [hb, ← q]) he)
        simp [set_ne this]
  | send _ _ s c k b hp hi he hc =>
    left
    have := AStep.send σ.abs t s c k (b.2, σ.heap b.1) hp (by simp [St.abs, he]) (by simp [St.abs, hc])
    simp only [St.abs] at this ⊢
    rw [upd_map, upd_map]
    exact this
  | recv _ _ s c k b hp hi he =>
    left
    have := AStep.recv σ.abs t s c k (b.2, σ.heap b.1) hp (by simp [St.abs, he])
    simp only [St.abs] at this ⊢
    rw [upd_map, upd_map]
    exact this
  | publish _ _ s g k b hp hi he hg =>
    left
    have := AStep.publish σ.abs t s g k (b.2, σ.heap b.1) hp (by simp [St.abs, he]) (by simp [St.abs, hg])
    simp only [St.abs] at this ⊢
    rw [upd_map, upd_map]
    exact this

end Thd
end Verif
