import Verif.PropsGraph

/-!
# Lemmas for C74: the order in which `backward` takes operators of equal depth
-/

set_option linter.unusedSimpArgs false

namespace Verif
open Res
namespace Graph
variable {T : Type}

/-- If `F` and then `G` succeed, `G` and then `F` do so with the same result. -/
def Swaps (F G : Graph T → Res (Graph T)) : Prop :=
  ∀ g g1 g2, F g = ok g1 → G g1 = ok g2 → ∃ g3, G g = ok g3 ∧ F g3 = ok g2

/-- An update of one gradient. -/
def slot (a : Nat × Nat) (f : T → Res T) (g : Graph T) : Res (Graph T) := do
  let t ← g.grad a
  let t ← f t
  ok (g.setGrad a t)

theorem setGrad_self {g : Graph T} {a : Nat × Nat} {t : T} (h : g.grad a = ok t) : g.setGrad a t = g := by
  obtain ⟨o, ho, hg⟩ := grad_eq_ok.mp h
  apply List.ext_getElem?
  intro k
  by_cases hk : a.1 = k
  · subst hk
    have : o.grads.set a.2 t = o.grads := by
      apply List.ext_getElem?
      intro n
      by_cases hn : a.2 = n
      · subst hn; rw [List.getElem?_set]; simp [(List.getElem?_eq_some_iff.mp hg).1, ← (List.getElem?_eq_some_iff.mp hg).2]
      · rw [List.getElem?_set_ne hn]
    simp [setGrad, ho, this]
  · simp [setGrad, hk]

theorem ensure_slot (C : TensorLike T) (g : Graph T) (a : Nat × Nat) : ensure C g a = slot a (ens C) g := by
  unfold ensure slot ens
  cases hg : g.grad a with
  | panic => rfl
  | ub => rfl
  | ok t =>
    simp only [Res.ok_bind]
    by_cases hv : C.valid t = true
    · rw [if_pos hv, if_pos hv, Res.ok_bind, setGrad_self hg]
    · rw [if_neg hv, if_neg hv]

theorem setGrad_comm (g : Graph T) {a b : Nat × Nat} (h : a ≠ b) (t u : T) : (g.setGrad a t).setGrad b u = (g.setGrad b u).setGrad a t := by
  apply List.ext_getElem?
  intro k
  unfold setGrad
  by_cases h1 : a.1 = k
  · by_cases h2 : b.1 = k
    · have h3 : a.2 ≠ b.2 := fun e => h (Prod.ext (h1.trans h2.symm) e)
      cases ho : g[k]? with
      | none => simp [h1, h2, List.getElem?_modify, ho]
      | some o => simp [h1, h2, List.getElem?_modify, ho, List.set_comm _ _ h3]
    · simp [h1, h2, List.getElem?_modify]
  · simp [h1, List.getElem?_modify]

theorem slot_swaps {a b : Nat × Nat} (h : a ≠ b) (f f' : T → Res T) : Swaps (slot a f) (slot b f') := by
  intro g g1 g2 h1 h2
  simp only [slot, Res.bind_eq_ok, Res.ok.injEq] at h1 h2
  obtain ⟨t, ht, t', ht', rfl⟩ := h1
  obtain ⟨u, hu, u', hu', rfl⟩ := h2
  rw [setGrad_grad ht, if_neg (Ne.symm h)] at hu
  refine ⟨g.setGrad b u', by simp only [slot, hu, hu', Res.ok_bind], ?_⟩
  simp only [slot]
  rw [setGrad_grad hu, if_neg h, ht, Res.ok_bind, ht', Res.ok_bind, setGrad_comm g h]

theorem Swaps.foldl {A : Type} {f : Graph T → A → Res (Graph T)} {G : Graph T → Res (Graph T)} {l : List A} (h : ∀ x ∈ l, Swaps (fun g => f g x) G) :
    Swaps (foldR f l) G := by
  induction l with
  | nil =>
    intro g g1 g2 h1 h2
    simp only [foldR, Res.ok.injEq] at h1
    subst h1
    exact ⟨g2, h2, rfl⟩
  | cons x l ih =>
    intro g g1 g2 h1 h2
    simp only [foldR, Res.bind_eq_ok] at h1
    obtain ⟨g0, h0, h1⟩ := h1
    obtain ⟨g3, e3, e4⟩ := ih (fun y hy => h y (List.mem_cons_of_mem _ hy)) _ _ _ h1 h2
    obtain ⟨g5, e5, e6⟩ := h x List.mem_cons_self _ _ _ h0 e3
    exact ⟨g5, e5, by simp only [foldR]; rw [show f g5 x = ok g3 from e6, Res.ok_bind, e4]⟩

theorem Swaps.foldr {A : Type} {f : Graph T → A → Res (Graph T)} {F : Graph T → Res (Graph T)} {l : List A} (h : ∀ x ∈ l, Swaps F (fun g => f g x)) :
    Swaps F (foldR f l) := by
  induction l with
  | nil =>
    intro g g1 g2 h1 h2
    simp only [foldR, Res.ok.injEq] at h2
    subst h2
    exact ⟨g, rfl, h1⟩
  | cons x l ih =>
    intro g g1 g2 h1 h2
    simp only [foldR, Res.bind_eq_ok] at h2
    obtain ⟨g0, h0, h2⟩ := h2
    obtain ⟨g3, e3, e4⟩ := h x List.mem_cons_self _ _ _ h1 h0
    obtain ⟨g5, e5, e6⟩ := ih (fun y hy => h y (List.mem_cons_of_mem _ hy)) _ _ _ e4 h2
    exact ⟨g5, by simp only [foldR]; rw [show f g x = ok g3 from e3, Res.ok_bind, e5], e6⟩

theorem Swaps.seq_l {F F' G : Graph T → Res (Graph T)} (h : Swaps F G) (h' : Swaps F' G) : Swaps (fun g => do let g ← F g; F' g) G := by
  intro g g1 g2 h1 h2
  simp only [Res.bind_eq_ok] at h1
  obtain ⟨g0, h0, h1⟩ := h1
  obtain ⟨g3, e3, e4⟩ := h' _ _ _ h1 h2
  obtain ⟨g5, e5, e6⟩ := h _ _ _ h0 e3
  exact ⟨g5, e5, by simp only [e6, Res.ok_bind, e4]⟩

theorem Swaps.seq_r {F G G' : Graph T → Res (Graph T)} (h : Swaps F G) (h' : Swaps F G') : Swaps F (fun g => do let g ← G g; G' g) := by
  intro g g1 g2 h1 h2
  simp only [Res.bind_eq_ok] at h2
  obtain ⟨g0, h0, h2⟩ := h2
  obtain ⟨g3, e3, e4⟩ := h _ _ _ h1 h0
  obtain ⟨g5, e5, e6⟩ := h' _ _ _ e4 h2
  exact ⟨g5, by simp only [e3, Res.ok_bind, e5], e6⟩

/-- The last part of an iteration, for the parameter gradient `st` computed beforehand. -/
def putSink (i : Nat) (st : Option T) (g : Graph T) : Res (Graph T) :=
  match st with
  | none => ok g
  | some t => ok (g.setSink i t)

theorem setSink_grad (g : Graph T) (i : Nat) (t : T) (a : Nat × Nat) : (g.setSink i t).grad a = g.grad a := (setSink_spec g i t).2.1 a

theorem setSink_setGrad (g : Graph T) (i : Nat) (t u : T) (a : Nat × Nat) : (g.setSink i t).setGrad a u = (g.setGrad a u).setSink i t := by
  apply List.ext_getElem?
  intro k
  unfold setGrad setSink
  by_cases h1 : a.1 = k <;> by_cases h2 : i = k <;> cases ho : g[k]? <;> simp [h1, h2, List.getElem?_modify, ho]

theorem setSink_comm (g : Graph T) {i j : Nat} (h : i ≠ j) (t u : T) : (g.setSink i t).setSink j u = (g.setSink j u).setSink i t := by
  apply List.ext_getElem?
  intro k
  unfold setSink
  by_cases h1 : i = k
  · have : j ≠ k := fun e => h (h1.trans e.symm)
    simp [h1, this, List.getElem?_modify]
  · simp [h1, List.getElem?_modify]

theorem putSink_slot (i : Nat) (st : Option T) (a : Nat × Nat) (f : T → Res T) : Swaps (putSink i st) (slot a f) := by
  intro g g1 g2 h1 h2
  cases st with
  | none => obtain rfl := Res.ok.inj h1; exact ⟨g2, h2, rfl⟩
  | some t =>
    obtain rfl := Res.ok.inj h1
    simp only [slot, setSink_grad, Res.bind_eq_ok, Res.ok.injEq] at h2
    obtain ⟨u, hu, u', hu', rfl⟩ := h2
    exact ⟨g.setGrad a u', by simp only [slot, hu, hu', Res.ok_bind], by simp only [putSink]; rw [setSink_setGrad]⟩

theorem slot_putSink (i : Nat) (st : Option T) (a : Nat × Nat) (f : T → Res T) : Swaps (slot a f) (putSink i st) := by
  intro g g1 g2 h1 h2
  cases st with
  | none => obtain rfl := Res.ok.inj h2; exact ⟨g, rfl, h1⟩
  | some t =>
    obtain rfl := Res.ok.inj h2
    simp only [slot, Res.bind_eq_ok, Res.ok.injEq] at h1
    obtain ⟨u, hu, u', hu', rfl⟩ := h1
    exact ⟨g.setSink i t, rfl, by simp only [slot, setSink_grad, hu, hu', Res.ok_bind, setSink_setGrad]⟩

theorem putSink_putSink {i j : Nat} (h : i ≠ j) (st su : Option T) : Swaps (putSink i st) (putSink j su) := by
  intro g g1 g2 h1 h2
  cases st with
  | none => obtain rfl := Res.ok.inj h1; exact ⟨g2, h2, rfl⟩
  | some t =>
    obtain rfl := Res.ok.inj h1
    cases su with
    | none => obtain rfl := Res.ok.inj h2; exact ⟨g, rfl, rfl⟩
    | some u =>
      obtain rfl := Res.ok.inj h2
      exact ⟨g.setSink j u, rfl, by simp only [putSink]; rw [setSink_comm g h]⟩

/-- An iteration after everything it reads is known. -/
def work (C : TensorLike T) (i : Nat) (args : List (Nat × Nat)) (us : List (Nat × (T → Res T))) (st : Option T) (g : Graph T) : Res (Graph T) := do
  let g ← (do let g ← foldR (ensure C) args g; foldR (update args) us g)
  putSink i st g

theorem update_slot (args : List (Nat × Nat)) (u : Nat × (T → Res T)) :
    (fun g => update args g u) = fun g => (do let a ← at' args u.1; slot a u.2 g) := rfl

theorem Swaps.update_l {args : List (Nat × Nat)} {u : Nat × (T → Res T)} {G : Graph T → Res (Graph T)} (h : ∀ a ∈ args, Swaps (slot a u.2) G) :
    Swaps (fun g => update args g u) G := by
  rw [update_slot]
  unfold at'
  cases e : args[u.1]? with
  | none => intro g g1 g2 h1; cases h1
  | some a => exact h a (List.mem_of_getElem? e)

theorem Swaps.update_r {args : List (Nat × Nat)} {u : Nat × (T → Res T)} {F : Graph T → Res (Graph T)} (h : ∀ a ∈ args, Swaps F (slot a u.2)) :
    Swaps F (fun g => update args g u) := by
  rw [update_slot]
  unfold at'
  cases e : args[u.1]? with
  | none => intro g g1 g2 _ h2; cases h2
  | some a => exact h a (List.mem_of_getElem? e)

theorem Swaps.grads_l {C : TensorLike T} {args : List (Nat × Nat)} {us : List (Nat × (T → Res T))} {G : Graph T → Res (Graph T)}
    (h : ∀ a ∈ args, ∀ f, Swaps (slot a f) G) : Swaps (fun g => do let g ← foldR (ensure C) args g; foldR (update args) us g) G := by
  refine Swaps.seq_l (Swaps.foldl fun a ha => ?_) (Swaps.foldl fun u _ => Swaps.update_l fun a ha => h a ha _)
  have : (fun g => ensure C g a) = slot a (ens C) := funext fun g => ensure_slot C g a
  rw [this]
  exact h a ha _

theorem Swaps.grads_r {C : TensorLike T} {args : List (Nat × Nat)} {us : List (Nat × (T → Res T))} {F : Graph T → Res (Graph T)}
    (h : ∀ a ∈ args, ∀ f, Swaps F (slot a f)) : Swaps F (fun g => do let g ← foldR (ensure C) args g; foldR (update args) us g) := by
  refine Swaps.seq_r (Swaps.foldr fun a ha => ?_) (Swaps.foldr fun u _ => Swaps.update_r fun a ha => h a ha _)
  have : (fun g => ensure C g a) = slot a (ens C) := funext fun g => ensure_slot C g a
  rw [this]
  exact h a ha _

/-- Iterations for operators without common arguments can be swapped. -/
theorem work_swaps {C : TensorLike T} {i j : Nat} {as bs : List (Nat × Nat)} {us vs : List (Nat × (T → Res T))} {st su : Option T}
    (hij : i ≠ j) (hd : ∀ a ∈ as, a ∉ bs) : Swaps (work C i as us st) (work C j bs vs su) := by
  have key : ∀ a ∈ as, ∀ f, Swaps (slot a f) (work C j bs vs su) := fun a ha f =>
    Swaps.seq_r (Swaps.grads_r fun b hb f' => slot_swaps (show a ≠ b by rintro rfl; exact hd _ ha hb) f f') (slot_putSink _ _ _ _)
  refine Swaps.seq_l (Swaps.grads_l key) ?_
  exact Swaps.seq_r (Swaps.grads_r fun b _ f => putSink_slot _ _ _ _) (putSink_putSink hij _ _)

/-- What an iteration reads. -/
structure Reads (C : TensorLike T) (g : Graph T) (i : Nat) (o : OpInfo T) (us : List (Nat × (T → Res T))) (st : Option T) : Prop where
  some : g[i]? = some o
  ups : ∃ xs ss, mapR g.val o.args = ok xs ∧ mapR (shapeOf C g) o.args = ok ss ∧ us = o.oper.bw xs o.vals o.grads ss
  sink : (o.sink = none ∧ st = none) ∨ ∃ t gy t', o.sink = Option.some t ∧ at' o.grads 0 = ok gy ∧ C.addTo t gy = ok t' ∧ st = Option.some t'

theorem bwOne_work {C : TensorLike T} {g g' : Graph T} {i : Nat} : bwOne C g i = ok g' ↔ ∃ o us st, Reads C g i o us st ∧ work C i o.args us st g = ok g' := by
  constructor
  · intro h
    simp only [bwOne, Res.bind_eq_ok] at h
    obtain ⟨o, ho, xs, hxs, ss, hss, g1, h1, g2, h2, h3⟩ := h
    rw [at'_eq_ok] at ho
    cases hs : o.sink with
    | none =>
      rw [hs] at h3
      exact ⟨o, _, none, ⟨ho, ⟨xs, ss, hxs, hss, rfl⟩, .inl ⟨hs, rfl⟩⟩, by simp only [work, h1, h2, Res.ok_bind, putSink]; exact h3⟩
    | some t =>
      rw [hs] at h3
      simp only [Res.bind_eq_ok] at h3
      obtain ⟨gy, hgy, t', ht', h3⟩ := h3
      exact ⟨o, _, some t', ⟨ho, ⟨xs, ss, hxs, hss, rfl⟩, .inr ⟨t, gy, t', hs, hgy, ht', rfl⟩⟩, by simp only [work, h1, h2, Res.ok_bind, putSink]; exact h3⟩
  · rintro ⟨o, us, st, ⟨ho, ⟨xs, ss, hxs, hss, rfl⟩, hs⟩, h⟩
    simp only [work, Res.bind_eq_ok] at h
    obtain ⟨g2, ⟨g1, h1, h2⟩, h3⟩ := h
    simp only [bwOne, at'_eq_ok.mpr ho, hxs, hss, h1, h2, Res.ok_bind]
    rcases hs with ⟨e, rfl⟩ | ⟨t, gy, t', e, hgy, ht', rfl⟩
    · rw [e]; exact h3
    · rw [e]; simp only [hgy, ht', Res.ok_bind]; exact h3

theorem slot_frame {a : Nat × Nat} {f : T → Res T} {g g' : Graph T} (h : slot a f g = ok g') {k : Nat} (hk : a.1 ≠ k) : g'[k]? = g[k]? := by
  simp only [slot, Res.bind_eq_ok, Res.ok.injEq] at h
  obtain ⟨t, _, t', _, rfl⟩ := h
  simp [setGrad, hk]

theorem foldR_keeps {A : Type} {f : Graph T → A → Res (Graph T)} {k : Nat} {l : List A} (h : ∀ x ∈ l, ∀ g g', f g x = ok g' → g'[k]? = g[k]?) {g g' : Graph T}
    (e : foldR f l g = ok g') : g'[k]? = g[k]? := by
  induction l generalizing g with
  | nil => simp only [foldR, Res.ok.injEq] at e; rw [e]
  | cons x l ih =>
    simp only [foldR, Res.bind_eq_ok] at e
    obtain ⟨g1, h1, e⟩ := e
    rw [ih (fun y hy => h y (List.mem_cons_of_mem _ hy)) e, h x List.mem_cons_self _ _ h1]

/-- An iteration changes the gradients of its arguments and its own parameter only. -/
theorem work_frame {C : TensorLike T} {i : Nat} {args : List (Nat × Nat)} {us : List (Nat × (T → Res T))} {st : Option T} {g g' : Graph T}
    (h : work C i args us st g = ok g') {k : Nat} (hk : k ≠ i) (ha : ∀ a ∈ args, a.1 ≠ k) : g'[k]? = g[k]? := by
  simp only [work, Res.bind_eq_ok] at h
  obtain ⟨g2, ⟨g1, h1, h2⟩, h3⟩ := h
  have e1 := foldR_keeps (k := k) (fun a ha' g g' e => slot_frame (by rw [← ensure_slot]; exact e) (ha a ha')) h1
  have e2 := foldR_keeps (k := k) (fun u _ g g' e => by
    simp only [update, Res.bind_eq_ok, Res.ok.injEq] at e
    obtain ⟨a, hu, t, _, t', _, rfl⟩ := e
    simp [setGrad, ha a (List.mem_of_getElem? (at'_eq_ok.mp hu))]) h2
  rw [← e1, ← e2]
  cases st with
  | none => obtain rfl := Res.ok.inj h3; rfl
  | some t => obtain rfl := Res.ok.inj h3; simp [setSink, Ne.symm hk]

theorem Reads.congr {C : TensorLike T} {g g' : Graph T} {i : Nat} {o : OpInfo T} {us : List (Nat × (T → Res T))} {st : Option T} (h : Reads C g i o us st)
    (hs : ∀ a, g'.val a = g.val a) (hs' : ∀ a, shapeOf C g' a = shapeOf C g a) (e : g'[i]? = g[i]?) : Reads C g' i o us st := by
  obtain ⟨h1, ⟨xs, ss, h2, h3, h4⟩, h5⟩ := h
  exact ⟨e.trans h1, ⟨xs, ss, by rw [← h2]; exact mapR_congr fun a _ => hs a, by rw [← h3]; exact mapR_congr fun a _ => hs' a, h4⟩, h5⟩

/-- Iterations for operators that have no argument in common and are not arguments of each other can be swapped. -/
theorem bwOne_swaps {C : TensorLike T} {g g1 g2 : Graph T} {i j : Nat} (hij : i ≠ j) (hd : ∀ a ∈ g.argsOf i, a ∉ g.argsOf j)
    (hi : ∀ a ∈ g.argsOf j, a.1 ≠ i) (hj : ∀ a ∈ g.argsOf i, a.1 ≠ j) (h1 : bwOne C g i = ok g1) (h2 : bwOne C g1 j = ok g2) :
    ∃ g3, bwOne C g j = ok g3 ∧ bwOne C g3 i = ok g2 := by
  have s1 := (bwOne_spec h1).1
  obtain ⟨o, us, st, r1, w1⟩ := bwOne_work.mp h1
  obtain ⟨o', us', st', r2, w2⟩ := bwOne_work.mp h2
  rw [argsOf_some r1.some] at hd hj
  have r2' : Reads C g j o' us' st' := r2.congr (fun a => (s1.val a).symm) (fun a => (s1.shapeOf C a).symm) (work_frame w1 (Ne.symm hij) hj).symm
  rw [argsOf_some r2'.some] at hi
  rw [argsOf_some r2'.some] at hd
  obtain ⟨g3, w3, w4⟩ := work_swaps hij hd _ _ _ w1 w2
  have h3 : bwOne C g j = ok g3 := bwOne_work.mpr ⟨o', us', st', r2', w3⟩
  have s3 := (bwOne_spec h3).1
  exact ⟨g3, h3, bwOne_work.mpr ⟨o, us, st, r1.congr s3.val (s3.shapeOf C) (work_frame w3 hij hi), w4⟩⟩

/-- Moving an element to the front. -/
theorem foldR_front {A S : Type} {f : S → A → Res S} (P : S → Prop) (hP : ∀ s a s', P s → f s a = ok s' → P s') {x : A} {pre post : List A}
    (hc : ∀ y ∈ pre, ∀ s s1 s2, P s → f s y = ok s1 → f s1 x = ok s2 → ∃ s3, f s x = ok s3 ∧ f s3 y = ok s2) {s s' : S} (hs : P s)
    (h : foldR f (pre ++ x :: post) s = ok s') : foldR f (x :: (pre ++ post)) s = ok s' := by
  induction pre generalizing s with
  | nil => exact h
  | cons y pre ih =>
    simp only [List.cons_append, foldR, Res.bind_eq_ok] at h
    obtain ⟨s1, h1, h⟩ := h
    have h2 := ih (fun z hz => hc z (List.mem_cons_of_mem _ hz)) (hP _ _ _ hs h1) h
    simp only [foldR, Res.bind_eq_ok] at h2
    obtain ⟨s2, h2, h3⟩ := h2
    obtain ⟨s3, h4, h5⟩ := hc y List.mem_cons_self _ _ _ hs h1 h2
    simp only [List.cons_append, foldR, h4, h5, Res.ok_bind, h3]

/-- Two lists that differ in the order of elements of equal rank only. -/
theorem foldR_reorder {A S : Type} {f : S → A → Res S} (P : S → Prop) (hP : ∀ s a s', P s → f s a = ok s' → P s') (rank : A → Nat) {l1 l2 : List A}
    (hperm : l1.Perm l2) (hnd : l1.Nodup) (o1 : l1.Pairwise fun a b => rank b ≤ rank a) (o2 : l2.Pairwise fun a b => rank b ≤ rank a)
    (hc : ∀ x ∈ l1, ∀ y ∈ l1, x ≠ y → rank x = rank y → ∀ s s1 s2, P s → f s y = ok s1 → f s1 x = ok s2 → ∃ s3, f s x = ok s3 ∧ f s3 y = ok s2)
    {s s' : S} (hs : P s) (h : foldR f l1 s = ok s') : foldR f l2 s = ok s' := by
  induction l2 generalizing l1 s with
  | nil => rw [hperm.eq_nil] at h; exact h
  | cons x l2 ih =>
    obtain ⟨pre, post, rfl⟩ := List.append_of_mem (hperm.mem_iff.mpr List.mem_cons_self)
    have hx : ∀ y ∈ pre, x ≠ y ∧ rank x = rank y := fun y hy => by
      have hne : x ≠ y := fun e => by
        rw [List.nodup_append] at hnd
        exact hnd.2.2 y hy x List.mem_cons_self e.symm
      refine ⟨hne, le_antisymm ((List.pairwise_append.mp o1).2.2 y hy x List.mem_cons_self) ?_⟩
      have : y ∈ x :: l2 := hperm.mem_iff.mp (List.mem_append_left _ hy)
      rcases List.mem_cons.mp this with e | hm
      · exact absurd e.symm hne
      · exact (List.pairwise_cons.mp o2).1 y hm
    have h2 := foldR_front P hP (fun y hy => hc x (by simp) y (List.mem_append_left _ hy) (hx y hy).1 (hx y hy).2) hs h
    simp only [foldR, Res.bind_eq_ok] at h2
    obtain ⟨s1, h3, h4⟩ := h2
    have hperm' : (pre ++ post).Perm l2 := by
      have : (x :: (pre ++ post)).Perm (x :: l2) := List.perm_middle.symm.trans hperm
      exact (List.perm_cons x).mp this
    have hsub : (pre ++ post).Sublist (pre ++ x :: post) := List.Sublist.append (List.Sublist.refl _) (List.sublist_cons_self _ _)
    simp only [foldR, h3, Res.ok_bind]
    exact ih hperm' (hnd.sublist hsub) (o1.sublist hsub) (List.pairwise_cons.mp o2).2
      (fun a ha b hb => hc a (hsub.subset ha) b (hsub.subset hb)) (hP _ _ _ hs h3) h4

end Graph
end Verif
