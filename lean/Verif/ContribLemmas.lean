import Verif.Contrib
import Verif.PropsFw3
import Verif.OptLemmas

/-!
# Lemmas about random tensors and the functions of `prima_undine_contrib`
-/

set_option linter.unusedSectionVars false

namespace Verif
open Res
variable {α : Type} [Flt α] {d : Nat} {x y : Tensor α} {s t sx sy : Shape} {f g : Arr α}

/-! ### random tensors -/

theorem K.random_ok {y : Tensor α} {s : Shape} {g : Nat → α} {p : Profile} (hy : y.Room d s) :
    ∃ y', K.random (ok g) p y = ok y' ∧ y'.Flat d s g := by
  obtain ⟨ly, hpy, _, hly⟩ := hy.ptr
  have pw : PW ly.length (loop s.size fun i py => wr py i (g i))
      (fun k => foldN s.size (fun i a => if k = i then g i else a)) :=
    PW.loop fun i hi => (PW.wr (by omega))
  obtain ⟨l', e, hf⟩ := pw.result hy hly (fun k hk a => foldN_one k hk (fun i _ hne t => by
    rw [if_neg (fun e => hne e.symm)]) (by rw [if_pos rfl]))
  refine ⟨_, ?_, hf⟩
  simp only [K.random, ok_bind, hy.shape, Shape.sizeU_eq hy.small, hpy, e]

theorem K.random_panic {y : Tensor α} {s : Shape} {p : Profile} (hy : y.Room d s) : K.random (panic : Res (Nat → α)) p y = panic := by
  obtain ⟨ly, hpy, _, hly⟩ := hy.ptr
  simp only [K.random, ok_bind, hy.shape, Shape.sizeU_eq hy.small, hpy]
  rfl

/-- Allocate, then fill. -/
theorem random_new (hs : s.WF) (hsz : s.size ≤ 2 ^ 31) (p : Profile) (d : Nat) (m : Nat → α) (g : Nat → α) :
    Yields (do let y ← (Tensor.new d s).alloc p m; K.random (ok g) p y) d s (fun c b => g (s.offset c b)) := by
  obtain ⟨t, e, hr⟩ := Tensor.alloc_new hs hsz p d m
  obtain ⟨y, e2, hy⟩ := K.random_ok (p := p) (g := g) hr
  exact ⟨y, by rw [e, ok_bind]; exact e2, hy.holds fun _ _ _ => rfl⟩

theorem random_new_panic (hs : s.WF) (hsz : s.size ≤ 2 ^ 31) (p : Profile) (d : Nat) (m : Nat → α) :
    (do let y ← (Tensor.new d s).alloc p m; K.random (panic : Res (Nat → α)) p y) = panic := by
  obtain ⟨t, e, hr⟩ := Tensor.alloc_new hs hsz p d m
  rw [e, ok_bind]; exact K.random_panic hr

theorem Dev.randomBernoulli_ok (hs : s.WF) (hsz : s.size ≤ 2 ^ 31) (p : Profile) (d : Nat) (m : Nat → α) (r : Rng α) {k : α}
    (h0 : Flt.le 0 k = true) (h1 : Flt.le k 1 = true) :
    Yields (Dev.randomBernoulli p d m r s k) d s (fun c b => if r.coin k (s.offset c b) then 1 else 0) := by
  have : r.fillBernoulli k = ok (fun i => Scalar.b2f (r.coin k i)) := by
    unfold Rng.fillBernoulli; rw [check_true _ ⟨h0, h1⟩]; rfl
  unfold Dev.randomBernoulli; rw [this]
  exact random_new hs hsz p d m _

theorem Dev.randomUniform_ok (hs : s.WF) (hsz : s.size ≤ 2 ^ 31) (p : Profile) (d : Nat) (m : Nat → α) (r : Rng α) {a b : α}
    (h : Flt.gt b a = true) : Yields (Dev.randomUniform p d m r s a b) d s (fun c k => r.uniform a b (s.offset c k)) := by
  have : r.fillUniform a b = ok (fun i => r.uniform a b i) := by
    unfold Rng.fillUniform; rw [check_true _ h]; rfl
  unfold Dev.randomUniform; rw [this]
  exact random_new hs hsz p d m _

theorem Dev.randomNormal_ok (hs : s.WF) (hsz : s.size ≤ 2 ^ 31) (p : Profile) (d : Nat) (m : Nat → α) (r : Rng α) {a sd : α}
    (h : Flt.le 0 sd = true) : Yields (Dev.randomNormal p d m r s a sd) d s (fun c k => r.normal a sd (s.offset c k)) := by
  have : r.fillNormal a sd = ok (fun i => r.normal a sd i) := by
    unfold Rng.fillNormal; rw [check_true _ h]; rfl
  unfold Dev.randomNormal; rw [this]
  exact random_new hs hsz p d m _

theorem Dev.random_panics (hs : s.WF) (hsz : s.size ≤ 2 ^ 31) (p : Profile) (d : Nat) (m : Nat → α) (r : Rng α) (a k : α) :
    (¬ (Flt.le 0 k = true ∧ Flt.le k 1 = true) → Dev.randomBernoulli p d m r s k = panic) ∧
    (Flt.gt k a = false → Dev.randomUniform p d m r s a k = panic) ∧
    (Flt.le 0 k = false → Dev.randomNormal p d m r s a k = panic) := by
  refine ⟨fun h => ?_, fun h => ?_, fun h => ?_⟩
  · have : r.fillBernoulli k = panic := by unfold Rng.fillBernoulli; rw [check_false _ h]; rfl
    unfold Dev.randomBernoulli; rw [this]; exact random_new_panic hs hsz p d m
  · have : r.fillUniform a k = panic := by unfold Rng.fillUniform; rw [check_false _ (by rw [h]; decide)]; rfl
    unfold Dev.randomUniform; rw [this]; exact random_new_panic hs hsz p d m
  · have : r.fillNormal a k = panic := by unfold Rng.fillNormal; rw [check_false _ (by rw [h]; decide)]; rfl
    unfold Dev.randomNormal; rw [this]; exact random_new_panic hs hsz p d m

/-! ### initializers -/

theorem replace_new {t : Tensor α} (h : t.Holds d s f) : (Tensor.new d s).replace t = ok { Tensor.new d s with buf := t.buf } ∧
    ({ Tensor.new d s with buf := t.buf } : Tensor α).Holds d s f := by
  constructor
  · simp [Tensor.replace, Tensor.new, Tensor.valid, check, h.device, h.shape]
  · obtain ⟨h1, h2, h3, h4, h5, h6⟩ := h
    exact ⟨rfl, rfl, rfl, h4, h5, h6⟩

end Verif
