import Verif.Lifecycle
import Verif.NodeLemmas

/-!
# Every kernel of the naive back end changes nothing but the contents of its destination
-/

set_option linter.unusedSectionVars false

namespace Verif
open Res
variable {α : Type}

/-- States of kernel loops that contain the destination buffer. -/
class HasLen (σ : Type) where
  len : σ → Nat
instance : HasLen (List α) := ⟨List.length⟩
instance {β γ : Type} [HasLen γ] : HasLen (β × γ) := ⟨fun x => HasLen.len x.2⟩

/-- The computation keeps the length of the buffer. -/
def LP {σ : Type} [HasLen σ] (n : Nat) (r : Res σ) : Prop := ∀ s', r = ok s' → HasLen.len s' = n

section
variable {σ τ β : Type} [HasLen σ] [HasLen τ]

theorem LP.loop {k : Nat} {f : Nat → σ → Res σ} {s : σ} {n : Nat} (h0 : HasLen.len s = n) (h : ∀ i a, HasLen.len a = n → LP n (f i a)) : LP n (Verif.loop k f s) := by
  intro s' e
  exact loop_imp (fun a => HasLen.len a = n) h0 (fun i a b _ ha e => h i a ha b e) e

theorem iter_imp {k : Nat} {f : σ → Res σ} {s s' : σ} (P : σ → Prop) (h0 : P s) (hf : ∀ a b, P a → f a = ok b → P b) (h : iter k f s = ok s') : P s' :=
  loop_imp P h0 (fun _ a b _ ha e => hf a b ha e) h

theorem LP.iter {k : Nat} {f : σ → Res σ} {s : σ} {n : Nat} (h0 : HasLen.len s = n) (h : ∀ a, HasLen.len a = n → LP n (f a)) : LP n (Verif.iter k f s) := by
  intro s' e
  exact iter_imp (fun a => HasLen.len a = n) h0 (fun a b ha e => h a ha b e) e

theorem LP.wr {l : List α} {i n : Nat} {v : α} (h : HasLen.len l = n) : LP n (Verif.wr l i v) := by
  intro s' e
  unfold Verif.wr at e
  split at e
  · cases e; exact (List.length_set ..).trans h
  · cases e

theorem LP.bind {r : Res σ} {f : σ → Res τ} {n : Nat} (h : LP n r) (h' : ∀ a, HasLen.len a = n → LP n (f a)) : LP n (r >>= f) := by
  intro s' e
  rw [Res.bind_eq_ok] at e
  obtain ⟨a, ha, e⟩ := e
  exact h' a (h a ha) s' e

theorem LP.any {r : Res β} {f : β → Res τ} {n : Nat} (h' : ∀ a, LP n (f a)) : LP n (r >>= f) := by
  intro s' e
  rw [Res.bind_eq_ok] at e
  obtain ⟨a, ha, e⟩ := e
  exact h' a s' e

theorem LP.upd {l : List α} {i n : Nat} {f : α → α} (h : HasLen.len l = n) : LP n (Verif.upd l i f) := LP.any fun _ => LP.wr h

theorem LP.ok {s : σ} {n : Nat} (h : HasLen.len s = n) : LP n (Res.ok s) := by
  intro s' e; cases e; exact h

theorem LP.ite {c : Prop} [Decidable c] {a b : Res σ} {n : Nat} (ha : LP n a) (hb : LP n b) : LP n (if c then a else b) := by
  split <;> assumption

theorem LP.bindLoop {k : Nat} {g : Nat → σ → Res σ} {s : σ} {f : σ → Res τ} {n : Nat} (h0 : HasLen.len s = n)
    (h : ∀ i a, HasLen.len a = n → LP n (g i a)) (h' : ∀ a, HasLen.len a = n → LP n (f a)) : LP n (Verif.loop k g s >>= f) := (LP.loop h0 h).bind h'
theorem LP.bindIter {k : Nat} {g : σ → Res σ} {s : σ} {f : σ → Res τ} {n : Nat} (h0 : HasLen.len s = n)
    (h : ∀ a, HasLen.len a = n → LP n (g a)) (h' : ∀ a, HasLen.len a = n → LP n (f a)) : LP n (Verif.iter k g s >>= f) := (LP.iter h0 h).bind h'
theorem LP.bindWr {l : List α} {i : Nat} {v : α} {f : List α → Res τ} {n : Nat} (h0 : HasLen.len l = n)
    (h' : ∀ a, HasLen.len a = n → LP n (f a)) : LP n (Verif.wr l i v >>= f) := (LP.wr h0).bind h'
theorem LP.bindUpd {l : List α} {i : Nat} {v : α → α} {f : List α → Res τ} {n : Nat} (h0 : HasLen.len l = n)
    (h' : ∀ a, HasLen.len a = n → LP n (f a)) : LP n (Verif.upd l i v >>= f) := (LP.upd h0).bind h'
end

/-- Closes goals `LP n r` for loop bodies. -/
macro "lp" : tactic => `(tactic| (
  repeat' first
    | exact LP.wr (by assumption)
    | exact LP.upd (by assumption)
    | exact LP.ok (by first | assumption | exact (by assumption : HasLen.len _ = _))
    | exact LP.ok (by show HasLen.len (Prod.snd _) = _; assumption)
    | (refine LP.bindLoop ?_ (fun _ _ _ => ?_) (fun _ _ => ?_) <;> [(first | assumption | rfl); skip; skip])
    | (refine LP.bindIter ?_ (fun _ _ => ?_) (fun _ _ => ?_) <;> [(first | assumption | rfl); skip; skip])
    | (refine LP.bindWr ?_ (fun _ _ => ?_) <;> [(first | assumption | rfl); skip])
    | (refine LP.bindUpd ?_ (fun _ _ => ?_) <;> [(first | assumption | rfl); skip])
    | (refine LP.loop ?_ (fun _ _ _ => ?_) <;> [(first | assumption | rfl); skip])
    | (refine LP.iter ?_ (fun _ _ => ?_) <;> [(first | assumption | rfl); skip])
    | refine LP.any fun _ => ?_
    | (split)))

/-- The result of a kernel differs from the destination `y` in the contents only. -/
def KL (y : Tensor α) (r : Res (Tensor α)) : Prop :=
  ∀ y', r = ok y' → y'.device = y.device ∧ y'.shape = y.shape ∧ y'.host = y.host ∧ y'.buf.map List.length = y.buf.map List.length

theorem KL.bind {σ : Type} {y : Tensor α} {r : Res σ} {f : σ → Res (Tensor α)} (h : ∀ a, r = ok a → KL y (f a)) : KL y (r >>= f) := by
  intro y' e
  rw [Res.bind_eq_ok] at e
  obtain ⟨a, ha, e⟩ := e
  exact h a ha y' e

theorem KL.trans {y y1 : Tensor α} {r r' : Res (Tensor α)} (h : KL y r) (h1 : r = Res.ok y1) (h2 : KL y1 r') : KL y r' := by
  intro y' e
  obtain ⟨a1, a2, a3, a4⟩ := h y1 h1
  obtain ⟨b1, b2, b3, b4⟩ := h2 y' e
  exact ⟨b1.trans a1, b2.trans a2, b3.trans a3, b4.trans a4⟩

theorem KL.self (y : Tensor α) : KL y (Res.ok y) := by
  intro y' e; cases e; exact ⟨rfl, rfl, rfl, rfl⟩

/-- The common end of kernels: take the destination buffer, change it, put it back. -/
theorem KL.dest {y : Tensor α} {f : List α → Res (Tensor α)} (h : ∀ l, y.buf = some l → KL y (f l)) : KL y (y.ptr >>= f) := by
  refine KL.bind fun l e => h l ?_
  unfold Tensor.ptr unwrap at e
  split at e
  · next a hb => cases e; exact hb
  · cases e

theorem KL.fin {y : Tensor α} {l : List α} (hl : y.buf = some l) {r : Res (List α)} (h : LP l.length r) :
    KL y (r >>= fun s => Res.ok { y with buf := some s }) := by
  refine KL.bind fun s e => ?_
  intro y' e'
  cases e'
  refine ⟨rfl, rfl, rfl, ?_⟩
  rw [hl]
  exact congrArg some (h s e)

theorem KL.fin2 {β : Type} {y : Tensor α} {l : List α} (hl : y.buf = some l) {r : Res (β × List α)} (h : LP l.length r) :
    KL y (r >>= fun s => Res.ok { y with buf := some s.2 }) := by
  refine KL.bind fun s e => ?_
  intro y' e'
  cases e'
  refine ⟨rfl, rfl, rfl, ?_⟩
  rw [hl]
  exact congrArg some (h s e)

theorem KL.panic {y : Tensor α} : KL y (Res.panic : Res (Tensor α)) := fun _ e => by cases e

section
variable [Flt α]

macro "kl" : tactic => `(tactic| (
  repeat' first
    | exact KL.panic
    | (refine KL.dest (fun _ hl => ?_); first
        | (refine KL.fin hl ?_; lp; done)
        | (refine KL.fin2 hl ?_; lp; done))
    | refine KL.bind fun _ _ => ?_))

theorem KL.snd {β : Type} {y : Tensor α} {l : List α} (hl : y.buf = some l) {r : Res (β × List α)} (h : LP l.length r) {c : Nat} {z : Nat × Tensor α}
    (e : (r >>= fun s => Res.ok (c, { y with buf := some s.2 })) = Res.ok z) : KL y (Res.ok z.2) := by
  rw [Res.bind_eq_ok] at e
  obtain ⟨s, hs, e⟩ := e
  cases e
  intro y' e'
  cases e'
  refine ⟨rfl, rfl, rfl, ?_⟩
  rw [hl]
  exact congrArg some (h s hs)

theorem ptr_eq_ok_buf {y : Tensor α} {l : List α} (e : y.ptr = Res.ok l) : y.buf = some l := by
  unfold Tensor.ptr unwrap at e
  split at e
  · next a hb => cases e; exact hb
  · cases e

theorem concatFw_local (p : Profile) (xs : List (Tensor α)) (u : List Nat) (f : List α) (y : Tensor α) : KL y (K.concatFw p xs u f y) := by
  unfold K.concatFw
  refine KL.bind fun _ _ => KL.bind fun _ _ => KL.bind fun _ _ => KL.bind fun st h => ?_
  refine loop_imp (fun st => KL y (Res.ok st.2)) (KL.self y) (fun i a b _ ha hb => KL.trans ha rfl ?_) h
  rw [Res.bind_eq_ok] at hb
  obtain ⟨x, _, hb⟩ := hb
  dsimp only at hb
  rw [Res.bind_eq_ok] at hb
  obtain ⟨px, _, hb⟩ := hb
  rw [Res.bind_eq_ok] at hb
  obtain ⟨py, hpy, hb⟩ := hb
  refine KL.snd (ptr_eq_ok_buf hpy) ?_ hb
  lp

theorem callFw_local (p : Profile) (n : FwName) (xs : List (Tensor α)) (u : List Nat) (f : List α) (y : Tensor α) :
    KL y (Dev.callFw p n xs u f y) := by
  cases n
  case concat => exact concatFw_local p xs u f y
  case identity =>
    simp only [Dev.callFw, Naive.fwImpl, K.identity]
    refine KL.bind fun _ _ => KL.bind fun y1 h1 => ?_
    refine KL.trans (r := K.resetTensor p [] [] [0] y) ?_ h1 ?_
    · unfold K.resetTensor
      kl
    · kl
  all_goals
    simp only [Dev.callFw, Naive.fwImpl, K.fwX, K.fwAb, K.fwConst, K.fwScalar, K.powiFw, K.resetTensor, K.resetBySlice, K.resetByTensor, K.opAssign,
      K.mulAssignConst, K.sumFw, K.maxFw, K.minFw, K.logsumexpFw, K.reduce, K.broadcastFw, K.matmulFw, K.transposeFw, K.triangularFw, K.flipFw,
      K.permuteFw, K.sliceFw, K.pickFw, K.batchConcatFw, K.batchPickFw, K.batchSliceFw, K.batchSumFw]
    kl

theorem KL.addAssign {p : Profile} {gx t : Tensor α} : KL gx (gx.addAssign p t) := by
  unfold Tensor.addAssign
  refine KL.bind fun _ _ => ?_
  unfold Dev.addAssign
  repeat' first
    | exact callFw_local _ _ _ _ _ _
    | refine KL.bind fun _ _ => ?_

theorem bwLoop_len {bs volume : Nat} {p1 p2 p3 pg : List α} {s1 s2 s3 sg : Nat} {op : α → α → α → α → α} : LP pg.length (K.bwLoop bs volume p1 s1 p2 s2 p3 s3 sg op pg) := by
  unfold K.bwLoop
  lp

theorem callBw_local (p : Profile) (m : Mem α) (n : BwName) (xs ys gys : List (Tensor α)) (u : List Nat) (f : List α) (gx : Tensor α) :
    KL gx (Dev.callBw p m n xs ys gys u f gx) := by
  unfold Dev.callBw
  cases hk : (Naive.bwImpl n : Option (BwK α)) with
  | none => exact KL.panic
  | some k =>
    show KL gx (k p m xs ys gys u f gx)
    cases n
    case un o => cases o <;> cases hk <;> (simp only [K.bwX]; kl)
    case biA o =>
      cases o <;> cases hk <;> simp only [K.addSubBw, K.mulDivBw, K.powfBwA]
      all_goals repeat' first
        | (refine KL.dest (fun _ hl => ?_); exact KL.fin hl bwLoop_len)
        | refine KL.bind fun _ _ => ?_
    case biB o =>
      cases o <;> cases hk <;> simp only [K.addSubBw, K.mulDivBw, K.divBwB, K.powfBwB]
      all_goals repeat' first
        | (refine KL.dest (fun _ hl => ?_); exact KL.fin hl bwLoop_len)
        | refine KL.bind fun _ _ => ?_
    all_goals
      cases hk
      simp only [K.bwConst, K.powiBw, K.extBw, K.matmulBwA, K.matmulBwB, K.transposeBw, K.triangularBw, K.sliceBw, K.pickBw, K.batchPickBw, K.batchSliceBw,
        K.flipBw, K.permuteBw]
      first
        | (repeat' first
            | exact KL.addAssign
            | refine KL.bind fun _ _ => ?_); done
        | (kl; done)

end
end Verif
