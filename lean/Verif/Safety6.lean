import Verif.Safety5
import Verif.Operators
import Verif.ShapeOpsLemmas
import Verif.GraphLemmas

/-!
# Memory safety of the operators: lemmas for C54

`Like f B t`: `t` is a fine tensor with the dims `f` and a batch that is 1 or `B`.
-/

set_option linter.unusedSectionVars false

namespace Verif
open Res
variable {α : Type} {d : Nat}

/-- See the head of the file. -/
structure Like (f : Nat → Nat) (B : Nat) (t : Tensor α) : Prop where
  fine : t.Fine
  dims : ∀ i, t.shape.get i = f i
  batch : t.shape.batch = 1 ∨ t.shape.batch = B

/-- Safe, and a returned tensor is `Like f B`. -/
def Gives (f : Nat → Nat) (B : Nat) (r : Res (Tensor α)) : Prop := r.Safe ∧ ∀ y, r = ok y → Like f B y

/-- Safe, and a returned tensor is fine. -/
def GivesFine (r : Res (Tensor α)) : Prop := r.Safe ∧ ∀ y, r = ok y → y.Fine

/-- Safe, and a returned tensor is fine and has the device and shape of `g`. -/
def KeepsT (g : Tensor α) (r : Res (Tensor α)) : Prop := r.Safe ∧ ∀ y, r = ok y → y.Fine ∧ y.device = g.device ∧ y.shape = g.shape

theorem Gives.bind {f : Nat → Nat} {B : Nat} {r : Res σ} {k : σ → Res (Tensor α)} (h : r.Safe) (hk : ∀ a, r = ok a → Gives f B (k a)) :
    Gives f B (r >>= k) := by
  cases r with
  | ok a => exact hk a rfl
  | panic => exact ⟨safe_panic, fun _ h => by cases h⟩
  | ub => exact absurd rfl h

theorem GivesFine.bind {r : Res σ} {k : σ → Res (Tensor α)} (h : r.Safe) (hk : ∀ a, r = ok a → GivesFine (k a)) : GivesFine (r >>= k) := by
  cases r with
  | ok a => exact hk a rfl
  | panic => exact ⟨safe_panic, fun _ h => by cases h⟩
  | ub => exact absurd rfl h

theorem KeepsT.bind {g : Tensor α} {r : Res σ} {k : σ → Res (Tensor α)} (h : r.Safe) (hk : ∀ a, r = ok a → KeepsT g (k a)) : KeepsT g (r >>= k) := by
  cases r with
  | ok a => exact hk a rfl
  | panic => exact ⟨safe_panic, fun _ h => by cases h⟩
  | ub => exact absurd rfl h

theorem Gives.then {f : Nat → Nat} {B : Nat} {r : Res (Tensor α)} {g : Tensor α} {k : Tensor α → Res (Tensor α)} (h : Gives f B r)
    (hk : ∀ a, Like f B a → KeepsT g (k a)) : KeepsT g (r >>= k) := .bind h.1 fun a ha => hk a (h.2 a ha)

theorem Gives.to {f f' : Nat → Nat} {B B' : Nat} {r : Res (Tensor α)} {k : Tensor α → Res (Tensor α)} (h : Gives f B r)
    (hk : ∀ a, Like f B a → Gives f' B' (k a)) : Gives f' B' (r >>= k) := .bind h.1 fun a ha => hk a (h.2 a ha)

theorem Gives.fine {f : Nat → Nat} {B : Nat} {r : Res (Tensor α)} (h : Gives f B r) : GivesFine r := ⟨h.1, fun y hy => (h.2 y hy).fine⟩

theorem Gives.toFine {f : Nat → Nat} {B : Nat} {r : Res (Tensor α)} {k : Tensor α → Res (Tensor α)} (h : Gives f B r)
    (hk : ∀ a, Like f B a → GivesFine (k a)) : GivesFine (r >>= k) := .bind h.1 fun a ha => hk a (h.2 a ha)

theorem at_safe {β : Type} (l : List β) (i : Nat) : (Graph.at' l i).Safe := by unfold Graph.at'; split <;> simp

theorem at_mem {β : Type} {l : List β} {i : Nat} {a : β} (h : Graph.at' l i = ok a) : a ∈ l := by
  rw [Graph.at'_eq_ok] at h
  exact List.mem_of_getElem? h

theorem KeepsT.of_good {g : Tensor α} {e : Nat} {r : Res (Tensor α)} (h : Good e g.shape r) (hd : ∀ y, r = ok y → g.device = some e) : KeepsT g r :=
  ⟨h.1, fun y hy => by obtain ⟨h1, h2, h3, _⟩ := h.2 y hy; exact ⟨h1, by rw [h2, hd y hy], h3⟩⟩

theorem Is.like {s : Shape} {f : Nat → Nat} {b B : Nat} {t : Tensor α} (h : s.Is f b) (ht : t.Fine) (hs : t.shape = s) (hb : b = 1 ∨ b = B) :
    Like f B t := ⟨ht, fun i => by rw [hs, h.2.1], by rw [hs, h.2.2]; exact hb⟩

theorem Like.self {t : Tensor α} (h : t.Fine) : Like t.shape.get t.shape.batch t := ⟨h, fun _ => rfl, .inr rfl⟩

theorem Like.congr {f f' : Nat → Nat} {B B' : Nat} {t : Tensor α} (h : Like f B t) (hf : ∀ i, f i = f' i) (hB : B = 1 ∨ B = B') : Like f' B' t := by
  refine ⟨h.fine, fun i => by rw [h.dims, hf], ?_⟩
  rcases h.batch with h | h
  · exact .inl h
  · rw [h]; exact hB

theorem Gives.congr {f f' : Nat → Nat} {B B' : Nat} {r : Res (Tensor α)} (h : Gives f B r) (hf : ∀ i, f i = f' i) (hB : B = 1 ∨ B = B') : Gives f' B' r :=
  ⟨h.1, fun y hy => (h.2 y hy).congr hf hB⟩

theorem max_either {a b B : Nat} (ha : a = 1 ∨ a = B) (hb : b = 1 ∨ b = B) (ha' : 1 ≤ a) (hb' : 1 ≤ b) : max a b = 1 ∨ max a b = B := by
  rcases ha with ha | ha <;> rcases hb with hb | hb <;> omega

theorem setC_same (f : Nat → Nat) (dim i : Nat) : setC f dim (f dim) i = f i := by
  unfold setC; split <;> simp_all

variable [Flt α]

theorem TF.call_gives {op : FwOp α} {m : Nat → α} {x : Tensor α} {args : List (Tensor α)} (hx : ∀ a ∈ args, a.Fine) {f : Nat → Nat} {B : Nat}
    (hs : ∀ s, op.shape .debug (args.map Tensor.shape) = ok s → ∃ b, s.Is f b ∧ (b = 1 ∨ b = B)) : Gives f B (TF.call op .debug m x args) := by
  unfold TF.call
  refine Gives.bind (Tensor.dev_safe _) fun e _ => ?_
  have h := Dev.fw_good (op := op) (p := .debug) hx (.inl rfl) e m
  refine ⟨h.1, fun y hy => ?_⟩
  obtain ⟨s, h1, h2, _, h4, _⟩ := h.2 y hy
  obtain ⟨b, h5, h6⟩ := hs s h1
  exact Is.like h5 h2 h4 h6

theorem TF.un_gives {u : Un} {m : Nat → α} {x : Tensor α} {f : Nat → Nat} {B : Nat} (hx : Like f B x) :
    Gives f B (TF.call (.un u) .debug m x [x]) := by
  refine TF.call_gives (by simpa using hx.fine) fun s hs => ?_
  have hs : ok x.shape = ok s := hs
  cases hs
  exact ⟨x.shape.batch, ⟨hx.fine.wf, hx.dims, rfl⟩, hx.batch⟩

theorem TF.abOp_gives {b : Bi} {l r : Sc} {m : Nat → α} {x y : Tensor α} {f : Nat → Nat} {B : Nat} (hx : Like f B x) (hy : Like f B y) :
    Gives f B (TF.abOp b l r .debug m x y) := by
  unfold TF.abOp
  have px := hx.fine.wf.batch_pos
  have py := hy.fine.wf.batch_pos
  split
  · refine TF.call_gives (by simpa using ⟨hy.fine, hx.fine⟩) fun s hs => ?_
    obtain ⟨_, _, h⟩ := (Shape.scalarOp_iff hy.fine.wf hx.fine.wf).mp (show ShapeOps.scalarOp y.shape x.shape = ok s from hs)
    exact ⟨_, ⟨h.1, fun i => by rw [h.2.1, hy.dims], h.2.2⟩, max_either hy.batch hx.batch py px⟩
  · split
    · refine TF.call_gives (by simpa using ⟨hx.fine, hy.fine⟩) fun s hs => ?_
      obtain ⟨_, _, h⟩ := (Shape.scalarOp_iff hx.fine.wf hy.fine.wf).mp (show ShapeOps.scalarOp x.shape y.shape = ok s from hs)
      exact ⟨_, ⟨h.1, fun i => by rw [h.2.1, hx.dims], h.2.2⟩, max_either hx.batch hy.batch px py⟩
    · refine TF.call_gives (by simpa using ⟨hx.fine, hy.fine⟩) fun s hs => ?_
      obtain ⟨_, _, h⟩ := (Shape.elementwise_iff hx.fine.wf hy.fine.wf).mp (show ShapeOps.elementwise x.shape y.shape = ok s from hs)
      exact ⟨_, ⟨h.1, fun i => by rw [h.2.1, hx.dims], h.2.2⟩, max_either hx.batch hy.batch px py⟩

theorem TF.abOp_fine {b : Bi} {l r : Sc} {m : Nat → α} {x y : Tensor α} (hx : x.Fine) (hy : y.Fine) :
    GivesFine (TF.abOp b l r .debug m x y) := by
  have key : ∀ (op : FwOp α) (a : Tensor α) (args : List (Tensor α)), (∀ t ∈ args, t.Fine) → GivesFine (TF.call op .debug m a args) := by
    intro op a args h
    unfold TF.call
    refine GivesFine.bind (Tensor.dev_safe _) fun e _ => ?_
    have h := Dev.fw_good (op := op) (p := .debug) h (.inl rfl) e m
    exact ⟨h.1, fun y hy => by obtain ⟨_, _, h, _⟩ := h.2 y hy; exact h⟩
  unfold TF.abOp
  split
  · exact key _ _ _ (by simpa using ⟨hy, hx⟩)
  · split
    · exact key _ _ _ (by simpa using ⟨hx, hy⟩)
    · exact key _ _ _ (by simpa using ⟨hx, hy⟩)

theorem TF.call_fine {op : FwOp α} {m : Nat → α} {x : Tensor α} {args : List (Tensor α)} (h : ∀ t ∈ args, t.Fine) :
    GivesFine (TF.call op .debug m x args) := by
  unfold TF.call
  refine GivesFine.bind (Tensor.dev_safe _) fun e _ => ?_
  have h := Dev.fw_good (op := op) (p := .debug) h (.inl rfl) e m
  exact ⟨h.1, fun y hy => by obtain ⟨_, _, h, _⟩ := h.2 y hy; exact h⟩

theorem TF.reduce_gives {op : FwOp α} {m : Nat → α} {x : Tensor α} {dim : Nat}
    (hop : ∀ s, op.shape .debug [s] = s.resizeDim .debug dim 1) {f : Nat → Nat} {B : Nat} (hx : Like f B x) :
    Gives (setC f dim 1) B (TF.call op .debug m x [x]) := by
  refine TF.call_gives (by simpa using hx.fine) fun s hs => ?_
  obtain ⟨_, _, _, h⟩ := hx.fine.wf.resizeDim_iff.mp ((hop x.shape).symm.trans hs)
  refine ⟨_, ⟨h.1, fun i => ?_, h.2.2⟩, hx.batch⟩
  rw [h.2.1, funext hx.dims]

theorem TF.sum_gives {m : Nat → α} {x : Tensor α} {dim : Nat} {f : Nat → Nat} {B : Nat} (hx : Like f B x) :
    Gives (setC f dim 1) B (TF.sum .debug m x dim) := TF.reduce_gives (fun _ => rfl) hx

theorem TF.logsumexp_gives {m : Nat → α} {x : Tensor α} {dim : Nat} {f : Nat → Nat} {B : Nat} (hx : Like f B x) :
    Gives (setC f dim 1) B (TF.logsumexp .debug m x dim) := TF.reduce_gives (fun _ => rfl) hx

theorem TF.broadcast_gives {m : Nat → α} {x : Tensor α} {dim n : Nat} {f : Nat → Nat} {B : Nat} (hx : Like f B x) :
    Gives (setC f dim n) B (TF.broadcast .debug m x dim n) := by
  refine TF.call_gives (by simpa using hx.fine) fun s hs => ?_
  obtain ⟨_, _, _, _, h⟩ := (Shape.broadcast_iff hx.fine.wf).mp (show ShapeOps.broadcast .debug x.shape dim n = ok s from hs)
  refine ⟨_, ⟨h.1, fun i => ?_, h.2.2⟩, hx.batch⟩
  rw [h.2.1, funext hx.dims]

/-- Back to the original size. -/
theorem TF.broadcast_gives' {m : Nat → α} {x : Tensor α} {dim : Nat} {f : Nat → Nat} {B : Nat} (hx : Like (setC f dim 1) B x) :
    Gives f B (TF.broadcast .debug m x dim (f dim)) :=
  (TF.broadcast_gives (n := f dim) hx).congr (fun i => by unfold setC; split <;> simp_all) (.inr rfl)

theorem TF.lnSoftmax_gives {m : Mem α} {x : Tensor α} {dim : Nat} {f : Nat → Nat} {B : Nat} (hx : Like f B x) :
    Gives f B (TF.lnSoftmax .debug m x dim) := by
  unfold TF.lnSoftmax
  refine (TF.logsumexp_gives hx).to fun a ha => ?_
  rw [hx.dims]
  exact (TF.broadcast_gives' ha).to fun b hb => TF.abOp_gives hx hb

theorem TF.softmax_gives {m : Mem α} {x : Tensor α} {dim : Nat} {f : Nat → Nat} {B : Nat} (hx : Like f B x) :
    Gives f B (TF.softmax .debug m x dim) := (TF.lnSoftmax_gives hx).to fun _ ha => TF.un_gives ha

theorem Tensor.reshape_gives {m : Nat → α} {x : Tensor α} (hx : x.Fine) {s : Shape} (hs : s.WF) (d : Nat) :
    Gives s.get s.batch (do let t ← Dev.copyTensor .debug d m x; t.updateShape .debug s) := by
  have h := Dev.copyTensor_good hx d m
  refine Gives.bind h.1 fun t ht => ?_
  have h2 := Tensor.updateShape_good (h.2 t ht).1 hs
  refine ⟨h2.1, fun y hy => ?_⟩
  have hsh : y.shape = s := by
    simp only [Tensor.updateShape, Res.bind_eq_ok, Res.ok.injEq] at hy
    obtain ⟨_, _, _, _, _, _, rfl⟩ := hy
    rfl
  exact ⟨h2.2 y hy, fun i => by rw [hsh], .inr (by rw [hsh])⟩

/-- `t.flatten().sum(0)`. -/
theorem NodeOp.total_gives {m : Mem α} {t : Tensor α} {f : Nat → Nat} {B : Nat} (ht : Like f B t) :
    Gives (fun _ => 1) B (NodeOp.total .debug m t) := by
  unfold NodeOp.total TF.flatten TF.reshape
  simp only [Res.bind_assoc]
  refine Gives.bind (Shape.new_safe _ _ _) fun s hs => ?_
  obtain ⟨h1, h2, h3⟩ := Shape.new_ok hs
  refine Gives.bind (Tensor.dev_safe _) fun e _ => ?_
  rw [← Res.bind_assoc]
  refine Gives.to (f := fun i => if i = 0 then t.shape.volume else 1) (B := B) ?_ fun y hy => (TF.sum_gives hy).congr (fun i => by
    unfold setC
    by_cases hi : i = 0
    · rw [if_pos hi]
    · rw [if_neg hi]; exact if_neg hi) (.inr rfl)
  refine (Tensor.reshape_gives (m := m 0) ht.fine h1 e).congr (fun i => ?_) ?_
  · rw [h3]
    match i with
    | 0 => rfl
    | i + 1 => simp [Shape.raw]
  · rw [h2]; exact ht.batch

theorem TF.addAssign_keeps {g t : Tensor α} {f : Nat → Nat} {B : Nat} (hg : Like f B g) (ht : Like f B t) : KeepsT g (TF.addAssign .debug g t) := by
  unfold TF.addAssign
  refine KeepsT.bind (Tensor.dev_safe _) fun e he => ?_
  refine KeepsT.of_good (Dev.addAssign_good ht.fine hg.fine (fun i => by rw [ht.dims, hg.dims]) ?_) (e := e) fun _ _ => ?_
  · rcases ht.batch with h | h <;> rcases hg.batch with h' | h' <;> omega
  · simp only [Tensor.dev, unwrap] at he
    split at he
    · cases he; assumption
    · cases he

theorem TF.subAssign_keeps {g t : Tensor α} {f : Nat → Nat} {B : Nat} (hg : Like f B g) (ht : Like f B t) : KeepsT g (TF.subAssign .debug g t) := by
  unfold TF.subAssign
  refine KeepsT.bind (Tensor.dev_safe _) fun e he => ?_
  refine KeepsT.of_good (Dev.subAssign_good ht.fine hg.fine (fun i => by rw [ht.dims, hg.dims]) ?_) (e := e) fun _ _ => ?_
  · rcases ht.batch with h | h <;> rcases hg.batch with h' | h' <;> omega
  · simp only [Tensor.dev, unwrap] at he
    split at he
    · cases he; assumption
    · cases he

/-- A scalar of each batch is added to (subtracted from) the first element. -/
theorem TF.addAssign_keeps' {g t : Tensor α} {f : Nat → Nat} {B : Nat} (hg : Like f B g) (ht : Like (fun _ => 1) B t) : KeepsT g (TF.addAssign .debug g t) := by
  unfold TF.addAssign
  refine KeepsT.bind (Tensor.dev_safe _) fun e he => ?_
  refine KeepsT.of_good (Dev.addAssign_good' ht.fine hg.fine (by rw [ht.fine.wf.scalar_volume ht.dims]; exact hg.fine.wf.volume_pos) ?_) (e := e) fun _ _ => ?_
  · rcases ht.batch with h | h <;> rcases hg.batch with h' | h' <;> omega
  · simp only [Tensor.dev, unwrap] at he
    split at he
    · cases he; assumption
    · cases he

/-- A scalar of each batch is added to (subtracted from) the first element. -/
theorem TF.subAssign_keeps' {g t : Tensor α} {f : Nat → Nat} {B : Nat} (hg : Like f B g) (ht : Like (fun _ => 1) B t) : KeepsT g (TF.subAssign .debug g t) := by
  unfold TF.subAssign
  refine KeepsT.bind (Tensor.dev_safe _) fun e he => ?_
  refine KeepsT.of_good (Dev.subAssign_good' ht.fine hg.fine (by rw [ht.fine.wf.scalar_volume ht.dims]; exact hg.fine.wf.volume_pos) ?_) (e := e) fun _ _ => ?_
  · rcases ht.batch with h | h <;> rcases hg.batch with h' | h' <;> omega
  · simp only [Tensor.dev, unwrap] at he
    split at he
    · cases he; assumption
    · cases he

theorem Dev.bw_keeps {op : BwOp α} {xs ys : List (Tensor α)} {gy gx : Tensor α} (hx : ∀ x, x ∈ xs → x.Fine)
    (hy : ∀ y, y ∈ ys → y.Fine) (hgy : gy.Fine) (hgx : gx.Fine) (hop : op.Checked) (d : Nat) (m : Mem α) :
    KeepsT gx (Dev.bw op .debug d m xs ys gy gx) := by
  refine KeepsT.of_good (Dev.bw_good hx hy hgy hgx hop d m) fun y hy' => ?_
  unfold Dev.bw at hy'
  simp only [Res.bind_eq_ok] at hy'
  obtain ⟨_, _, _, _, _, _, _, h, _⟩ := hy'
  exact Tensor.onDev_eq_ok.mp h

end Verif
