import Verif.Kernels
import Verif.Index
import Verif.PoolLemmas

/-!
# Rules for reasoning about kernels

`PW N T φ`: the buffer transformer `T` succeeds on buffers of length `N` and changes the element at `k` by `φ k`.
-/

namespace Verif
open Res

/-- Loops that carry a ghost component whose value is a function of the iteration number. -/
theorem loop_ghost {Q σ : Type} {n : Nat} {body : Nat → Q × σ → Res (Q × σ)} {s : σ} {q : Q}
    (g : Nat → Q) (f : Nat → σ → Res σ) (h0 : g 0 = q)
    (hb : ∀ i, i < n → ∀ s, body i (g i, s) = (f i s >>= fun t => ok (g (i + 1), t))) :
    loop n body (q, s) = (loop n f s >>= fun t => ok (g n, t)) := by
  subst h0
  induction n with
  | zero => rfl
  | succ n ih =>
    rw [loop_succ, loop_succ, ih (fun i hi => hb i (by omega)), Res.bind_assoc, Res.bind_assoc]
    apply Res.bind_congr
    intro t _
    rw [ok_bind, hb n (by omega)]

/-- The transformer changes each element independently. -/
def PW {α : Type} (N : Nat) (T : List α → Res (List α)) (φ : Nat → α → α) : Prop :=
  ∀ t : List α, t.length = N → ∃ t', T t = ok t' ∧ t'.length = N ∧ ∀ k, t'[k]? = (t[k]?).map (φ k)

namespace PW
variable {α : Type} {N : Nat}

theorem id' : PW (α := α) N (fun t => ok t) (fun _ a => a) := fun t ht => ⟨t, rfl, ht, fun k => by cases t[k]? <;> rfl⟩

theorem congr {T T' : List α → Res (List α)} {φ φ' : Nat → α → α} (h : PW N T φ)
    (hT : ∀ t, t.length = N → T' t = T t) (hφ : ∀ k, k < N → ∀ a, φ' k a = φ k a) : PW N T' φ' := by
  intro t ht
  obtain ⟨t', h1, h2, h3⟩ := h t ht
  refine ⟨t', by rw [hT t ht, h1], h2, fun k => ?_⟩
  rw [h3]
  by_cases hk : k < N
  · cases t[k]? <;> simp [hφ k hk]
  · rw [List.getElem?_eq_none (by omega)]; rfl

theorem upd {p : Nat} {f : α → α} (hp : p < N) :
    PW N (fun t => Verif.upd t p f) (fun k a => if k = p then f a else a) := by
  intro t ht
  have hp' : p < t.length := by omega
  refine ⟨t.set p (f t[p]), upd_eq hp' f, by simpa using ht, fun k => ?_⟩
  rw [List.getElem?_set]
  by_cases h : p = k
  · subst h; simp [hp']
  · rw [if_neg h]
    have h' : ¬ k = p := fun e => h e.symm
    cases t[k]? <;> simp [h']

theorem wr {p : Nat} {v : α} (hp : p < N) :
    PW N (fun t => Verif.wr t p v) (fun k a => if k = p then v else a) :=
  (PW.upd (f := fun _ => v) hp).congr (fun t _ => wr_eq_upd t p v) (fun _ _ _ => rfl)

theorem bind {T U : List α → Res (List α)} {φ ψ : Nat → α → α} (hT : PW N T φ) (hU : PW N U ψ) :
    PW N (fun t => T t >>= U) (fun k a => ψ k (φ k a)) := by
  intro t ht
  obtain ⟨t1, h1, h2, h3⟩ := hT t ht
  obtain ⟨t2, h4, h5, h6⟩ := hU t1 h2
  refine ⟨t2, by simp only [h1, ok_bind, h4], h5, fun k => ?_⟩
  rw [h6, h3]; cases t[k]? <;> rfl

theorem loop {n : Nat} {body : Nat → List α → Res (List α)} {φ : Nat → Nat → α → α}
    (h : ∀ i, i < n → PW N (body i) (φ i)) :
    PW N (Verif.loop n body) (fun k => foldN n (fun i => φ i k)) := by
  induction n with
  | zero => exact id'
  | succ n ih => exact (ih (fun i hi => h i (by omega))).bind (h n (by omega))

end PW

/-- Only one iteration acts; with its effect. -/
theorem foldN_one {n : Nat} {f : Nat → σ → σ} {s r : σ} (j : Nat) (hj : j < n)
    (h : ∀ i, i < n → i ≠ j → ∀ t, f i t = t) (hr : f j s = r) : foldN n f s = r := by
  rw [foldN_single j hj h, hr]

theorem foldN_if {n : Nat} {k : Nat} {f : σ → σ} {s : σ} (hk : k < n) :
    foldN n (fun i a => if k = i then f a else a) s = f s :=
  foldN_one k hk (fun i _ hne t => by rw [if_neg (fun e => hne e.symm)]) (by rw [if_pos rfl])

/-! ## Tensors with known contents -/

/-- The tensor lives on device `d`, has shape `s` and its `k`-th element is `g k`. -/
structure Tensor.Flat {α : Type} (t : Tensor α) (d : Nat) (s : Shape) (g : Nat → α) : Prop where
  device : t.device = some d
  host : t.host = none
  shape : t.shape = s
  wf : s.WF
  small : s.size ≤ 2 ^ 31
  buf : ∃ l, t.buf = some l ∧ s.size ≤ l.length ∧ ∀ k, k < s.size → l[k]? = some (g k)

/-- The tensor lives on device `d`, has shape `s` and a sufficient buffer. -/
structure Tensor.Room {α : Type} (t : Tensor α) (d : Nat) (s : Shape) : Prop where
  device : t.device = some d
  host : t.host = none
  shape : t.shape = s
  wf : s.WF
  small : s.size ≤ 2 ^ 31
  buf : ∃ l, t.buf = some l ∧ s.size ≤ l.length

theorem Tensor.Flat.room {α : Type} {t : Tensor α} {d : Nat} {s : Shape} {g : Nat → α} (h : t.Flat d s g) : t.Room d s :=
  ⟨h.device, h.host, h.shape, h.wf, h.small, by obtain ⟨l, h1, h2, _⟩ := h.buf; exact ⟨l, h1, h2⟩⟩

theorem Tensor.Flat.congr {α : Type} {t : Tensor α} {d : Nat} {s : Shape} {g g' : Nat → α} (h : t.Flat d s g)
    (hg : ∀ k, k < s.size → g' k = g k) : t.Flat d s g' :=
  ⟨h.device, h.host, h.shape, h.wf, h.small, by
    obtain ⟨l, h1, h2, h3⟩ := h.buf
    exact ⟨l, h1, h2, fun k hk => by rw [h3 k hk, hg k hk]⟩⟩

theorem Shape.sizeU_eq {s : Shape} (h : s.size ≤ 2 ^ 31) (p : Profile) : s.sizeU p = ok s.size :=
  u32_ok (by unfold Shape.size at h; show _ < 4294967296; omega)

theorem Tensor.Room.ptr {α : Type} {t : Tensor α} {d : Nat} {s : Shape} (h : t.Room d s) :
    ∃ l, t.ptr = ok l ∧ t.buf = some l ∧ s.size ≤ l.length := by
  obtain ⟨l, h1, h2⟩ := h.buf
  exact ⟨l, by simp [Tensor.ptr, unwrap, h1], h1, h2⟩

theorem Tensor.Flat.ptr {α : Type} {t : Tensor α} {d : Nat} {s : Shape} {g : Nat → α} (h : t.Flat d s g) :
    ∃ l, t.ptr = ok l ∧ t.buf = some l ∧ s.size ≤ l.length ∧ ∀ k, k < s.size → rd l k = ok (g k) := by
  obtain ⟨l, h1, h2, h3⟩ := h.buf
  exact ⟨l, by simp [Tensor.ptr, unwrap, h1], h1, h2, fun k hk => rd_some (h3 k hk)⟩

/-- The new buffer of a tensor after a pointwise update, as a `Flat` fact. -/
theorem Tensor.Room.write {α : Type} {t : Tensor α} {d : Nat} {s : Shape} (h : t.Room d s) {l l' : List α} {g : Nat → α}
    (hl : s.size ≤ l.length) (hl' : l'.length = l.length) (hg : ∀ k, k < s.size → l'[k]? = some (g k)) :
    ({ t with buf := some l' } : Tensor α).Flat d s g :=
  ⟨h.device, h.host, h.shape, h.wf, h.small, ⟨l', rfl, by omega, hg⟩⟩

/-- Result of a kernel whose effect on y's buffer is pointwise with constant values. -/
theorem PW.result {α : Type} {t : Tensor α} {d : Nat} {s : Shape} (h : t.Room d s) {l : List α}
    {T : List α → Res (List α)} {φ : Nat → α → α} {g : Nat → α} (hT : PW l.length T φ) (hl : s.size ≤ l.length)
    (hg : ∀ k, k < s.size → ∀ a, φ k a = g k) :
    ∃ l', T l = ok l' ∧ ({ t with buf := some l' } : Tensor α).Flat d s g := by
  obtain ⟨l', h1, h2, h3⟩ := hT l rfl
  refine ⟨l', h1, h.write hl h2 (fun k hk => ?_)⟩
  rw [h3, List.getElem?_eq_getElem (by omega), Option.map_some, hg k hk]

/-- Result of a kernel that modifies y's elements. -/
theorem PW.result' {α : Type} {t : Tensor α} {d : Nat} {s : Shape} {l : List α} {g0 : Nat → α}
    (h : t.Flat d s g0) (hl : t.buf = some l)
    {T : List α → Res (List α)} {φ : Nat → α → α} (hT : PW l.length T φ) :
    ∃ l', T l = ok l' ∧ ({ t with buf := some l' } : Tensor α).Flat d s (fun k => φ k (g0 k)) := by
  obtain ⟨l0, e, hs, hg⟩ := h.buf
  rw [hl] at e; cases e
  obtain ⟨l', h1, h2, h3⟩ := hT l rfl
  refine ⟨l', h1, h.room.write hs h2 (fun k hk => ?_)⟩
  rw [h3, hg k hk, Option.map_some]

/-! ## Allocation -/

theorem newBuf_ok {α : Type} {size : Nat} (h1 : 1 ≤ size) (h2 : size ≤ 2 ^ 31) (m : Nat → α) :
    ∃ l, newBuf size m = ok l ∧ size ≤ l.length := by
  have hu : size < U32 := by show size < 4294967296; omega
  cases hc : Pool.classOf size with
  | none =>
    rcases (Pool.classOf_none_iff hu).mp hc with h | h <;> omega
  | some s =>
    refine ⟨(List.range (2 ^ s)).map m, by simp [newBuf, hc], ?_⟩
    have := ((Pool.classOf_iff hu).mp hc).2.2.1
    simp only [List.length_map, List.length_range]; omega

theorem newBuf_safe {α : Type} (size : Nat) (m : Nat → α) : (newBuf size m).Safe := by
  unfold newBuf; split <;> simp

theorem Tensor.alloc_safe {α : Type} (p : Profile) (m : Nat → α) (t : Tensor α) : (t.alloc p m).Safe := by
  unfold Tensor.alloc
  refine Res.Safe.bind (check_safe _) fun _ _ => Res.Safe.bind (check_safe _) fun _ _ => Res.Safe.bind ?_ fun _ _ =>
    Res.Safe.bind (Shape.u32_safe _ _) fun _ _ => Res.Safe.bind (newBuf_safe _ _) fun _ _ => by simp
  unfold unwrap; split <;> simp

theorem Tensor.alloc_new_eq {α : Type} (s : Shape) (p : Profile) (d : Nat) (m : Nat → α) :
    (Tensor.new d s : Tensor α).alloc p m =
      (s.sizeU p >>= fun size => newBuf size m >>= fun b => ok ⟨some d, s, some b, none⟩) := rfl

/-- Allocation of a new tensor. -/
theorem Tensor.alloc_new {α : Type} {s : Shape} (hs : s.WF) (hsz : s.size ≤ 2 ^ 31) (p : Profile) (d : Nat) (m : Nat → α) :
    ∃ y, (Tensor.new d s : Tensor α).alloc p m = ok y ∧ y.Room d s := by
  obtain ⟨l, h1, h2⟩ := newBuf_ok hs.size_pos hsz m
  refine ⟨⟨some d, s, some l, none⟩, ?_, rfl, rfl, rfl, hs, hsz, l, rfl, h2⟩
  rw [Tensor.alloc_new_eq, Shape.sizeU_eq hsz p, ok_bind, h1, ok_bind]

/-- If allocation succeeds the tensor has room (in a build with overflow checks). -/
theorem Tensor.alloc_new_imp {α : Type} {s : Shape} (hs : s.WF) {d : Nat} {m : Nat → α} {y : Tensor α}
    (h : (Tensor.new d s : Tensor α).alloc .debug m = ok y) : s.size ≤ 2 ^ 31 ∧ y.Room d s := by
  have hsz : s.size ≤ 2 ^ 31 := by
    by_contra hgt
    rw [Tensor.alloc_new_eq, Res.bind_eq_ok] at h
    obtain ⟨sz, h1, h2⟩ := h
    rw [Res.bind_eq_ok] at h2
    obtain ⟨b, h2, _⟩ := h2
    obtain ⟨h3, rfl⟩ := Shape.u32_debug_ok.mp h1
    have hz : s.batch * s.volume = s.size := rfl
    rw [hz] at h3 h2
    unfold newBuf at h2
    rw [(Pool.classOf_none_iff h3).mpr (Or.inr (by omega))] at h2
    simp at h2
  obtain ⟨y', h1, h2⟩ := Tensor.alloc_new hs hsz .debug d m
  rw [h] at h1; cases h1
  exact ⟨hsz, h2⟩

end Verif
