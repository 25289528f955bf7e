import Verif.Safety3

/-!
# Exactly when the forward device functions panic
-/

set_option linter.unusedSectionVars false

namespace Verif
open Res
variable {α : Type} {d : Nat} [Flt α]

/-- Constants that are representable in the program's types. -/
def FwOp.InRange : FwOp α → Prop
  | .powi k => -2147483648 ≤ k ∧ k ≤ 2147483647
  | _ => True

/-- What a forward function needs: all operands on its device and allocated, an accepted combination of shapes, a result that fits
in a block of the pool, and no overflow inside the kernel. -/
structure FwOp.Pre (op : FwOp α) (d : Nat) (xs : List (Tensor α)) (s : Shape) : Prop where
  dev : ∀ x, x ∈ xs → x.device = some d
  buf : ∀ x, x ∈ xs → x.buf ≠ none
  shape : op.shape .debug (xs.map Tensor.shape) = ok s
  size : s.size ≤ 2 ^ 31
  fits : op.Fits s

theorem Good.eq_panic {r : Res (Tensor α)} (h : ∀ s, Good d s r) : r = Res.panic := by
  cases r with
  | panic => rfl
  | ub => exact absurd rfl (h ⟨[], 1, 0, 1⟩).1
  | ok y =>
    have h1 := ((h ⟨[], 1, 0, 1⟩).2 y rfl).2.2.1
    have h2 := ((h ⟨[], 2, 0, 1⟩).2 y rfl).2.2.1
    rw [h1] at h2; cases h2

theorem loop_ok_body {n : Nat} {f : Nat → σ → Res σ} {s t : σ} (h : loop n f s = ok t) :
    ∀ i, i < n → ∃ a b, f i a = ok b := by
  induction n generalizing t with
  | zero => intro i hi; omega
  | succ n ih =>
    rw [loop_succ, Res.bind_eq_ok] at h
    obtain ⟨a, h1, h2⟩ := h
    intro i hi
    by_cases hin : i = n
    · subst hin; exact ⟨a, t, h2⟩
    · exact ih h1 i (by omega)

theorem ne_ok_of_safe {r : Res σ} (h : r.Safe) (h' : ∀ a, r ≠ ok a) : r = panic := by
  cases r with
  | panic => rfl
  | ub => exact absurd rfl h
  | ok a => exact absurd rfl (h' a)

theorem K.concat_null {p : Profile} {xs : List (Tensor α)} {u : List Nat} {v : List α} {y : Tensor α} {x : Tensor α}
    (hx : x ∈ xs) (hb : x.buf = none) : ∀ z, K.concatFw p xs u v y ≠ ok z := by
  intro z hz
  unfold K.concatFw at hz
  simp only [Res.bind_eq_ok] at hz
  obtain ⟨dim, _, base, _, _, _, st, hl, _⟩ := hz
  obtain ⟨n, hn, rfl⟩ := List.getElem_of_mem hx
  obtain ⟨a, b, hab⟩ := loop_ok_body hl n hn
  simp only [Res.bind_eq_ok] at hab
  obtain ⟨x', e, px, hp, _⟩ := hab
  rw [ix_eq hn] at e; cases e
  rw [ptr_none hb] at hp; cases hp

theorem K.batchConcat_null {p : Profile} {xs : List (Tensor α)} {u : List Nat} {v : List α} {y : Tensor α} {x : Tensor α}
    (hx : x ∈ xs) (hb : x.buf = none) : ∀ z, K.batchConcatFw p xs u v y ≠ ok z := by
  intro z hz
  unfold K.batchConcatFw at hz
  simp only [Res.bind_eq_ok] at hz
  obtain ⟨py, _, st, hl, _⟩ := hz
  obtain ⟨n, hn, rfl⟩ := List.getElem_of_mem hx
  obtain ⟨a, b, hab⟩ := loop_ok_body hl n hn
  simp only [Res.bind_eq_ok] at hab
  obtain ⟨x', e, px, hp, _⟩ := hab
  rw [ix_eq hn] at e; cases e
  rw [ptr_none hb] at hp; cases hp

theorem K.triangular_overflow {lower : Bool} {x y : Tensor α} {k : Nat} {v : List α} (hw : x.shape.WF) (hb : 1 ≤ y.shape.batch)
    (hk : U32 < x.shape.get 0 + k) : ∀ z, K.triangularFw lower .debug [x] [k] v y ≠ ok z := by
  intro z hz
  unfold K.triangularFw at hz
  simp only [ix_cons_zero, ok_bind, Res.bind_eq_ok] at hz
  obtain ⟨px, _, py, _, st, hl, _⟩ := hz
  have h0 := hw.get_pos 0
  generalize hm : x.shape.get 0 = m at *
  obtain ⟨a, b, h1⟩ := loop_ok_body hl 0 (by omega)
  obtain ⟨a1, b1, h2⟩ := loop_ok_body h1 (m - 1) (by omega)
  obtain ⟨a2, b2, h3⟩ := loop_ok_body h2 (m - 1) (by omega)
  have hu : ∀ t, uadd .debug (m - 1) k ≠ ok t := by
    intro t ht
    obtain ⟨q, _⟩ := Shape.u32_debug_ok.mp ht
    omega
  rw [Res.bind_eq_ok] at h3
  obtain ⟨keep, h4, _⟩ := h3
  cases lower
  · simp only [Bool.false_eq_true, if_false, Res.bind_eq_ok] at h4
    obtain ⟨t, ht, _⟩ := h4; exact hu t ht
  · simp only [if_true, Res.bind_eq_ok] at h4
    obtain ⟨t, ht, _⟩ := h4; exact hu t ht

/-- Outside the precondition a forward function panics. -/
theorem Dev.fw_panics {op : FwOp α} {xs : List (Tensor α)} (hx : ∀ x, x ∈ xs → x.Fine) (hr : op.InRange)
    (h : ¬ ∃ s, op.Pre d xs s) (m : Nat → α) : Dev.fw op .debug d m xs = panic := by
  have hg := Dev.fw_good (op := op) (p := .debug) hx (.inl rfl) d m
  refine ne_ok_of_safe hg.1 fun y hy => h ?_
  obtain ⟨s, hs, _, _, _, _⟩ := hg.2 y hy
  have hwf : ∀ t, t ∈ xs.map Tensor.shape → t.WF := by
    intro t ht; obtain ⟨x, h1, rfl⟩ := List.mem_map.mp ht; exact (hx x h1).wf
  have hsw := FwOp.shape_wf hwf hs
  unfold Dev.fw at hy
  simp only [Res.bind_eq_ok] at hy
  obtain ⟨_, hd, s', hs', y0, ha, hk⟩ := hy
  rw [hs] at hs'; cases hs'
  obtain ⟨hsz, hroom⟩ := Tensor.alloc_new_imp hsw ha
  obtain ⟨ly, hly, _⟩ := hroom.buf
  refine ⟨s, Dev.onAll_eq_ok.mp hd, ?_, hs, hsz, ?_⟩
  · intro x hxm hb
    by_cases har : op.arity = none
    · cases op
      case concat dim => exact K.concat_null (v := []) hxm hb y hk
      case batchConcat => exact K.batchConcat_null (u := []) (v := []) hxm hb y hk
      all_goals cases har
    · have := Good.eq_panic (d := d) (fun sh => FwOp.null_good (d := d) (sh := sh) (p := .debug) hs (y := y0) (by rw [hly]; simp) ⟨x, hxm, hb⟩ har)
      rw [this] at hk; cases hk
  · have tri : ∀ (lower : Bool) (k : Nat), op = (if lower then .triangularL k else .triangularU k) → s.get 0 + k ≤ U32 := by
      intro lower k e
      by_contra hlt
      have hl : xs.length = 1 := by
        have := FwOp.shape_len hs 1 (by subst e; cases lower <;> rfl)
        simpa using this
      obtain ⟨x, rfl⟩ := List.length_eq_one_iff.mp hl
      have hm : x.shape = s := by
        subst e
        cases lower
        · obtain ⟨a, b⟩ := check_bind_ok.mp hs; cases b; rfl
        · obtain ⟨a, b⟩ := check_bind_ok.mp hs; cases b; rfl
      have hk' : K.triangularFw lower .debug [x] [k] [] y0 = ok y := by
        rw [← hk]; subst e; cases lower <;> rfl
      refine K.triangular_overflow (hx x (by simp)).wf ?_ (by rw [hm]; omega) y hk'
      rw [hroom.shape]; exact hsw.batch_pos
    cases op
    case triangularL k => exact tri true k rfl
    case triangularU k => exact tri false k rfl
    case powi k => exact hr
    all_goals exact trivial

/-- The outcome of a forward function in a build with overflow checks, completely. -/
theorem Dev.fw_spec {op : FwOp α} {xs : List (Tensor α)} (hx : ∀ x, x ∈ xs → x.Fine) (hr : op.InRange) :
    (∃ s ins, op.Pre d xs s ∧ HoldAll d xs ins ∧ ins.map Prod.fst = xs.map Tensor.shape ∧
      ∀ m, ∃ y, Dev.fw op .debug d m xs = ok y ∧ y.Holds d s (op.sem ins)) ∨
    (¬ (∃ s, op.Pre d xs s) ∧ ∀ m, Dev.fw op .debug d m xs = panic) := by
  by_cases h : ∃ s, op.Pre d xs s
  · obtain ⟨s, hp⟩ := h
    obtain ⟨ins, h1, h2⟩ := HoldAll.of_fine (d := d) (xs := xs) (fun x hxm => ⟨hx x hxm, hp.dev x hxm, hp.buf x hxm⟩)
    exact .inl ⟨s, ins, hp, h1, h2, fun m => Dev.fw_ok h1 (by rw [h2]; exact hp.shape) hp.size hp.fits .debug m⟩
  · exact .inr ⟨h, fun m => Dev.fw_panics hx hr h m⟩

end Verif
