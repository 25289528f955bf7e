import Verif.SerdeLemmas
import Verif.IntInst

/-!
# Properties of saving and loading (C17)
-/

set_option linter.unusedSectionVars false

namespace Verif
open Res
variable {α : Type} [Flt α] {d : Nat} {t : Tensor α} {s : Shape} {f : Arr α}

/-! ### C17 -/

/-- C17: saving a tensor, loading it and moving it to any device gives the same shape, the same elements and the same `to_vec`. -/
theorem C17_tensor_roundtrip (h : t.Holds d s f) (p : Profile) (d' : Nat) (m : Nat → α) :
    ∃ r t' t'', t.serialize p = ok r ∧ Tensor.deserialize p r = ok t' ∧ t'.moveToDevice p d' m = ok t'' ∧
      t''.Holds d' s f ∧ t''.toVec p = t.toVec p := by
  obtain ⟨y, e, hy⟩ := Tensor.moveBack_ok h p d' m
  exact ⟨_, _, y, Tensor.serialize_ok h p, Tensor.deserialize_ok h.wf p _, e, hy, by rw [hy.toVec p, h.toVec p]⟩

/-- C17: the same for a parameter: value, gradient and every statistic. -/
theorem C17_parameter_roundtrip {q : Param α} {a : PArr α} (h : q.Is d a) (p : Profile) (d' : Nat) (m : Mem α) :
    ∃ r q' q'', q.serialize p = ok r ∧ Param.deserialize p r = ok q' ∧ q'.moveToDevice p d' m = ok q'' ∧ q''.Is d' a := by
  obtain ⟨q'', e, hq⟩ := Param.reload_ok h p d' m
  unfold Param.reload at e
  rw [Res.bind_eq_ok] at e
  obtain ⟨r, e1, e⟩ := e
  rw [Res.bind_eq_ok] at e
  obtain ⟨q', e2, e3⟩ := e
  exact ⟨r, q', q'', e1, e2, e3, hq⟩

/-- C17: `move_to_device` panics on a tensor without host values, in particular on every tensor that is on a device. -/
theorem C17_move_twice_panics (h : t.Holds d s f) (p : Profile) (d' : Nat) (m : Nat → α) : t.moveToDevice p d' m = panic := by
  unfold Tensor.moveToDevice
  rw [check_false _ (by rw [h.host]; simp)]; rfl

/-- C17: `move_to_device` of a loaded tensor whose number of values is not the size of its shape panics (with overflow checks for every
shape, and otherwise when the size fits u32). -/
theorem C17_move_wrong_size_panics {p : Profile} {v : List α} (h : p = .debug ∨ s.size < U32) (hv : v.length ≠ s.size) (d' : Nat)
    (m : Nat → α) : (Tensor.newHost s v).moveToDevice p d' m = panic := by
  have key : ∀ n, n ≠ v.length → s.sizeU p = ok n → (Tensor.newHost s v).moveToDevice p d' m = panic := by
    intro n hn hs
    unfold Tensor.moveToDevice
    rw [check_true _ (by rfl), ok_bind]
    simp only [Tensor.newHost, hs, ok_bind]
    unfold newBuf
    cases Pool.classOf n with
    | none => rfl
    | some k =>
      simp only [ok_bind, unwrap]
      unfold Dev.resetTensorBySlice
      simp only [hs, ok_bind]
      rw [check_false _ hn]; rfl
  by_cases hsz : s.size < U32
  · exact key s.size (Ne.symm hv) (Shape.u32_ok hsz)
  · rcases h with rfl | h
    · unfold Tensor.moveToDevice
      rw [check_true _ (by rfl), ok_bind]
      have : s.sizeU .debug = panic := by
        show u32 .debug s.size = panic
        unfold u32; rw [if_neg hsz]
      simp only [Tensor.newHost, this]; rfl
    · exact absurd h hsz

/-- C17: serialising a tensor that is not on a device panics. -/
theorem C17_serialize_host_panics (h : t.device = none) (p : Profile) : t.serialize p = panic := by
  unfold Tensor.serialize Tensor.toVec Tensor.dev
  rw [h]; rfl

/-- Tensors with given elements exist, for the examples. -/
theorem exists_holds {s : Shape} (hs : s.WF) (hsz : s.size ≤ 2 ^ 31) (d : Nat) (f : Nat → α) : ∃ t : Tensor α, t.Holds d s (fun c b => f (s.offset c b)) := by
  obtain ⟨y, _, h⟩ := Dev.newBySlice_ok hs hsz .debug d (fun _ => (0 : α)) (v := (List.range s.size).map f) (by simp)
  refine ⟨y, h.congr fun c b hv => ?_⟩
  have := hs.offset_lt hv
  simp [List.getD, this]

/-- Parameters with given contents exist, for the examples. -/
theorem exists_param {s : Shape} (hs : s.WF) (hsz : s.size ≤ 2 ^ 31) (hb : s.batch = 1) (d : Nat) (v g m : Nat → α) (name : String) :
    ∃ q : Param α, q.Is d ⟨s, fun c b => v (s.offset c b), fun c b => g (s.offset c b),
      fun n => if n = name then some (s, fun c b => m (s.offset c b)) else none⟩ := by
  obtain ⟨t1, h1⟩ := exists_holds hs hsz d v
  obtain ⟨t2, h2⟩ := exists_holds hs hsz d g
  obtain ⟨t3, h3⟩ := exists_holds hs hsz d m
  refine ⟨⟨t1, t2, [(name, t3)]⟩, hb, h1, h2, fun n hn => ?_, by simp, fun n s' f hn => ?_⟩
  · simp only at hn
    split at hn
    · simp at hn
    · rename_i hne
      have : (n == name) = false := by simpa using hne
      simp [Param.stat, List.lookup_cons, this]
  · simp only at hn
    split at hn
    · rename_i he
      subst he
      simp only [Option.some.injEq, Prod.mk.injEq] at hn
      obtain ⟨rfl, rfl⟩ := hn
      exact ⟨t3, by simp [Param.stat], h3⟩
    · simp at hn

/-- The hypotheses of C17 can be met: a 2×3 tensor with two batches, and a 2×3 parameter with a statistic. -/
example : ∃ (t : Tensor ℤ) (q : Param ℤ), t.Holds 0 (matShape 2 3 2) (fun c b => ((matShape 2 3 2).offset c b : ℤ)) ∧
    q.Is 0 ⟨matShape 2 3 1, fun c b => ((matShape 2 3 1).offset c b : ℤ), fun _ _ => 7,
      fun n => if n = "Adam.m1" then some (matShape 2 3 1, fun _ _ => 5) else none⟩ := by
  let _ := intFlt
  obtain ⟨t, ht⟩ := exists_holds (α := ℤ) (matShape_wf (n := 2) (m := 3) (b := 2) rfl) (by decide) 0 (fun k => (k : ℤ))
  obtain ⟨q, hq⟩ := exists_param (α := ℤ) (matShape_wf (n := 2) (m := 3) (b := 1) rfl) (by decide) rfl 0 (fun k => (k : ℤ)) (fun _ => 7) (fun _ => 5) "Adam.m1"
  exact ⟨t, q, ht, hq⟩

end Verif
