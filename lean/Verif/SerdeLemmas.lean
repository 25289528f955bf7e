import Verif.Serde
import Verif.OptLemmas

/-!
# Lemmas about saving and loading
-/

set_option linter.unusedSectionVars false

namespace Verif
open Res
variable {α : Type} [Flt α] {d : Nat} {p : Profile}

/-- Moving a host tensor with the right number of values to a device. -/
theorem Tensor.moveToDevice_ok {s : Shape} (hs : s.WF) (hsz : s.size ≤ 2 ^ 31) {v : List α} (hv : v.length = s.size) (p : Profile) (d : Nat)
    (m : Nat → α) : Yields ((Tensor.newHost s v).moveToDevice p d m) d s (fun c b => v.getD (s.offset c b) 0) := by
  obtain ⟨y, e, h⟩ := Dev.newBySlice_ok hs hsz p d m hv
  refine ⟨y, ?_, h⟩
  rw [← e]
  unfold Tensor.moveToDevice Dev.newBySlice Tensor.alloc
  simp only [Tensor.newHost, Tensor.new, Tensor.valid, Option.isSome, Option.isNone, unwrap, Shape.sizeU_eq hsz, ok_bind, check_true,
    Res.bind_assoc]

theorem Tensor.serialize_ok {t : Tensor α} {s : Shape} {f : Arr α} (h : t.Holds d s f) (p : Profile) :
    t.serialize p = ok ⟨s.toRecord, PArr.elems s f⟩ := by
  unfold Tensor.serialize
  rw [h.toVec p, ok_bind, h.shape]; rfl

theorem Tensor.deserialize_ok {s : Shape} (hs : s.WF) (p : Profile) (l : List α) :
    Tensor.deserialize p ⟨s.toRecord, l⟩ = ok (Tensor.newHost s l) := by
  unfold Tensor.deserialize
  rw [hs.new_record p, ok_bind]

theorem elems_getD {s : Shape} (hs : s.WF) (f : Arr α) {c : Nat → Nat} {b : Nat} (hv : s.Valid c b) :
    (PArr.elems s f).getD (s.offset c b) 0 = f c b := by
  unfold PArr.elems
  have := hs.offset_lt hv
  rw [List.getD_eq_getElem?_getD, List.getElem?_map, List.getElem?_range this, Option.map_some, Arr.flat_offset hs f hv]; rfl

theorem Tensor.moveBack_ok {t : Tensor α} {s : Shape} {f : Arr α} (h : t.Holds d s f) (p : Profile) (d' : Nat) (m : Nat → α) :
    Yields ((Tensor.newHost s (PArr.elems s f)).moveToDevice p d' m) d' s f :=
  (Tensor.moveToDevice_ok h.wf h.small (by simp [PArr.elems]) p d' m).congr fun _ _ hv => (elems_getD h.wf f hv).symm

/-! ## Statistics -/

/-- All statistics hold what `st` says. -/
def StatsIs (d : Nat) (st : String → Option (Shape × Arr α)) (l : List (String × Tensor α)) : Prop :=
  ∀ n t, (n, t) ∈ l → ∃ s f, st n = some (s, f) ∧ t.Holds d s f

theorem lookup_mem {β : Type} {l : List (String × β)} {n : String} {t : β} (h : l.lookup n = some t) : (n, t) ∈ l := by
  induction l with
  | nil => simp at h
  | cons e l ih =>
    obtain ⟨k, x⟩ := e
    rw [List.lookup_cons] at h
    by_cases hk : n = k
    · subst hk; simp at h; simp [h]
    · have : (n == k) = false := by simpa using hk
      rw [this] at h
      exact List.mem_cons_of_mem _ (ih h)

theorem mem_lookup {β : Type} {l : List (String × β)} (hd : (l.map Prod.fst).Nodup) {n : String} {t : β} (h : (n, t) ∈ l) :
    l.lookup n = some t := by
  induction l with
  | nil => simp at h
  | cons e l ih =>
    obtain ⟨k, x⟩ := e
    rw [List.lookup_cons]
    simp only [List.map_cons, List.nodup_cons] at hd
    by_cases hk : n = k
    · subst hk
      simp only [List.mem_cons, Prod.mk.injEq, true_and] at h
      rcases h with h | h
      · subst h; simp
      · exact absurd (List.mem_map_of_mem (f := Prod.fst) h) hd.1
    · have : (n == k) = false := by simpa using hk
      rw [this]
      simp only [List.mem_cons, Prod.mk.injEq, hk, false_and, false_or] at h
      exact ih hd.2 h

theorem Param.Is.stats {q : Param α} {a : PArr α} (h : q.Is d a) : StatsIs d a.stat q.stats := by
  intro n t hm
  have hl : q.stat n = some t := mem_lookup h.nodup hm
  cases hs : a.stat n with
  | none => rw [h.stat_none n hs] at hl; simp at hl
  | some e =>
    obtain ⟨s, f⟩ := e
    obtain ⟨t', h1, h2⟩ := h.stat_some n s f hs
    rw [hl] at h1; cases h1
    exact ⟨s, f, rfl, h2⟩

theorem reloadStats_ok {st : String → Option (Shape × Arr α)} {l : List (String × Tensor α)} (h : StatsIs d st l) (p : Profile) (d' : Nat) (m : Mem α)
    (i : Nat) :
    ∃ rs l1 l2, Param.serializeStats p l = ok rs ∧ Param.deserializeStats p rs = ok l1 ∧ Param.moveStats p d' m i l1 = ok l2 ∧
      StatsIs d' st l2 ∧ l2.map Prod.fst = l.map Prod.fst := by
  induction l generalizing i with
  | nil => exact ⟨[], [], [], rfl, rfl, rfl, fun _ _ h => by simp at h, rfl⟩
  | cons e l ih =>
    obtain ⟨n, t⟩ := e
    obtain ⟨s, f, hs, ht⟩ := h n t (by simp)
    obtain ⟨rs, l1, l2, e1, e2, e3, h4, h5⟩ := ih (fun n t hm => h n t (by simp [hm])) (i + 1)
    obtain ⟨y, ey, hy⟩ := Tensor.moveBack_ok ht p d' (m i)
    refine ⟨(n, ⟨s.toRecord, PArr.elems s f⟩) :: rs, (n, Tensor.newHost s (PArr.elems s f)) :: l1, (n, y) :: l2, ?_, ?_, ?_, ?_, ?_⟩
    · unfold Param.serializeStats
      rw [show (n, t).2.serialize p = _ from Tensor.serialize_ok ht p, ok_bind, e1, ok_bind]
    · unfold Param.deserializeStats
      simp only [Tensor.deserialize_ok ht.wf p, ok_bind, e2]
    · unfold Param.moveStats
      simp only [ey, ok_bind, e3]
    · intro n' t' hm
      simp only [List.mem_cons, Prod.mk.injEq] at hm
      rcases hm with ⟨rfl, rfl⟩ | hm
      · exact ⟨s, f, hs, hy⟩
      · exact h4 n' t' hm
    · simp [h5]

theorem lookup_none {β : Type} {l : List (String × β)} {n : String} : l.lookup n = none ↔ n ∉ l.map Prod.fst := by
  induction l with
  | nil => simp
  | cons e l ih =>
    obtain ⟨k, x⟩ := e
    rw [List.lookup_cons]
    by_cases hk : n = k
    · subst hk; simp
    · have : (n == k) = false := by simpa using hk
      rw [this]
      simp only [List.map_cons, List.mem_cons, hk, false_or]
      exact ih

theorem lookup_keys {β γ : Type} {l : List (String × β)} {l' : List (String × γ)} (h : l'.map Prod.fst = l.map Prod.fst) {n : String} :
    (l.lookup n).isSome = (l'.lookup n).isSome := by
  have h1 := lookup_none (l := l) (n := n)
  have h2 := lookup_none (l := l') (n := n)
  rw [h] at h2
  cases e : l.lookup n <;> cases e' : l'.lookup n <;> simp_all

theorem Param.reload_ok {q : Param α} {a : PArr α} (h : q.Is d a) (p : Profile) (d' : Nat) (m : Mem α) :
    ∃ q', q.reload p d' m = ok q' ∧ q'.Is d' a := by
  obtain ⟨v, ev, hv⟩ := Tensor.moveBack_ok h.value p d' (m 0)
  obtain ⟨g, eg, hg⟩ := Tensor.moveBack_ok h.grad p d' (m 1)
  obtain ⟨rs, l1, l2, e1, e2, e3, h4, h5⟩ := reloadStats_ok h.stats p d' m 2
  refine ⟨⟨v, g, l2⟩, ?_, h.batch, hv, hg, ?_, ?_, ?_⟩
  · unfold Param.reload Param.serialize Param.deserialize
    simp only [Tensor.serialize_ok h.value p, Tensor.serialize_ok h.grad p, ok_bind, e1, Tensor.deserialize_ok h.value.wf p, e2]
    unfold Param.moveToDevice
    simp only [ev, eg, ok_bind, e3]
  · intro n hn
    have := h.stat_none n hn
    unfold Param.stat at *
    simp only
    have hk := lookup_keys (n := n) h5
    rw [this] at hk
    cases e : l2.lookup n <;> simp_all
  · rw [h5]; exact h.nodup
  · intro n s f hn
    obtain ⟨t, ht, -⟩ := h.stat_some n s f hn
    unfold Param.stat at *
    simp only
    have hk := lookup_keys (n := n) h5
    rw [ht] at hk
    cases e : l2.lookup n with
    | none => rw [e] at hk; simp at hk
    | some t' =>
      obtain ⟨s', f', hs', ht'⟩ := h4 n t' (lookup_mem e)
      rw [hn] at hs'; cases hs'
      exact ⟨t', rfl, ht'⟩

theorem Params.reload_ok {qs : List (Param α)} {as : List (PArr α)} (h : Params d qs as) (p : Profile) (d' : Nat) (m : Nat → Mem α) :
    ∃ qs', Opt.forEach (fun i q => q.reload p d' (m i)) 0 qs = (qs', ok ()) ∧ Params d' qs' as := by
  have := forEach_ok (R' := fun q a => q.Is d' a) (h := id) h (fun i q a _ hq => Param.reload_ok hq p d' (m i)) 0
  simpa [Params] using this

end Verif
