import Verif.LifeLemmas

/-!
# The machine of `Verif.Lifecycle` behaves like independent arrays
-/

set_option linter.unusedSectionVars false

namespace Verif
namespace Life
open Res
variable {α : Type}

theorem Own.put {st : St α} (hO : Own st) {v : Nat} {o : Option (HT α)} (h : ∀ d k, Owns o d k ↔ Owns (st.vars v) d k) : Own (st.put v o) := by
  have key : ∀ w d k, Owns ((st.put v o).vars w) d k ↔ Owns (st.vars w) d k := by
    intro w d k
    by_cases hw : w = v
    · subst hw; simp only [St.put, set_same]; exact h d k
    · simp only [St.put, set_ne hw]
  refine ⟨fun d => ?_, ?_, hO.len⟩
  · obtain ⟨evs, he, hl⟩ := hO.hist d
    exact ⟨evs, he, fun k => (hl k).trans (exists_congr fun w => (key w d k).symm)⟩
  · intro a b d k h1 h2
    exact hO.uniq a b d k ((key a d k).mp h1) ((key b d k).mp h2)

theorem not_owns_none {d k : Nat} : ¬ Owns (none : Option (HT α)) d k := fun ⟨_, e, _⟩ => by cases e
theorem not_owns_null {t : HT α} (h : t.handle = none) {d k : Nat} : ¬ Owns (some t) d k := by
  rintro ⟨_, e, _, _, h2⟩; cases e; rw [h] at h2; cases h2
theorem not_owns_ref {t : HT α} (h : t.reference ≠ none) {d k : Nat} : ¬ Owns (some t) d k := by
  rintro ⟨_, e, h2, _⟩; cases e; exact h h2

theorem read_put (st : St α) (v : Nat) (o : Option (HT α)) : (st.put v o).read = Pool.set st.read v (o.map st.load) := by
  funext w
  by_cases hw : w = v
  · subst hw; rw [set_same]; simp only [St.read, St.put, set_same]; rfl
  · rw [set_ne hw]; simp only [St.read, St.put, set_ne hw]; rfl

theorem unwrap_some {β : Type} {x : β} : unwrap (some x) = ok x := rfl
theorem read_some {st : St α} {v : Nat} {t : HT α} (h : st.vars v = some t) : st.read v = some (st.load t) := by simp [St.read, h]

theorem Free.get {st : St α} {v : Nat} (h : Free st v) : ∃ t, st.vars v = some t ∧ ¬ Ref st.vars v := by
  obtain ⟨h1, h2⟩ := h
  cases e : st.vars v with
  | none => exact absurd e h1
  | some t => exact ⟨t, rfl, h2⟩

/-- A step of the machine corresponds to a step on independent arrays. -/
def Sim [Flt α] (p : Profile) (fresh : Nat) (st : St α) (c : Cmd α) : Prop :=
  ∃ m, (run p fresh st c >>= fun st' => ok st'.read) = spec p m st.read c ∧ ∀ st', run p fresh st c = ok st' → Inv st'

variable [Flt α]

theorem sim_put {p : Profile} {fresh : Nat} {st st' : St α} {c : Cmd α} {m : Nat → α} (h : run p fresh st c = ok st') (hi : Inv st')
    (hs : spec p m st.read c = ok st'.read) : Sim p fresh st c :=
  ⟨m, by rw [h, ok_bind, hs], fun s e => by rw [h] at e; cases e; exact hi⟩

theorem sim_panic {p : Profile} {fresh : Nat} {st : St α} {c : Cmd α} {m : Nat → α} (h : run p fresh st c = panic)
    (hs : spec p m st.read c = panic) : Sim p fresh st c :=
  ⟨m, by rw [h, hs]; rfl, fun s e => by rw [h] at e; cases e⟩

theorem not_ref {st : St α} (I : Inv st) {v : Nat} (h : st.vars v = none) : ¬ Ref st.vars v := by
  rintro ⟨u, t, h1, h2⟩
  obtain ⟨w, hw, _⟩ := I.struct.edge u t v h1 h2
  rw [h] at hw; cases hw

theorem sim_new {p : Profile} {fresh : Nat} {st : St α} (I : Inv st) {v d : Nat} {s : Shape} (hv : st.vars v = none) : Sim p fresh st (.new v d s) := by
  refine sim_put (m := fun _ => 0) rfl ⟨I.struct.set (not_ref I hv) ?_ ?_ ?_, I.own.put ?_⟩ ?_
  · intro t h e; cases e; intro h; cases h
  · intro t e; cases e; intro h; exact (h rfl).elim
  · intro t w e; cases e; intro h; cases h
  · intro a b; rw [hv]; exact ⟨fun h => (not_owns_null rfl h).elim, fun h => (not_owns_none h).elim⟩
  · rw [read_put]; rfl

theorem sim_newHost {p : Profile} {fresh : Nat} {st : St α} (I : Inv st) {v : Nat} {s : Shape} {l : List α} (hv : st.vars v = none) :
    Sim p fresh st (.newHost v s l) := by
  refine sim_put (m := fun _ => 0) rfl ⟨I.struct.set (not_ref I hv) ?_ ?_ ?_, I.own.put ?_⟩ ?_
  · intro t h e; cases e; intro h; cases h
  · intro t e; cases e; intro h; exact ⟨rfl, rfl⟩
  · intro t w e; cases e; intro h; cases h
  · intro a b; rw [hv]; exact ⟨fun h => (not_owns_null rfl h).elim, fun h => (not_owns_none h).elim⟩
  · rw [read_put]; rfl

theorem load_valid {st : St α} (I : Inv st) {v : Nat} {t : HT α} (ht : st.vars v = some t) : (st.load t).valid = t.handle.isSome := by
  unfold Tensor.valid St.load
  cases hh : t.handle with
  | none => cases t.device <;> rfl
  | some h =>
    cases hd : t.device with
    | none => exact (I.struct.dev v t h ht hh hd).elim
    | some d => rfl

theorem sim_updateShape {p : Profile} {fresh : Nat} {st : St α} (I : Inv st) {v : Nat} {s : Shape} (hv : Free st v) :
    Sim p fresh st (.updateShape v s) := by
  obtain ⟨t, ht, hb⟩ := hv.get
  refine ⟨fun _ => 0, ?_, ?_⟩
  · simp only [run, spec, ht, read_some ht, unwrap_some, ok_bind, Tensor.updateShape, Res.bind_assoc]
    congr 1; funext a
    show (_ >>= _) = ((st.load t).shape.sizeU p >>= _)
    congr 1; funext b
    congr 1; funext _
    rw [read_put]; rfl
  · intro st' h
    simp only [run, ht, unwrap_some, ok_bind, Res.bind_eq_ok, Res.ok.injEq] at h
    obtain ⟨_, _, _, _, _, _, rfl⟩ := h
    refine ⟨I.struct.set hb ?_ ?_ ?_, I.own.put ?_⟩
    · intro t' h e; cases e; exact I.struct.dev v t h ht
    · intro t' e; cases e; exact I.struct.host v t ht
    · intro t' w e hr; cases e
      have hw : w ≠ v := fun q => by subst q; exact hb ⟨w, t, ht, hr⟩
      exact ⟨hw, I.struct.edge v t w ht hr⟩
    · intro d k; rw [ht]
      constructor
      · rintro ⟨_, e, h⟩; cases e; exact ⟨t, rfl, h⟩
      · rintro ⟨_, e, h⟩; cases e; exact ⟨_, rfl, h⟩

theorem sameKind_ok {t u : HT α} : sameKind t u = ok () ↔ t.device = u.device ∧ t.handle = none ∧ t.shape = u.shape ∧ t.host = none := by
  unfold sameKind
  simp only [Res.bind_eq_ok, check_eq_ok]
  constructor
  · rintro ⟨_, h1, _, h2, _, h3, h4⟩
    exact ⟨h1, by simpa using h2, h3, by simpa using h4⟩
  · rintro ⟨h1, h2, h3, h4⟩
    exact ⟨(), h1, (), by simp [h2], (), h3, by simp [h4]⟩

theorem load_refer {st : St α} {t u : HT α} {w : Option Nat} (hd : t.device = u.device) :
    st.load { t with handle := u.handle, reference := w } = { st.load t with buf := (st.load u).buf } := by
  unfold St.load; simp only [hd]

theorem refer_eq {st : St α} {t u : HT α} (hv : (st.load t).valid = t.handle.isSome) :
    (st.load t).refer (st.load u) = (sameKind t u >>= fun _ => ok { st.load t with buf := (st.load u).buf }) := by
  unfold Tensor.refer sameKind
  rw [hv]
  simp only [Res.bind_assoc]
  rfl

theorem replace_eq {st : St α} {t u : HT α} (hv : (st.load t).valid = t.handle.isSome) :
    (st.load t).replace (st.load u) = (sameKind t u >>= fun _ => ok { st.load t with buf := (st.load u).buf }) := refer_eq hv

theorem sim_refer {p : Profile} {fresh : Nat} {st : St α} (I : Inv st) {v w : Nat} (hv : Free st v) (hw : st.vars w ≠ none) (hvw : v ≠ w) :
    Sim p fresh st (.refer v w) := by
  obtain ⟨t, ht, hb⟩ := hv.get
  obtain ⟨u, hu⟩ := Option.ne_none_iff_exists'.mp hw
  refine ⟨fun _ => 0, ?_, ?_⟩
  · simp only [run, spec, ht, hu, read_some ht, read_some hu, unwrap_some, ok_bind, Res.bind_assoc, refer_eq (load_valid I ht)]
    cases hk : sameKind t u with
    | panic => rfl
    | ub => rfl
    | ok a =>
      obtain ⟨h1, h2, h3, h4⟩ := sameKind_ok.mp hk
      simp only [ok_bind, read_put, Option.map_some, load_refer h1]
  · intro st' h
    simp only [run, ht, hu, unwrap_some, ok_bind, Res.bind_eq_ok, Res.ok.injEq] at h
    obtain ⟨_, hk, rfl⟩ := h
    obtain ⟨h1, h2, h3, h4⟩ := sameKind_ok.mp hk
    refine ⟨I.struct.set hb ?_ ?_ ?_, I.own.put ?_⟩
    · intro t' h e hh; cases e; show t.device ≠ none; rw [h1]; exact I.struct.dev w u h hu hh
    · intro t' e hh; cases e; exact (hh h4).elim
    · intro t' x e hr; cases e; cases hr
      exact ⟨hvw.symm, u, hu, rfl, h1.symm⟩
    · intro d k; rw [ht]
      exact ⟨fun h => (not_owns_ref (by simp) h).elim, fun h => (not_owns_null h2 h).elim⟩

theorem sim_view {p : Profile} {fresh : Nat} {st : St α} (I : Inv st) {v w : Nat} (hv : st.vars v = none) (hw : st.vars w ≠ none) :
    Sim p fresh st (.view v w) := by
  obtain ⟨u, hu⟩ := Option.ne_none_iff_exists'.mp hw
  have hvw : w ≠ v := fun q => by subst q; rw [hv] at hu; cases hu
  cases hd : u.device with
  | none =>
    refine sim_panic (m := fun _ => 0) ?_ ?_
    · simp only [run, hu, unwrap_some, ok_bind, hd]; rfl
    · simp only [spec, read_some hu, unwrap_some, ok_bind, Tensor.dev, show (st.load u).device = none from hd]; rfl
  | some d =>
    have hk : sameKind (⟨some d, u.shape, none, none, none⟩ : HT α) u = ok () := sameKind_ok.mpr ⟨hd.symm, rfl, rfl, rfl⟩
    refine sim_put (m := fun _ => 0) (st' := st.put v (some ⟨some d, u.shape, u.handle, none, some w⟩)) ?_ ⟨I.struct.set (not_ref I hv) ?_ ?_ ?_, I.own.put ?_⟩ ?_
    · simp only [run, hu, unwrap_some, ok_bind, hd, hk]
    · intro t' h e hh; cases e; simp
    · intro t' e hh; cases e; exact (hh rfl).elim
    · intro t' x e hr; cases e; cases hr
      exact ⟨hvw, u, hu, rfl, hd⟩
    · intro d k; rw [hv]
      exact ⟨fun h => (not_owns_ref (by simp) h).elim, fun h => (not_owns_none h).elim⟩
    · have e := refer_eq (st := st) (t := (⟨some d, u.shape, none, none, none⟩ : HT α)) (u := u) rfl
      rw [hk, ok_bind] at e
      have e' : (Tensor.new d u.shape : Tensor α).refer (st.load u) = _ := e
      simp only [spec, read_some hu, unwrap_some, ok_bind, Tensor.dev, show (st.load u).device = some d from hd, show (st.load u).shape = u.shape from rfl, e',
        read_put, Option.map_some]
      rw [load_refer (t := (⟨some d, u.shape, none, none, none⟩ : HT α)) hd.symm]

/-- Removing `w` after its handle went to `v`. -/
theorem sim_replace {p : Profile} {fresh : Nat} {st : St α} (I : Inv st) {v w : Nat} (hv : Free st v) (hw : Free st w) (hvw : v ≠ w) (ov : Owner st v) (ow : Owner st w) :
    Sim p fresh st (.replace v w) := by
  obtain ⟨t, ht, hb⟩ := hv.get
  obtain ⟨u, hu, hbw⟩ := hw.get
  have rt := ov t ht
  have ru := ow u hu
  refine ⟨fun _ => 0, ?_, ?_⟩
  · simp only [run, spec, ht, hu, read_some ht, read_some hu, unwrap_some, ok_bind, Res.bind_assoc, replace_eq (load_valid I ht)]
    cases hk : sameKind t u with
    | panic => rfl
    | ub => rfl
    | ok a =>
      obtain ⟨h1, h2, h3, h4⟩ := sameKind_ok.mp hk
      simp only [ok_bind, dropTensor, read_put, Option.map_some, Option.map_none]
      congr 4
      exact load_refer (w := t.reference) h1
  · intro st' h
    simp only [run, ht, hu, unwrap_some, ok_bind, Res.bind_eq_ok, Res.ok.injEq, dropTensor] at h
    obtain ⟨_, hk, _, rfl, rfl⟩ := h
    obtain ⟨h1, h2, h3, h4⟩ := sameKind_ok.mp hk
    have S1 : Struct (Pool.set st.vars w none) := I.struct.set hbw (by intro _ _ e; cases e) (by intro _ e; cases e) (by intro _ _ e; cases e)
    have hb1 : ¬ Ref (Pool.set st.vars w none) v := by
      rintro ⟨x, y, h5, h6⟩
      by_cases hx : x = w
      · subst hx; rw [set_same] at h5; cases h5
      · rw [set_ne hx] at h5; exact hb ⟨x, y, h5, h6⟩
    have S2 := S1.set hb1 (o := some { t with handle := u.handle })
      (by intro t' h e hh; cases e; show t.device ≠ none; rw [h1]; exact I.struct.dev w u h hu hh)
      (by intro t' e hh; cases e; exact (hh h4).elim)
      (by intro t' x e hr; cases e; rw [show t.reference = none from rt] at hr; cases hr)
    have ecomm : Pool.set (Pool.set st.vars w none) v (some { t with handle := u.handle }) = Pool.set (Pool.set st.vars v (some { t with handle := u.handle })) w none := by
      funext x
      by_cases hx : x = v
      · subst hx; rw [set_same, set_ne hvw, set_same]
      · rw [set_ne hx]
        by_cases hxw : x = w
        · subst hxw; rw [set_same, set_same]
        · rw [set_ne hxw, set_ne hxw, set_ne hx]
    refine ⟨?_, ?_⟩
    · show Struct (Pool.set (Pool.set st.vars v (some { t with handle := u.handle })) w none)
      rw [← ecomm]; exact S2
    · have hv' : ∀ d k, Owns (some ({ t with handle := u.handle } : HT α)) d k ↔ Owns (st.vars w) d k := by
        intro d k; rw [hu]
        constructor
        · rintro ⟨_, e, a, b, c⟩; cases e; exact ⟨u, rfl, ru, h1 ▸ b, c⟩
        · rintro ⟨_, e, a, b, c⟩; cases e; exact ⟨_, rfl, rt, h1 ▸ b, c⟩
      have nv : ∀ d k, ¬ Owns (st.vars v) d k := fun d k => by rw [ht]; exact not_owns_null h2
      -- who owns in the new state: `v` what `w` owned, others the same
      have key : ∀ x d k, Owns (Pool.set (Pool.set st.vars w none) v (some { t with handle := u.handle }) x) d k ↔
          (x = v ∧ Owns (st.vars w) d k) ∨ (x ≠ v ∧ x ≠ w ∧ Owns (st.vars x) d k) := by
        intro x d k
        by_cases hx : x = v
        · subst hx; rw [set_same, hv']; simp
        · rw [set_ne hx]
          by_cases hxw : x = w
          · subst hxw; rw [set_same]; simp [hx, not_owns_none]
          · rw [set_ne hxw]; simp [hx, hxw]
      have E : (((st.put v (some { t with handle := u.handle })).put w none : St α)).vars = Pool.set (Pool.set st.vars w none) v (some { t with handle := u.handle }) := ecomm.symm
      refine ⟨fun d => ?_, ?_, I.own.len⟩
      · obtain ⟨evs, he, hl⟩ := I.own.hist d
        refine ⟨evs, he, fun k => (hl k).trans ?_⟩
        rw [E]
        constructor
        · rintro ⟨x, hx⟩
          by_cases hxw : x = w
          · subst hxw; exact ⟨v, (key v d k).mpr (.inl ⟨rfl, hx⟩)⟩
          · have hxv : x ≠ v := fun q => nv d k (q ▸ hx)
            exact ⟨x, (key x d k).mpr (.inr ⟨hxv, hxw, hx⟩)⟩
        · rintro ⟨x, hx⟩
          rcases (key x d k).mp hx with ⟨_, h⟩ | ⟨_, _, h⟩
          · exact ⟨w, h⟩
          · exact ⟨x, h⟩
      · intro a b d k ha hb
        rw [E] at ha hb
        rcases (key a d k).mp ha with ⟨rfl, h⟩ | ⟨h5, h6, h⟩
        · rcases (key b d k).mp hb with ⟨rfl, _⟩ | ⟨h5, h6, h'⟩
          · rfl
          · exact (h6 (I.own.uniq b w d k h' h)).elim
        · rcases (key b d k).mp hb with ⟨rfl, h'⟩ | ⟨_, _, h'⟩
          · exact (h6 (I.own.uniq a w d k h h')).elim
          · exact I.own.uniq a b d k h h'

end Life
end Verif
