import Verif.LifeSim
import Verif.LifeKernels

/-!
# The machine of `Verif.Lifecycle` behaves like independent arrays: dropping, allocating and writing
-/

set_option linter.unusedSectionVars false

namespace Verif
namespace Life
open Res
variable {α : Type}

theorem owns_set {vars : Nat → Option (HT α)} {v x : Nat} {o : Option (HT α)} {d k : Nat} :
    Owns (Pool.set vars v o x) d k ↔ (x = v ∧ Owns o d k) ∨ (x ≠ v ∧ Owns (vars x) d k) := by
  by_cases hx : x = v
  · subst hx; rw [set_same]; simp
  · rw [set_ne hx]; simp [hx]

/-- Dropping an owner returns its block. -/
theorem drop_inv {st : St α} (I : Inv st) {v : Nat} {t : HT α} (ht : st.vars v = some t) (hb : ¬ Ref st.vars v) :
    ∃ st', dropTensor st t = ok st' ∧ st'.heap = st.heap ∧ st'.vars = st.vars ∧ Inv (st'.put v none) := by
  have S : Struct (Pool.set st.vars v none) := I.struct.set hb (by intro _ _ e; cases e) (by intro _ e; cases e) (by intro _ _ e; cases e)
  cases hh : t.handle with
  | none =>
    refine ⟨st, by simp [dropTensor, hh], rfl, rfl, S, I.own.put fun d k => ?_⟩
    rw [ht]
    exact ⟨fun h => (not_owns_none h).elim, fun h => (not_owns_null hh h).elim⟩
  | some h =>
    cases hr : t.reference with
    | some w =>
      refine ⟨st, by simp [dropTensor, hh, hr], rfl, rfl, S, I.own.put fun d k => ?_⟩
      rw [ht]
      exact ⟨fun h => (not_owns_none h).elim, fun h => (not_owns_ref (by simp [hr]) h).elim⟩
    | none =>
      cases hd : t.device with
      | none => exact (I.struct.dev v t h ht hh hd).elim
      | some d =>
        have ho : Owns (st.vars v) d h := ⟨t, ht, hr, hd, hh⟩
        obtain ⟨evs, he, hl⟩ := I.own.hist d
        obtain ⟨P', e, he', hblk⟩ := he.drop_ok ((hl h).mpr ⟨v, ho⟩)
        refine ⟨{ st with pool := Pool.set st.pool d P' }, by simp [dropTensor, hh, hr, hd, e], rfl, rfl, S, ?_, ?_, ?_⟩
        · intro d'
          by_cases hdd : d' = d
          · subst hdd
            refine ⟨.drop h :: evs, ?_, fun k => ?_⟩
            · show Verif.Hist _ (Pool.set st.pool d' P' d')
              rw [set_same]; exact he'
            · rw [live_drop, hl]
              simp only [St.put, owns_set]
              constructor
              · rintro ⟨⟨x, hx⟩, hk⟩
                refine ⟨x, .inr ⟨fun q => hk ?_, hx⟩⟩
                subst q
                obtain ⟨t', e1, _, _, e2⟩ := hx
                rw [ht] at e1; cases e1
                rw [hh] at e2; cases e2; rfl
              · rintro ⟨x, ⟨_, hx⟩ | ⟨hxv, hx⟩⟩
                · exact (not_owns_none hx).elim
                · refine ⟨⟨x, hx⟩, fun q => hxv ?_⟩
                  subst q
                  exact I.own.uniq x v d' k hx ho
          · obtain ⟨evs', he2, hl2⟩ := I.own.hist d'
            refine ⟨evs', ?_, fun k => ?_⟩
            · show Verif.Hist _ (Pool.set st.pool d P' d')
              rw [set_ne hdd]; exact he2
            · rw [hl2]
              simp only [St.put, owns_set]
              constructor
              · rintro ⟨x, hx⟩
                refine ⟨x, .inr ⟨fun q => hdd ?_, hx⟩⟩
                subst q
                obtain ⟨t', e1, _, e2, _⟩ := hx
                rw [ht] at e1; cases e1
                rw [hd] at e2; cases e2; rfl
              · rintro ⟨x, ⟨_, hx⟩ | ⟨_, hx⟩⟩
                · exact (not_owns_none hx).elim
                · exact ⟨x, hx⟩
        · intro a b d' k ha hb'
          simp only [St.put, owns_set] at ha hb'
          rcases ha with ⟨_, ha⟩ | ⟨_, ha⟩
          · exact (not_owns_none ha).elim
          · rcases hb' with ⟨_, hb'⟩ | ⟨_, hb'⟩
            · exact (not_owns_none hb').elim
            · exact I.own.uniq a b d' k ha hb'
        · intro d' k c hk
          apply I.own.len d' k c
          have : (Pool.set st.pool d P' d').blocks = (st.pool d').blocks := by
            by_cases hdd : d' = d
            · subst hdd; rw [set_same]; exact hblk
            · rw [set_ne hdd]
          rw [← this]; exact hk

/-- Giving a new block to a variable that has none. -/
theorem alloc_inv [Zero α] {st : St α} (I : Inv st) {v : Nat} {t t' : HT α} (ht : st.vars v = some t) (hb : ¬ Ref st.vars v) (hn : t.handle = none)
    {d size fresh s : Nat} (hf : FreshOk st fresh) (hc : Pool.classOf size = some s)
    (h1 : t'.device = some d) (h2 : t'.reference = none) (h3 : t'.host = none) :
    ∃ st' h, newHandle st d size fresh = ok (st', h) ∧ (st'.heap d h).length = 2 ^ s ∧ Inv (st'.put v (some { t' with handle := some h })) ∧
      ∀ x, x ≠ v → (st'.put v (some { t' with handle := some h })).read x = st.read x := by
  obtain ⟨st', h, P', e, hv, hp, ⟨evs, _, he, hnew, hl⟩, hlen, hheap, hlens⟩ := newHandle_ok (d := d) (size := size) I hf hc
  have S : Struct (Pool.set st'.vars v (some { t' with handle := some h })) := by
    rw [hv]
    refine I.struct.set hb ?_ ?_ ?_
    · intro u k e; cases e; intro _; show t'.device ≠ none; rw [h1]; simp
    · intro u e; cases e; intro q; exact (q h3).elim
    · intro u w e; cases e; intro q; rw [show t'.reference = none from h2] at q; cases q
  have hself : Owns (some ({ t' with handle := some h } : HT α)) d h := ⟨_, rfl, h2, h1, rfl⟩
  have hown : ∀ d' k, Owns (some ({ t' with handle := some h } : HT α)) d' k ↔ d' = d ∧ k = h := by
    intro d' k
    constructor
    · rintro ⟨_, e, _, e1, e2⟩; cases e
      rw [h1] at e1; cases e1; cases e2; exact ⟨rfl, rfl⟩
    · rintro ⟨rfl, rfl⟩; exact hself
  have nv : ∀ d k, ¬ Owns (st.vars v) d k := fun d k => by rw [ht]; exact not_owns_null hn
  refine ⟨st', h, e, hlen, ⟨S, ?_, ?_, hlens⟩, ?_⟩
  · intro d'
    show ∃ evs, Verif.Hist evs (st'.pool d') ∧ _
    rw [hp]
    by_cases hdd : d' = d
    · subst hdd
      refine ⟨_, by rw [set_same]; exact he, fun k => ?_⟩
      simp only [live, List.map_cons, List.mem_cons, hl, St.put, hv, owns_set, hown]
      constructor
      · rintro (rfl | ⟨x, hx⟩)
        · exact ⟨v, .inl (by simp)⟩
        · exact ⟨x, .inr ⟨fun q => nv d' k (q ▸ hx), hx⟩⟩
      · rintro ⟨x, ⟨_, _, rfl⟩ | ⟨_, hx⟩⟩
        · exact .inl rfl
        · exact .inr ⟨x, hx⟩
    · obtain ⟨evs', he2, hl2⟩ := I.own.hist d'
      refine ⟨evs', by rw [set_ne hdd]; exact he2, fun k => ?_⟩
      simp only [hl2, St.put, hv, owns_set, hown]
      constructor
      · rintro ⟨x, hx⟩
        exact ⟨x, .inr ⟨fun q => nv d' k (q ▸ hx), hx⟩⟩
      · rintro ⟨x, ⟨_, q, _⟩ | ⟨_, hx⟩⟩
        · exact (hdd q).elim
        · exact ⟨x, hx⟩
  · intro a b d' k ha hb'
    simp only [St.put, hv, owns_set, hown] at ha hb'
    rcases ha with ⟨rfl, rfl, rfl⟩ | ⟨_, ha⟩
    · rcases hb' with ⟨rfl, _⟩ | ⟨_, hb'⟩
      · rfl
      · exact (hnew ((hl k).mpr ⟨b, hb'⟩)).elim
    · rcases hb' with ⟨rfl, rfl, rfl⟩ | ⟨_, hb'⟩
      · exact (hnew ((hl k).mpr ⟨a, ha⟩)).elim
      · exact I.own.uniq a b d' k ha hb'
  · intro x hx
    simp only [St.read, St.put, set_ne hx, hv]
    cases hxv : st.vars x with
    | none => rfl
    | some u =>
      simp only [Option.map_some, Option.some.injEq]
      unfold St.load
      cases hd : u.device with
      | none => rfl
      | some d' =>
        cases hh : u.handle with
        | none => rfl
        | some k =>
          obtain ⟨_, _, _, _, _, _, _, hmem⟩ := I.handle hxv hd hh
          simp only [hheap d' k hmem]

/-- Writing to the block of an owner that is not borrowed. -/
theorem store_inv {st : St α} (I : Inv st) {v : Nat} {t : HT α} (ht : st.vars v = some t) (hb : ¬ Ref st.vars v) (hr : t.reference = none) {t' : Tensor α}
    (hlen : t'.buf.map List.length = (st.load t).buf.map List.length) :
    Inv (store st t t') ∧ (∀ x, x ≠ v → (store st t t').read x = st.read x) ∧ (store st t t').load t = { st.load t with buf := t'.buf } ∧
      (store st t t').vars = st.vars := by
  unfold store
  cases hd : t.device with
  | none =>
    refine ⟨I, fun _ _ => rfl, ?_, rfl⟩
    have : (st.load t).buf = none := by unfold St.load; simp [hd]
    rw [this] at hlen
    cases hb' : t'.buf with
    | none => simp [St.load, hd]
    | some _ => rw [hb'] at hlen; cases hlen
  | some d =>
    cases hh : t.handle with
    | none =>
      have : (st.load t).buf = none := by unfold St.load; simp [hd, hh]
      rw [this] at hlen
      cases hb' : t'.buf with
      | none => exact ⟨I, fun _ _ => rfl, by simp [St.load, hd, hh], rfl⟩
      | some _ => rw [hb'] at hlen; cases hlen
    | some h =>
      have hbuf : (st.load t).buf = some (st.heap d h) := by unfold St.load; simp [hd, hh]
      rw [hbuf] at hlen
      cases hb' : t'.buf with
      | none => rw [hb'] at hlen; cases hlen
      | some b =>
        rw [hb'] at hlen
        simp only [Option.map_some, Option.some.injEq] at hlen
        refine ⟨⟨I.struct, I.own.hist, I.own.uniq, ?_⟩, ?_, by simp [St.load, hd, hh, Pool.set], rfl⟩
        · intro d' k c hk
          simp only at hk ⊢
          rw [← I.own.len d' k c hk]
          by_cases hdd : d' = d
          · subst hdd; rw [set_same]
            by_cases hk' : k = h
            · subst hk'; rw [set_same, hlen]
            · rw [set_ne hk']
          · rw [set_ne hdd]
        · intro x hx
          simp only [St.read]
          cases hxv : st.vars x with
          | none => rfl
          | some u =>
            simp only [Option.map_some, Option.some.injEq]
            unfold St.load
            cases hd' : u.device with
            | none => rfl
            | some d' =>
              cases hh' : u.handle with
              | none => rfl
              | some k =>
                simp only [Tensor.mk.injEq, true_and, and_true, Option.some.injEq]
                by_cases hdd : d' = d
                · subst hdd
                  by_cases hk' : k = h
                  · subst hk'
                    obtain ⟨r, u', e1, e2, e3, e4, hor, _⟩ := I.handle hxv hd' hh'
                    have : r = v := I.own.uniq r v d' k ⟨u', e1, e2, e3, e4⟩ ⟨t, ht, hr, hd, hh⟩
                    subst this
                    rcases hor with rfl | hor
                    · exact (hx rfl).elim
                    · exact (hb hor).elim
                  · rw [set_same, set_ne hk']
                · rw [set_ne hdd]

variable [Flt α]

theorem sim_drop {p : Profile} {fresh : Nat} {st : St α} (I : Inv st) {v : Nat} (hv : Free st v) : Sim p fresh st (.drop v) := by
  obtain ⟨t, ht, hb⟩ := hv.get
  obtain ⟨st', e, h1, h2, h3⟩ := drop_inv I ht hb
  refine sim_put (m := fun _ => 0) (st' := st'.put v none) ?_ h3 ?_
  · simp only [run, ht, unwrap_some, ok_bind, e]
  · simp only [spec, read_some ht, unwrap_some, ok_bind, read_put, Option.map_none]
    congr 2
    funext x
    simp only [St.read, h2]
    congr 1
    funext u
    simp only [St.load, h1]

theorem read_eq {f g : Nat → Option (Tensor α)} {v : Nat} {o : Option (Tensor α)} (h : ∀ x, x ≠ v → f x = g x) (h' : f v = o) : f = Pool.set g v o := by
  funext x
  by_cases hx : x = v
  · subst hx; rw [set_same, h']
  · rw [set_ne hx, h x hx]

theorem sim_alloc {p : Profile} {fresh : Nat} {st : St α} (I : Inv st) (hf : FreshOk st fresh) {v : Nat} (hv : Free st v) (ho : Owner st v) :
    Sim p fresh st (.alloc v) := by
  obtain ⟨t, ht, hb⟩ := hv.get
  have hr := ho t ht
  have hvd := load_valid I ht
  -- the checks
  by_cases hn : t.handle = none
  swap
  · obtain ⟨k, hk⟩ := Option.ne_none_iff_exists'.mp hn
    refine sim_panic (m := fun _ => 0) ?_ ?_
    · simp only [run, ht, unwrap_some, ok_bind, hk]; rfl
    · simp only [spec, read_some ht, unwrap_some, ok_bind, Tensor.alloc, hvd, hk]; rfl
  by_cases hh : t.host = none
  swap
  · obtain ⟨k, hk⟩ := Option.ne_none_iff_exists'.mp hh
    refine sim_panic (m := fun _ => 0) ?_ ?_
    · simp only [run, ht, unwrap_some, ok_bind, hn, hk]; rfl
    · simp only [spec, read_some ht, unwrap_some, ok_bind, Tensor.alloc, hvd, hn, show (st.load t).host = t.host from rfl, hk]; rfl
  cases hd : t.device with
  | none =>
    refine sim_panic (m := fun _ => 0) ?_ ?_
    · simp only [run, ht, unwrap_some, ok_bind, hn, hh, hd]; rfl
    · simp only [spec, read_some ht, unwrap_some, ok_bind, Tensor.alloc, hvd, hn, show (st.load t).host = t.host from rfl, hh,
        show (st.load t).device = t.device from rfl, hd]; rfl
  | some d =>
    have c1 : check (((none : Option Nat).isSome) = false) = ok () := rfl
    have c2 : check (((none : Option (List α)).isNone) = true) = ok () := rfl
    cases hs : t.shape.sizeU p with
    | panic =>
      refine sim_panic (m := fun _ => 0) ?_ ?_
      · simp only [run, ht, unwrap_some, ok_bind, hn, hh, hd, hs, c1, c2]; rfl
      · simp only [spec, read_some ht, unwrap_some, ok_bind, Tensor.alloc, hvd, hn, show (st.load t).host = t.host from rfl, hh,
          show (st.load t).device = t.device from rfl, hd, show (st.load t).shape = t.shape from rfl, hs, c1, c2]; rfl
    | ub =>
      refine ⟨fun _ => 0, ?_, ?_⟩
      · simp only [run, spec, ht, read_some ht, unwrap_some, ok_bind, Tensor.alloc, hvd, hn, show (st.load t).host = t.host from rfl, hh,
          show (st.load t).device = t.device from rfl, hd, show (st.load t).shape = t.shape from rfl, hs, c1, c2]; rfl
      · intro st' e
        simp only [run, ht, unwrap_some, ok_bind, hn, hh, hd, hs, c1, c2] at e
        cases e
    | ok size =>
      cases hc : Pool.classOf size with
      | none =>
        refine sim_panic (m := fun _ => 0) ?_ ?_
        · simp only [run, ht, unwrap_some, ok_bind, hn, hh, hd, hs, c1, c2, newHandle_panic hc]; rfl
        · simp only [spec, read_some ht, unwrap_some, ok_bind, Tensor.alloc, hvd, hn, show (st.load t).host = t.host from rfl, hh,
            show (st.load t).device = t.device from rfl, hd, show (st.load t).shape = t.shape from rfl, hs, c1, c2, newBuf_none hc]; rfl
      | some s =>
        obtain ⟨st', h, e, hlen, hi, hread⟩ := alloc_inv I ht hb hn hf hc hd hr hh
        obtain ⟨m, hm⟩ := exists_stale (st'.heap d h)
        rw [hlen] at hm
        refine sim_put (m := m) (st' := st'.put v (some { t with handle := some h })) ?_ hi ?_
        · simp only [run, ht, unwrap_some, ok_bind, hn, hh, hd, hs, c1, c2, e]
        · simp only [spec, read_some ht, unwrap_some, ok_bind, Tensor.alloc, hvd, hn, show (st.load t).host = t.host from rfl, hh,
            show (st.load t).device = t.device from rfl, hd, show (st.load t).shape = t.shape from rfl, hs, c1, c2, newBuf_some hc, hm]
          rw [hd, hh] at hread
          rw [read_eq (v := v) hread (show _ = some (st'.load ⟨some d, t.shape, some h, none, t.reference⟩) by simp [St.read, St.put, St.load])]
          rfl

theorem store_put {st : St α} {t : HT α} {x : Tensor α} {v : Nat} {o : Option (HT α)} : (store st t x).put v o = store (st.put v o) t x := by
  unfold store
  cases t.device <;> cases t.handle <;> cases x.buf <;> rfl

theorem resetBySlice_local {p : Profile} {t : Tensor α} {l : List α} : KL t (Dev.resetTensorBySlice p t l) := by
  unfold Dev.resetTensorBySlice
  refine KL.bind fun _ _ => KL.bind fun _ _ => ?_
  exact callFw_local _ _ _ _ _ _

theorem KL.eq {t t' : Tensor α} {r : Res (Tensor α)} (h : KL t r) (e : r = ok t') : t' = { t with buf := t'.buf } := by
  obtain ⟨h1, h2, h3, _⟩ := h t' e
  cases t'; cases t; simp_all

theorem sim_moveTo {p : Profile} {fresh : Nat} {st : St α} (I : Inv st) (hf : FreshOk st fresh) {v d : Nat} (hv : Free st v) :
    Sim p fresh st (.moveTo v d) := by
  obtain ⟨t, ht, hb⟩ := hv.get
  cases hh : t.host with
  | none =>
    refine sim_panic (m := fun _ => 0) ?_ ?_
    · simp only [run, ht, unwrap_some, ok_bind, hh]; rfl
    · simp only [spec, read_some ht, unwrap_some, ok_bind, Tensor.moveToDevice, show (st.load t).host = t.host from rfl, hh]; rfl
  | some l =>
    obtain ⟨hn, hr⟩ := I.struct.host v t ht (by simp [hh])
    have c1 : check (((some l : Option (List α)).isSome) = true) = ok () := rfl
    cases hs : t.shape.sizeU p with
    | panic =>
      refine sim_panic (m := fun _ => 0) ?_ ?_
      · simp only [run, ht, unwrap_some, ok_bind, hh, hs, c1]; rfl
      · simp only [spec, read_some ht, unwrap_some, ok_bind, Tensor.moveToDevice, show (st.load t).host = t.host from rfl, hh,
          show (st.load t).shape = t.shape from rfl, hs, c1]; rfl
    | ub =>
      refine ⟨fun _ => 0, ?_, ?_⟩
      · simp only [run, spec, ht, read_some ht, unwrap_some, ok_bind, Tensor.moveToDevice, show (st.load t).host = t.host from rfl, hh,
          show (st.load t).shape = t.shape from rfl, hs, c1]; rfl
      · intro st' e
        simp only [run, ht, unwrap_some, ok_bind, hh, hs, c1] at e
        cases e
    | ok size =>
      cases hc : Pool.classOf size with
      | none =>
        refine sim_panic (m := fun _ => 0) ?_ ?_
        · simp only [run, ht, unwrap_some, ok_bind, hh, hs, c1, newHandle_panic hc]; rfl
        · simp only [spec, read_some ht, unwrap_some, ok_bind, Tensor.moveToDevice, show (st.load t).host = t.host from rfl, hh,
            show (st.load t).shape = t.shape from rfl, hs, c1, newBuf_none hc]; rfl
      | some s =>
        obtain ⟨st', h, e, hlen, hi, hread⟩ := alloc_inv (t' := ⟨some d, t.shape, none, none, t.reference⟩) I ht hb hn hf hc rfl hr rfl
        obtain ⟨m, hm⟩ := exists_stale (st'.heap d h)
        rw [hlen] at hm
        dsimp only at hi hread
        -- the new tensor, before its contents are written
        generalize hT : (⟨some d, t.shape, some h, none, t.reference⟩ : HT α) = T at hi hread
        have hrT : T.reference = none := by rw [← hT]; exact hr
        have hload : st'.load T = ⟨some d, t.shape, some (st'.heap d h), none⟩ := by rw [← hT]; rfl
        have hbT : ¬ Ref (st'.put v (some T)).vars v := by
          rintro ⟨x, u, h5, h6⟩
          by_cases hx : x = v
          · subst hx
            simp only [St.put, set_same, Option.some.injEq] at h5
            rw [← h5, hrT] at h6; cases h6
          · have hvars : (st'.put v (some T)).vars x = st.vars x := by
              simp only [St.put, set_ne hx]
              obtain ⟨st2, h2, P', e2, hv2, _⟩ := newHandle_ok (d := d) (size := size) I hf hc
              rw [e] at e2; cases e2; rw [hv2]
            rw [hvars] at h5
            exact hb ⟨x, u, h5, h6⟩
        have hgetT : (st'.put v (some T)).vars v = some T := by simp [St.put]
        have erun : ∀ x, Dev.resetTensorBySlice p (st'.load T) l = ok x → run p fresh st (.moveTo v d) = ok (store (st'.put v (some T)) T x) := by
          intro x hx
          simp only [run, ht, unwrap_some, ok_bind, hh, hs, c1, e, hT, hx, store_put]
        have espec : spec p m st.read (.moveTo v d) = (Dev.resetTensorBySlice p (st'.load T) l >>= fun x => ok (Pool.set st.read v (some x))) := by
          simp only [spec, read_some ht, unwrap_some, ok_bind, Tensor.moveToDevice, show (st.load t).host = t.host from rfl, hh,
            show (st.load t).shape = t.shape from rfl, hs, c1, newBuf_some hc, hm, hload]
        cases hx : Dev.resetTensorBySlice p (st'.load T) l with
        | panic =>
          refine sim_panic (m := m) ?_ ?_
          · simp only [run, ht, unwrap_some, ok_bind, hh, hs, c1, e, hT, hx]; rfl
          · rw [espec, hx]; rfl
        | ub =>
          refine ⟨m, ?_, ?_⟩
          · rw [espec, hx]; simp only [run, ht, unwrap_some, ok_bind, hh, hs, c1, e, hT, hx]; rfl
          · intro st2 e2
            simp only [run, ht, unwrap_some, ok_bind, hh, hs, c1, e, hT, hx] at e2
            cases e2
        | ok x =>
          have hl := resetBySlice_local x hx
          obtain ⟨i1, i2, i3, i4⟩ := store_inv hi hgetT hbT hrT (t' := x) hl.2.2.2
          refine sim_put (m := m) (erun x hx) i1 ?_
          rw [espec, hx, ok_bind]
          congr 1
          symm
          refine read_eq (fun y hy => (i2 y hy).trans (hread y hy)) ?_
          simp only [St.read, i4, hgetT, Option.map_some, i3, Option.some.injEq]
          exact (KL.eq resetBySlice_local hx).symm

theorem mapR_read {st : St α} {xs : List Nat} (h : ∀ x, x ∈ xs → st.vars x ≠ none) :
    ∃ ts, mapR (fun x => unwrap (st.vars x)) xs = ok ts ∧ mapR (fun x => unwrap (st.read x)) xs = ok (ts.map st.load) := by
  induction xs with
  | nil => exact ⟨[], rfl, rfl⟩
  | cons x xs ih =>
    obtain ⟨ts, e1, e2⟩ := ih fun y hy => h y (List.mem_cons_of_mem _ hy)
    obtain ⟨t, ht⟩ := Option.ne_none_iff_exists'.mp (h x List.mem_cons_self)
    refine ⟨t :: ts, ?_, ?_⟩
    · simp only [mapR, ht, unwrap_some, ok_bind, e1]
    · simp only [mapR, read_some ht, unwrap_some, ok_bind, e2, List.map_cons]

theorem sim_kernel {p : Profile} {fresh : Nat} {st : St α} (I : Inv st) {k : List (Tensor α) → Tensor α → Res (Tensor α)} (hk : Local k) {xs : List Nat} {y : Nat}
    (hy : Free st y) (ho : Owner st y) (hxs : ∀ x, x ∈ xs → st.vars x ≠ none) : Sim p fresh st (.kernel k xs y) := by
  obtain ⟨t, ht, hb⟩ := hy.get
  obtain ⟨ts, e1, e2⟩ := mapR_read hxs
  have er : run p fresh st (.kernel k xs y) = (k (ts.map st.load) (st.load t) >>= fun t' => ok (store st t t')) := by
    simp only [run, e1, ht, unwrap_some, ok_bind]
  have es : spec p (fun _ => 0) st.read (.kernel k xs y) = (k (ts.map st.load) (st.load t) >>= fun t' => ok (Pool.set st.read y (some t'))) := by
    simp only [spec, e2, read_some ht, unwrap_some, ok_bind]
  refine ⟨fun _ => 0, ?_, ?_⟩
  · rw [er, es]
    cases hx : k (ts.map st.load) (st.load t) with
    | panic => rfl
    | ub => rfl
    | ok x =>
      have hl := hk _ _ _ hx
      obtain ⟨i1, i2, i3, i4⟩ := store_inv I ht hb (ho t ht) (t' := x) hl.2.2.2
      simp only [ok_bind]
      congr 1
      refine read_eq i2 ?_
      simp only [St.read, i4, ht, Option.map_some, i3, Option.some.injEq]
      exact (KL.eq (hk _ _) hx).symm
  · intro st' e
    rw [er, Res.bind_eq_ok] at e
    obtain ⟨x, hx, e⟩ := e
    cases e
    exact (store_inv I ht hb (ho t ht) (t' := x) (hk _ _ _ hx).2.2.2).1

/-- Every call. -/
theorem sim {p : Profile} {fresh : Nat} {st : St α} (I : Inv st) (hf : FreshOk st fresh) {c : Cmd α} (hs : Safe st c) (hd : Disciplined st c) (hl : c.Local) :
    Sim p fresh st c := by
  cases c with
  | new v d s => exact sim_new I hs
  | newHost v s l => exact sim_newHost I hs
  | alloc v => exact sim_alloc I hf hs hd
  | moveTo v d => exact sim_moveTo I hf hs
  | view v w => exact sim_view I hs.1 hs.2
  | refer v w => exact sim_refer I hs.1 hs.2.1 hs.2.2
  | replace v w => exact sim_replace I hs.1 hs.2.1 hs.2.2 hd.1 hd.2
  | updateShape v s => exact sim_updateShape I hs
  | kernel k xs y => exact sim_kernel I hl hs.1 hd hs.2.2
  | drop v => exact sim_drop I hs

end Life
end Verif
