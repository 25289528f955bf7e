import Verif.Unwind
import Verif.PropsLife2

/-!
# Property C60: after a caught panic the tensors and the pools are intact
-/

set_option linter.unusedSectionVars false

namespace Verif
namespace Life
open Res
variable {α : Type} [Flt α]

/-- What a caught panic of `c` may change: from the tensors `vs` to `vs'`.  Only the tensor that was passed as `&mut` to a kernel (its
elements), the host tensor that was to be moved to a device, and the tensor that was moved into `replace` (it is dropped). -/
def PanicEffect (vs : Nat → Option (Tensor α)) (c : Cmd α) (vs' : Nat → Option (Tensor α)) : Prop :=
  match c with
  | .kernel _ _ y => (∀ x, x ≠ y → vs' x = vs x) ∧ ∃ t t', vs y = some t ∧ vs' y = some t' ∧ t'.device = t.device ∧ t'.shape = t.shape ∧ t'.host = t.host ∧
      t'.buf.map List.length = t.buf.map List.length
  | .moveTo v d => (∀ x, x ≠ v → vs' x = vs x) ∧ ∃ t t', vs v = some t ∧ vs' v = some t' ∧ t'.shape = t.shape ∧
      (t' = t ∨ (t'.device = some d ∧ t'.host = t.host ∧ t'.buf = none) ∨ (t'.device = some d ∧ t'.host = none ∧ t'.buf ≠ none))
  | .replace _ w => vs' w = none ∧ ∀ x, x ≠ w → vs' x = vs x
  | _ => vs' = vs

theorem crash_inv {p : Profile} {fresh : Nat} {st : St α} (I : Inv st) {c : Cmd α} (hg : Good st c) (hf : FreshOk st fresh) (hr : run p fresh st c = panic) (g : Nat → α) :
    ∃ st', crash p fresh g st c = ok st' ∧ Inv st' ∧ PanicEffect st.read c st'.read := by
  cases c with
  | new v d s => exact ⟨st, rfl, I, rfl⟩
  | newHost v s l => exact ⟨st, rfl, I, rfl⟩
  | alloc v => exact ⟨st, rfl, I, rfl⟩
  | view v w => exact ⟨st, rfl, I, rfl⟩
  | refer v w => exact ⟨st, rfl, I, rfl⟩
  | updateShape v s => exact ⟨st, rfl, I, rfl⟩
  | drop v => exact ⟨st, rfl, I, rfl⟩
  | replace v w =>
    obtain ⟨u, hu, hb⟩ := hg.1.2.1.get
    obtain ⟨st', e, h1, h2, h3⟩ := drop_inv I hu hb
    refine ⟨st'.put w none, by simp only [crash, hu, unwrap_some, ok_bind, e], h3, ?_⟩
    have : (st'.put w none).read = Pool.set st.read w none := by
      rw [read_put]
      congr 1
      funext x
      simp only [St.read, h2]
      congr 1
      funext t
      simp only [St.load, h1]
    rw [this]
    exact ⟨set_same, fun x hx => set_ne hx⟩
  | kernel k xs y =>
    obtain ⟨t, ht, hb⟩ := hg.1.1.get
    have ho := hg.2.1 t ht
    obtain ⟨i1, i2, i3, i4⟩ := store_inv I ht hb ho (t' := { st.load t with buf := (st.load t).buf.map fun l => (List.range l.length).map g }) (by
      dsimp only
      cases (st.load t).buf <;> simp)
    refine ⟨_, by simp only [crash, ht, unwrap_some, ok_bind], i1, i2, st.load t, _, read_some ht, read_some (by rw [i4]; exact ht), ?_⟩
    rw [i3]
    refine ⟨rfl, rfl, rfl, ?_⟩
    dsimp only
    cases (st.load t).buf <;> simp
  | moveTo v d =>
    obtain ⟨t, ht, hb⟩ := hg.1.get
    have hself : ∀ x : Nat, x ≠ v → st.read x = st.read x := fun _ _ => rfl
    simp only [crash, ht, unwrap_some, ok_bind]
    by_cases hh : t.host.isSome = false
    · rw [if_pos hh]
      exact ⟨st, rfl, I, hself, st.load t, st.load t, read_some ht, read_some ht, rfl, .inl rfl⟩
    · rw [if_neg hh]
      have hh' : t.host ≠ none := by intro e; rw [e] at hh; exact hh rfl
      obtain ⟨hn, hrf⟩ := I.struct.host v t ht hh'
      have keep : ∃ st', (ok (st.put v (some { t with device := some d })) : Res (St α)) = ok st' ∧ Inv st' ∧ PanicEffect st.read (.moveTo v d) st'.read := by
        refine ⟨_, rfl, ⟨I.struct.set hb ?_ ?_ ?_, I.own.put fun d' k => ?_⟩, ?_⟩
        · intro t' h e _; cases e; simp
        · intro t' e _; cases e; exact ⟨hn, hrf⟩
        · intro t' w e hw; cases e; rw [hrf] at hw; cases hw
        · rw [ht]
          exact iff_of_false (not_owns_null (t := { t with device := some d }) hn) (not_owns_null (t := t) hn)
        · rw [read_put]
          refine ⟨fun x hx => set_ne hx, st.load t, _, read_some ht, set_same, rfl, .inr (.inl ⟨rfl, rfl, ?_⟩)⟩
          simp [St.load, hn]
      cases hsz : t.shape.sizeU p with
      | panic => exact keep
      | ub => exact keep
      | ok size =>
        simp only [ok_bind]
        cases hc : Pool.classOf size with
        | none =>
          rw [newHandle_panic hc]
          exact keep
        | some s =>
          obtain ⟨st', h, e, hl, hi, hrd⟩ := alloc_inv I ht hb hn (t' := { t with device := some d, host := none }) (d := d) hf hc rfl hrf rfl
          rw [e]
          refine ⟨_, rfl, hi, hrd, st.load t, _, read_some ht, read_some (t := { t with device := some d, handle := some h, host := none }) (by simp only [St.put]; exact set_same), rfl, .inr (.inr ⟨rfl, rfl, ?_⟩)⟩
          simp [St.load]

theorem CaughtRuns.inv {p : Profile} {cs : List (Cmd α)} {st : St α} (h : CaughtRuns p Good cs st) : Inv st := by
  induction h with
  | nil => exact Inv.init
  | cons _ hg hf e ih =>
    obtain ⟨m, _, h2⟩ := sim (p := p) ih hf hg.1 hg.2.1 hg.2.2
    exact h2 _ e
  | @caught cs st c fresh g st' _ hg hf e e' ih =>
    obtain ⟨st'', e1, h2, _⟩ := crash_inv (p := p) ih hg hf e g
    rw [e1] at e'; cases e'; exact h2

/-- C60: a call that panics can be unwound (no second panic while unwinding), and the panic changes nothing but the tensor that was passed
mutably to the call; a tensor that was moved into the call is dropped. -/
theorem C60_effect {p : Profile} {cs : List (Cmd α)} {st : St α} (h : CaughtRuns p Good cs st) {c : Cmd α} (hc : Good st c) {fresh : Nat} (hf : FreshOk st fresh)
    (hp : run p fresh st c = panic) (g : Nat → α) : ∃ st', crash p fresh g st c = ok st' ∧ CaughtRuns p Good (c :: cs) st' ∧ PanicEffect st.read c st'.read := by
  obtain ⟨st', e, _, h2⟩ := crash_inv h.inv hc hf hp g
  exact ⟨st', e, .caught h hc hf hp e, h2⟩

/-- C60: after any number of caught panics the next call behaves (returns or panics) as on independent arrays. -/
theorem C60_next_call {p : Profile} {cs : List (Cmd α)} {st : St α} (h : CaughtRuns p Good cs st) {c : Cmd α} (hc : Good st c) {fresh : Nat} (hf : FreshOk st fresh) :
    ∃ m, (run p fresh st c >>= fun st' => ok st'.read) = spec p m st.read c := by
  obtain ⟨m, h1, _⟩ := sim (p := p) h.inv hf hc.1 hc.2.1 hc.2.2
  exact ⟨m, h1⟩

/-- C60: and dropping a tensor succeeds and changes no other tensor. -/
theorem C60_drop {p : Profile} {cs : List (Cmd α)} {st : St α} (h : CaughtRuns p Good cs st) {v : Nat} (hv : Free st v) (fresh : Nat) :
    ∃ st', run p fresh st (.drop v) = ok st' ∧ st'.read v = none ∧ ∀ x, x ≠ v → st'.read x = st.read x := by
  obtain ⟨t, ht, hb⟩ := hv.get
  obtain ⟨st', e, h1, h2, h3⟩ := drop_inv h.inv ht hb
  refine ⟨st'.put v none, by simp only [run, ht, unwrap_some, ok_bind, e], by simp [St.read, St.put], fun x hx => ?_⟩
  simp only [St.read, St.put, set_ne hx, h2]
  congr 1
  funext u
  simp only [St.load, h1]

/-- C60: caught panics leak nothing and free nothing twice: the blocks handed out are exactly the buffers of the live owners, no two owners
share one, and no lock of a pool is poisoned. -/
theorem C60_pools {p : Profile} {cs : List (Cmd α)} {st : St α} (h : CaughtRuns p Good cs st) (d : Nat) :
    (∀ k, (st.pool d).reg k ≠ none ↔ ∃ v t, st.vars v = some t ∧ t.reference = none ∧ t.device = some d ∧ t.handle = some k) ∧
    (∀ v w k t u, st.vars v = some t → st.vars w = some u → t.reference = none → u.reference = none → t.device = some d → u.device = some d →
      t.handle = some k → u.handle = some k → v = w) ∧
    (st.pool d).poisoned = false := by
  obtain ⟨evs, he, hl⟩ := h.inv.own.hist d
  refine ⟨fun k => (reg_iff he k).trans (hl k), fun v w k t u h1 h2 h3 h4 h5 h6 h7 h8 => ?_, he.reach.inv.np⟩
  exact h.inv.own.uniq v w d k ⟨t, h1, h3, h5, h7⟩ ⟨u, h2, h4, h6, h8⟩

/-- C60: when no tensor is left, destroying the device gives every block back to the back end exactly once. -/
theorem C60_all_returned {p : Profile} {cs : List (Cmd α)} {st : St α} (h : CaughtRuns p Good cs st) (hv : ∀ v, st.vars v = none) (d : Nat) :
    (st.pool d).teardown.Perm ((st.pool d).blocks.map Prod.fst) := by
  obtain ⟨evs, he, hl⟩ := h.inv.own.hist d
  refine C13_teardown_complete he ?_
  cases hlv : live evs with
  | nil => rfl
  | cons a l =>
    obtain ⟨v, t, e, _⟩ := (hl a.1).mp (by rw [hlv]; exact List.mem_cons_self)
    rw [hv] at e; cases e

/-! ### A concrete run with caught panics -/

theorem crash_bnd {n : Nat} {p : Profile} {fresh : Nat} {g : Nat → α} {st st' : St α} {c : Cmd α} (hb : Bnd n st) (hd : Devs n st) (hc : below n c = true)
    (e : crash p fresh g st c = ok st') : Bnd n st' ∧ Devs n st' := by
  cases c <;> simp only [below, decide_eq_true_eq] at hc <;> simp only [crash, Res.bind_eq_ok, Res.ok.injEq] at e
  case moveTo v d =>
    obtain ⟨t, ht, e⟩ := e
    split at e
    · cases e; exact ⟨hb, hd⟩
    · split at e
      · next r hr =>
        cases e
        simp only [Res.bind_eq_ok] at hr
        obtain ⟨sz, _, hr⟩ := hr
        exact ⟨(hb.newHandle hc.2 hr).put hc.1, (hd.same (newHandle_vars hr)).put fun t' k e h => by cases e; cases h; exact hc.2⟩
      · cases e
        exact ⟨hb.put hc.1, hd.put fun t' k e h => by cases e; cases h; exact hc.2⟩
  case replace v w =>
    obtain ⟨u, hu, st2, hdr, rfl⟩ := e
    exact ⟨(hb.dropTensor (fun d h => hd w u d (unwrap_eq hu) h) hdr).put hc.2, (hd.same (dropTensor_vars hdr)).put fun t' k e => by cases e⟩
  case kernel k xs y =>
    obtain ⟨t, ht, rfl⟩ := e
    exact ⟨hb.store, hd.same store_vars⟩
  all_goals (subst e; exact ⟨hb, hd⟩)

/-- One call whose panic, if any, is caught. -/
def stepC (p : Profile) (g : Nat → α) (fresh : Nat) (st : St α) (c : Cmd α) : Res (St α) :=
  match run p fresh st c with
  | ok st' => ok st'
  | Res.panic => crash p fresh g st c
  | ub => ub

def runAllC (p : Profile) (g : Nat → α) : St α → List (Nat × Cmd α) → Res (St α)
  | st, [] => ok st
  | st, (f, c) :: cs => stepC p g f st c >>= fun st' => runAllC p g st' cs

def legalC (n : Nat) (p : Profile) (g : Nat → α) : St α → List (Nat × Cmd α) → Bool
  | _, [] => true
  | st, (f, c) :: cs => below n c && safeB n st c && discB st c && freshB n st f &&
      match stepC p g f st c with
      | ok st' => legalC n p g st' cs
      | _ => false

theorem legalC_runs {n : Nat} {p : Profile} {g : Nat → α} :
    ∀ (prog : List (Nat × Cmd α)) (cs : List (Cmd α)) (st st' : St α), CaughtRuns p Good cs st → Bnd n st → Devs n st → legalC n p g st prog = true →
      (∀ fc, fc ∈ prog → fc.2.Local) → runAllC p g st prog = ok st' → CaughtRuns p Good ((prog.map Prod.snd).reverse ++ cs) st' ∧ Bnd n st' := by
  intro prog
  induction prog with
  | nil => intro cs st st' hr hb hd _ _ e; cases e; exact ⟨hr, hb⟩
  | cons fc prog ih =>
    obtain ⟨f, c⟩ := fc
    intro cs st st' hr hb hd hl hloc e
    simp only [legalC, Bool.and_eq_true] at hl
    obtain ⟨⟨⟨⟨h1, h2⟩, h3⟩, h4⟩, h5⟩ := hl
    simp only [runAllC, Res.bind_eq_ok] at e
    obtain ⟨st1, e1, e2⟩ := e
    rw [e1] at h5
    have hG : Good st c := ⟨safeB_sound hb h2, discB_sound h3, hloc _ List.mem_cons_self⟩
    have key : CaughtRuns p Good (c :: cs) st1 ∧ Bnd n st1 ∧ Devs n st1 := by
      unfold stepC at e1
      split at e1
      · next s hs => cases e1; exact ⟨.cons hr hG (freshB_sound hb h4) hs, run_bnd hb hd h1 hs⟩
      · next hs => exact ⟨.caught hr hG (freshB_sound hb h4) hs e1, crash_bnd hb hd h1 e1⟩
      · cases e1
    have := ih (c :: cs) st1 st' key.1 key.2.1 key.2.2 h5 (fun fc h => hloc fc (List.mem_cons_of_mem _ h)) e2
    simpa using this

attribute [local instance] intFlt

/-- `x = constant([2], 7)`; a host tensor of shape `[2]` with three values is moved to the device (panics after the buffer was taken);
`z = new [2]; z.alloc(); x.replace(z)` (panics: `x` is allocated; `z` is dropped); `-x` into a tensor that was not allocated (panics);
`w = constant([2], 9)`. -/
def rough : List (Nat × Cmd ℤ) :=
  [(100, .new 0 0 s2), (100, .alloc 0), (0, .kernel (resetK 7) [] 0), (0, .newHost 1 s2 [1, 2, 3]), (101, .moveTo 1 0), (0, .new 2 0 s2), (102, .alloc 2),
   (0, .replace 0 2), (0, .new 3 0 s2), (0, .kernel negK [0] 3), (0, .new 4 0 s2), (103, .alloc 4), (0, .kernel (resetK 9) [] 4)]

theorem rough_local : ∀ fc, fc ∈ rough → fc.2.Local := by
  intro fc h
  simp only [rough, List.mem_cons, List.not_mem_nil, or_false] at h
  rcases h with rfl | rfl | rfl | rfl | rfl | rfl | rfl | rfl | rfl | rfl | rfl | rfl | rfl <;>
    first | exact trivial | exact resetK_local _ | exact negK_local

/-- The run is one of those that C60 speaks of: three of its calls panic (`Runs` fails), `x` still shows 7, the moved tensor (1) owns buffer 101,
tensor 2 is gone and its buffer 102 serves `w` (4). -/
example : ∃ st : St ℤ, CaughtRuns .debug Good (rough.map Prod.snd).reverse st ∧ runAll .debug St.init rough = panic ∧ shows st 0 = some (ok [7, 7]) ∧
    shows st 4 = some (ok [9, 9]) ∧ (∃ t, st.vars 1 = some t ∧ t.handle = some 101) ∧ st.vars 2 = none ∧ (∃ t, st.vars 4 = some t ∧ t.handle = some 102) ∧
    Good st (.replace 0 4) ∧ FreshOk st 104 ∧ run .debug 104 st (.replace 0 4) = panic := by
  obtain ⟨r, hb⟩ := legalC_runs (n := 5) (p := .debug) (g := fun _ => 0) rough [] St.init _ .nil (fun _ _ => ⟨rfl, rfl⟩) (fun _ _ _ h => by cases h) (by decide) rough_local rfl
  exact ⟨_, by simpa using r, rfl, by decide, by decide, ⟨_, rfl, rfl⟩, rfl, ⟨_, rfl, rfl⟩, ⟨safeB_sound hb (by decide), discB_sound (by decide), trivial⟩,
    freshB_sound hb (by decide), rfl⟩

/-- And when everything was dropped, the premise of `C60_all_returned` holds. -/
example : ∃ st : St ℤ, CaughtRuns .debug Good (.drop 4 :: .drop 3 :: .drop 1 :: .drop 0 :: (rough.map Prod.snd).reverse) st ∧ ∀ v, st.vars v = none := by
  obtain ⟨r, hb⟩ := legalC_runs (n := 5) (p := .debug) (g := fun _ => 0) (rough ++ [(0, .drop 0), (0, .drop 1), (0, .drop 3), (0, .drop 4)]) [] St.init _ .nil
    (fun _ _ => ⟨rfl, rfl⟩) (fun _ _ _ h => by cases h) (by decide)
    (fun fc h => by
      rcases List.mem_append.mp h with h | h
      · exact rough_local fc h
      · simp only [List.mem_cons, List.not_mem_nil, or_false] at h
        rcases h with rfl | rfl | rfl | rfl <;> exact trivial) rfl
  refine ⟨_, by simpa using r, fun v => ?_⟩
  by_cases hv : v < 5
  · have : v = 0 ∨ v = 1 ∨ v = 2 ∨ v = 3 ∨ v = 4 := by omega
    rcases this with rfl | rfl | rfl | rfl | rfl <;> rfl
  · exact (hb v (by omega)).1

end Life
end Verif
