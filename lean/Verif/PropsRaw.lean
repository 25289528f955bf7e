import Verif.RawHandles
import Verif.PropsLife2

/-!
# Properties of the functions on raw handles (C65)
-/

set_option linter.unusedSectionVars false

namespace Verif
namespace Life
open Res Pool
variable {α : Type} [Flt α]

/-! ## Disciplined use -/

/-- Programs that use raw handles like owned values (last call first): a handle got by `new_handle` is given back at most once, to the device it
came from, and its variable is not used afterwards; the other calls are those of C15 and name tensors only.  The list `raws` are the pointer
variables in use. -/
inductive RawRuns (p : Profile) : List (RCmd α) → List Nat → St α → Prop
  | nil : RawRuns p [] [] St.init
  | call {cs raws st c fresh st'} : RawRuns p cs raws st → Good st c → (∀ r ∈ raws, r ∉ c.names) → FreshOk st fresh →
    runR p fresh st (.call c) = ok st' → RawRuns p (.call c :: cs) raws st'
  | newHandle {cs raws st r d size fresh st'} : RawRuns p cs raws st → SafeR st (.newHandle r d size) → FreshOk st fresh →
    runR p fresh st (.newHandle r d size) = ok st' → RawRuns p (.newHandle r d size :: cs) (r :: raws) st'
  | giveBack {cs raws st r t d fresh st' st''} : RawRuns p cs raws st → r ∈ raws → st.vars r = some t → t.device = some d → FreshOk st fresh →
    runR p fresh st (.dropHandle d r) = ok st' → runR p fresh st' (.forget r) = ok st'' →
    RawRuns p (.forget r :: .dropHandle d r :: cs) (raws.erase r) st''

theorem Runs.rawNew {p : Profile} {cs : List (Cmd α)} {st st' : St α} (h : Runs p Good cs st) {r d size fresh : Nat} (hr : st.vars r = none)
    (hsz : size < U32) (hf : FreshOk st fresh) (e : runR p fresh st (.newHandle r d size) = ok st') :
    Runs p Good (.alloc r :: .new r d ⟨[], 1, 0, size⟩ :: cs) st' := by
  have h1 : Runs p Good (.new r d ⟨[], 1, 0, size⟩ :: cs) (st.put r (some ⟨some d, ⟨[], 1, 0, size⟩, none, none, none⟩)) :=
    .cons (fresh := fresh) h ⟨hr, trivial, trivial⟩ hf rfl
  have hb : ¬Ref st.vars r := not_ref h.inv hr
  refine .cons (fresh := fresh) h1 ⟨⟨?_, ?_⟩, ?_, trivial⟩ hf ?_
  · simp [St.put]
  · rintro ⟨u, t, hu, ht⟩
    by_cases hur : u = r
    · subst hur
      simp only [St.put, set_same, Option.some.injEq] at hu
      rw [← hu] at ht
      cases ht
    · simp only [St.put, set_ne hur] at hu
      exact hb ⟨u, t, hu, ht⟩
  · intro t ht
    simp only [St.put, set_same, Option.some.injEq] at ht
    rw [← ht]
  · have hz : (⟨[], 1, 0, size⟩ : Shape).sizeU p = ok size := by
      simp only [Shape.sizeU, umul, u32, Nat.one_mul, if_pos hsz]
    simp only [runR] at e
    obtain ⟨x, hx, e⟩ := Res.bind_eq_ok.mp e
    simp only [Res.ok.injEq] at e
    obtain ⟨s, hs⟩ : ∃ s, classOf size = some s := by
      cases hc : classOf size with
      | none => rw [newHandle_panic hc] at hx; cases hx
      | some s => exact ⟨s, rfl⟩
    have hx' : newHandle (st.put r (some ⟨some d, ⟨[], 1, 0, size⟩, none, none, none⟩)) d size fresh =
        ok (x.1.put r (some ⟨some d, ⟨[], 1, 0, size⟩, none, none, none⟩), x.2) := by
      simp only [newHandle, hs, St.put] at hx ⊢
      generalize (st.pool d).newHandle size fresh = q at hx ⊢
      rcases q with ⟨P', _ | k⟩
      · cases hx
      · simp only [Res.ok.injEq] at hx
        subst hx
        rfl
    have e0 : (check ((none : Option Nat).isSome = false) : Res Unit) = ok () := rfl
    have e1 : (check ((none : Option (List α)).isNone = true) : Res Unit) = ok () := rfl
    have hvr : (st.put r (some ⟨some d, ⟨[], 1, 0, size⟩, none, none, none⟩)).vars r = some ⟨some d, ⟨[], 1, 0, size⟩, none, none, none⟩ := set_same
    simp only [run, hvr, unwrap_some, ok_bind, e0, e1, hz, hx']
    rw [← e]
    simp only [St.put, rawVar, Res.ok.injEq, St.mk.injEq, true_and]
    funext j
    by_cases hj : j = r
    · subst hj; simp only [set_same]
    · simp only [set_ne hj]

theorem put_ref {st : St α} {v r : Nat} {o : Option (HT α)} (ho : ∀ t, o = some t → t.reference ≠ some r) :
    Ref (st.put v o).vars r → Ref st.vars r := by
  rintro ⟨u, t, hu, ht⟩
  by_cases huv : u = v
  · subst huv
    simp only [St.put, set_same] at hu
    exact absurd ht (ho t hu)
  · simp only [St.put, set_ne huv] at hu
    exact ⟨u, t, hu, ht⟩

/-- A call leaves the variables it does not name alone and makes no view of them. -/
theorem run_frame {p : Profile} {fresh : Nat} {st st' : St α} {c : Cmd α} (e : run p fresh st c = ok st') {r : Nat} (hr : r ∉ c.names) :
    st'.vars r = st.vars r ∧ (Ref st'.vars r → Ref st.vars r) := by
  cases c <;> simp only [Cmd.names, List.mem_cons, List.not_mem_nil, or_false, not_or] at hr <;>
    simp only [run, Res.bind_eq_ok, Res.ok.injEq] at e
  case new v d s => subst e; exact ⟨set_ne hr, put_ref fun t ht => by cases ht; simp⟩
  case newHost v s l => subst e; exact ⟨set_ne hr, put_ref fun t ht => by cases ht; simp⟩
  case alloc v =>
    obtain ⟨t, ht, _, _, _, _, d, _, _, _, x, hx, rfl⟩ := e
    have hv := newHandle_vars hx
    refine ⟨by simp only [St.put, set_ne hr, hv], fun h => ?_⟩
    by_cases hrt : t.reference = some r
    · exact ⟨v, t, unwrap_eq ht, hrt⟩
    · have := put_ref (r := r) (fun u hu => by cases hu; exact hrt) h
      rwa [hv] at this
  case moveTo v d =>
    obtain ⟨t, ht, _, _, _, _, x, hx, l, _, y, _, rfl⟩ := e
    have hv := newHandle_vars hx
    refine ⟨by simp only [St.put, set_ne hr, store_vars, hv], fun h => ?_⟩
    by_cases hrt : t.reference = some r
    · exact ⟨v, t, unwrap_eq ht, hrt⟩
    · have := put_ref (r := r) (fun u hu => by cases hu; exact hrt) h
      rwa [store_vars, hv] at this
  case view v w =>
    obtain ⟨t, ht, d, _, _, _, rfl⟩ := e
    exact ⟨set_ne hr.1, put_ref fun u hu => by cases hu; simpa using fun h => hr.2 h.symm⟩
  case refer v w =>
    obtain ⟨t, ht, u, hu, _, _, rfl⟩ := e
    exact ⟨set_ne hr.1, put_ref fun u hu => by cases hu; simpa using fun h => hr.2 h.symm⟩
  case replace v w =>
    obtain ⟨t, ht, u, hu, _, _, x, hx, rfl⟩ := e
    have hv := dropTensor_vars hx
    refine ⟨by simp only [St.put, set_ne hr.2, hv, set_ne hr.1], fun h => ?_⟩
    have h1 := put_ref (r := r) (fun u hu => by cases hu) h
    rw [hv] at h1
    by_cases hrt : t.reference = some r
    · exact ⟨v, t, unwrap_eq ht, hrt⟩
    · exact put_ref (r := r) (fun u hu => by cases hu; exact hrt) h1
  case updateShape v s =>
    obtain ⟨t, ht, _, _, _, _, _, _, rfl⟩ := e
    refine ⟨set_ne hr, fun h => ?_⟩
    by_cases hrt : t.reference = some r
    · exact ⟨v, t, unwrap_eq ht, hrt⟩
    · exact put_ref (r := r) (fun u hu => by cases hu; exact hrt) h
  case kernel k xs y =>
    obtain ⟨ts, _, t, ht, t', _, rfl⟩ := e
    exact ⟨by rw [store_vars], fun h => by rwa [store_vars] at h⟩
  case drop v =>
    obtain ⟨t, ht, x, hx, rfl⟩ := e
    have hv := dropTensor_vars hx
    refine ⟨by simp only [St.put, set_ne hr, hv], fun h => ?_⟩
    have h1 := put_ref (r := r) (fun u hu => by cases hu) h
    rwa [hv] at h1

/-- What is known of a disciplined program: it is a program of C15 (with one tensor for each raw handle), and no view refers to a raw handle. -/
theorem RawRuns.runs {p : Profile} {cs : List (RCmd α)} {raws : List Nat} {st : St α} (h : RawRuns p cs raws st) :
    (∃ cs', Runs p Good cs' st) ∧ raws.Nodup ∧ ∀ r ∈ raws, ∃ d size k, st.vars r = some (rawVar d size k) ∧ ¬Ref st.vars r := by
  induction h with
  | nil => exact ⟨⟨[], .nil⟩, List.nodup_nil, fun r hr => by cases hr⟩
  | @call cs raws st c fresh st' _ hg hn hf e ih =>
    obtain ⟨⟨cs', h'⟩, hnd, hr⟩ := ih
    refine ⟨⟨c :: cs', .cons h' hg hf e⟩, hnd, fun r hrr => ?_⟩
    obtain ⟨d, size, k, hv, hb⟩ := hr r hrr
    obtain ⟨h1, h2⟩ := run_frame e (hn r hrr)
    exact ⟨d, size, k, by rw [h1]; exact hv, fun h => hb (h2 h)⟩
  | @newHandle cs raws st r d size fresh st' _ hs hf e ih =>
    obtain ⟨⟨cs', h'⟩, hnd, hr⟩ := ih
    refine ⟨⟨_, h'.rawNew hs.1 hs.2 hf e⟩, List.nodup_cons.mpr ⟨fun hm => ?_, hnd⟩, ?_⟩
    · obtain ⟨d, size, k, hv, _⟩ := hr r hm
      rw [hs.1] at hv
      cases hv
    · simp only [runR] at e
      obtain ⟨x, hx, e⟩ := Res.bind_eq_ok.mp e
      simp only [Res.ok.injEq] at e
      have hvars := newHandle_vars hx
      have hb : ¬Ref st.vars r := not_ref h'.inv hs.1
      have hnew : ∀ j, ¬Ref st.vars j → ¬Ref st'.vars j := by
        rintro j hj ⟨u, t, hu, ht⟩
        rw [← e] at hu
        by_cases hur : u = r
        · subst hur
          simp only [St.put, set_same, Option.some.injEq] at hu
          rw [← hu] at ht
          cases ht
        · simp only [St.put, set_ne hur, hvars] at hu
          exact hj ⟨u, t, hu, ht⟩
      intro j hj
      by_cases hjr : j = r
      · subst hjr
        exact ⟨d, size, x.2, by rw [← e]; simp [St.put], hnew _ hb⟩
      · obtain ⟨d', s', k', hv, hbj⟩ := hr j ((List.mem_cons.mp hj).resolve_left hjr)
        exact ⟨d', s', k', by rw [← e]; simp only [St.put, set_ne hjr, hvars]; exact hv, hnew _ hbj⟩
  | @giveBack cs raws st r t d fresh st' st'' _ hm hv hd hf e e' ih =>
    obtain ⟨⟨cs', h'⟩, hnd, hr⟩ := ih
    obtain ⟨d', size, k, hv', hb⟩ := hr r hm
    rw [hv] at hv'
    cases hv'
    obtain rfl : d' = d := Option.some.inj hd
    have e1 : runR p fresh st (.dropHandle d' r) = dropTensor st (rawVar d' size k) := by
      simp only [runR, hv, unwrap_some, ok_bind, rawVar, dropTensor]
      rfl
    rw [e1] at e
    simp only [runR, Res.ok.injEq] at e'
    have e2 : run p fresh st (.drop r) = ok st'' := by
      simp only [run, hv, unwrap_some, ok_bind, e, ← e']
    refine ⟨⟨.drop r :: cs', .cons h' ⟨⟨by rw [hv]; simp, hb⟩, trivial, trivial⟩ hf e2⟩, hnd.erase r, fun j hj => ?_⟩
    have hjm := List.mem_of_mem_erase hj
    have hjr : j ≠ r := fun h => by subst h; exact hnd.not_mem_erase hj
    obtain ⟨d, s, k, h1, h2⟩ := hr j hjm
    obtain ⟨h3, h4⟩ := run_frame e2 (r := j) (by simpa [Cmd.names] using hjr)
    exact ⟨d, s, k, by rw [h3]; exact h1, fun h => h2 (h4 h)⟩

/-- C65: raw handles used like owned values are harmless: no raw handle is the buffer of a tensor or of another raw handle; the blocks that the
pool has handed out are those of the live owners and of the raw handles in use; and every call of C15 behaves as on independent arrays. -/
theorem C65_disciplined {p : Profile} {cs : List (RCmd α)} {raws : List Nat} {st : St α} (h : RawRuns p cs raws st) :
    (∀ r ∈ raws, ∀ v, v ≠ r → ∀ t u, st.vars r = some t → st.vars v = some u → u.reference = none → t.device = u.device → t.handle ≠ u.handle) ∧
    (∀ d k, (st.pool d).reg k ≠ none ↔ ∃ v t, st.vars v = some t ∧ t.reference = none ∧ t.device = some d ∧ t.handle = some k) ∧
    (∀ c, Good st c → ∀ fresh, FreshOk st fresh → ∃ m, (run p fresh st c >>= fun st' => ok st'.read) = spec p m st.read c) := by
  obtain ⟨⟨cs', h'⟩, _, hr⟩ := h.runs
  refine ⟨fun r hm v hv t u ht hu hur hd => ?_, C15_no_leak h', fun c hc fresh hf => C15_next_call h' hc hf⟩
  obtain ⟨d, size, k, e, _⟩ := hr r hm
  rw [ht] at e
  cases e
  exact C15_no_alias h' ht hu (Ne.symm hv) rfl hur hd (by simp [rawVar])

/-- C65: getting a raw handle and giving it back change no tensor; giving it back never panics. -/
theorem C65_disciplined_calls {p : Profile} {cs : List (RCmd α)} {raws : List Nat} {st : St α} (h : RawRuns p cs raws st) :
    (∀ r d size fresh st', SafeR st (.newHandle r d size) → FreshOk st fresh → runR p fresh st (.newHandle r d size) = ok st' →
      ∀ x, x ≠ r → st'.read x = st.read x) ∧
    (∀ r ∈ raws, ∀ t d fresh, st.vars r = some t → t.device = some d →
      ∃ st', runR p fresh st (.dropHandle d r) = ok st' ∧ ∀ x, st'.read x = st.read x) := by
  obtain ⟨⟨cs', h'⟩, _, hr⟩ := h.runs
  refine ⟨fun r d size fresh st' hs hf e x hx => ?_, fun r hm t d fresh ht hd => ?_⟩
  · simp only [runR] at e
    obtain ⟨y, hy, e⟩ := Res.bind_eq_ok.mp e
    simp only [Res.ok.injEq] at e
    obtain ⟨s, hs'⟩ : ∃ s, classOf size = some s := by
      cases hc : classOf size with
      | none => rw [newHandle_panic hc] at hy; cases hy
      | some s => exact ⟨s, rfl⟩
    obtain ⟨st1, k, P', e1, hv, _, _, _, hheap, _⟩ := newHandle_ok h'.inv (d := d) hf hs'
    rw [e1] at hy
    cases hy
    rw [← e]
    simp only [St.read, St.put, set_ne hx, hv]
    cases hx' : st.vars x with
    | none => rfl
    | some t =>
      simp only [Option.map_some, Option.some.injEq, St.load]
      cases hd : t.device with
      | none => rfl
      | some d' =>
        cases hh : t.handle with
        | none => rfl
        | some k' =>
          obtain ⟨_, _, _, _, _, _, _, hb⟩ := h'.inv.handle hx' hd hh
          simp only [hheap d' k' hb]
  · obtain ⟨d', size, k, e, hb⟩ := hr r hm
    rw [ht] at e
    cases e
    obtain rfl : d' = d := Option.some.inj hd
    obtain ⟨st1, e1, h1, h2, _⟩ := drop_inv h'.inv ht hb
    refine ⟨st1, ?_, fun x => ?_⟩
    · have e2 : runR p fresh st (.dropHandle d' r) = dropTensor st (rawVar d' size k) := by
        simp only [runR, ht, unwrap_some, ok_bind, rawVar, dropTensor]
        rfl
      rw [e2]
      exact e1
    · simp only [St.read, h2]
      congr 1
      funext u
      simp only [St.load, h1]

/-! ## What else the compiler accepts -/

/-- C65, negation: `d.drop_handle(v.handle())` is accepted for every live tensor.  It returns the buffer of the live owner `v` to the pool without
any visible effect; the next tensor `w` of the same size class then gets the same buffer; and of the two, whichever is dropped second makes the
program panic. -/
theorem C65_drop_handle_frees_live_tensor {p : Profile} {cs : List (Cmd α)} {st : St α} (h : Runs p Good cs st) {v w d k c size : Nat} {t : HT α}
    (hv : st.vars v = some t) (ho : t.reference = none) (hd : t.device = some d) (hk : t.handle = some k) (hc : (st.pool d).reg k = some c)
    (hw : st.vars w = none) {s : Shape} (hs : s.sizeU p = ok size) (hcl : classOf size = some c) (fresh : Nat) :
    SafeR st (.dropHandle d v) ∧ ∃ st1 st2 st3, runR p fresh st (.dropHandle d v) = ok st1 ∧ st1.read = st.read ∧
      run p fresh st1 (.new w d s) = ok st2 ∧ run p fresh st2 (.alloc w) = ok st3 ∧
      (∃ u, st3.vars v = some t ∧ st3.vars w = some u ∧ u.reference = none ∧ u.device = some d ∧ u.handle = some k) ∧
      (∃ st4, run p fresh st3 (.drop w) = ok st4 ∧ run p fresh st4 (.drop v) = panic) := by
  have hvw : v ≠ w := fun e => by rw [e, hw] at hv; cases hv
  obtain ⟨evs, he, _⟩ := h.inv.own.hist d
  have hnp : (st.pool d).poisoned = false := he.reach.inv.np
  have e1 : (st.pool d).dropHandle k = ({ st.pool d with reg := Pool.set (st.pool d).reg k none
                                                         free := Pool.set (st.pool d).free c (k :: (st.pool d).free c) }, true) := by
    simp [dropHandle, unregister, hnp, hc, give]
  generalize hP1 : ({ st.pool d with reg := Pool.set (st.pool d).reg k none
                                     free := Pool.set (st.pool d).free c (k :: (st.pool d).free c) } : Pool) = P1 at e1
  have hfree : P1.free c = k :: (st.pool d).free c := by rw [← hP1]; exact set_same
  have hnp1 : P1.poisoned = false := by rw [← hP1]; exact hnp
  have e2 : P1.newHandle size fresh = ({ P1 with free := Pool.set P1.free c ((st.pool d).free c), reg := Pool.set P1.reg k (some c) }, some k) := by
    simp [Pool.newHandle, hcl, take, hfree, register, hnp1]
  generalize hP2 : ({ P1 with free := Pool.set P1.free c ((st.pool d).free c), reg := Pool.set P1.reg k (some c) } : Pool) = P2 at e2
  have hnp2 : P2.poisoned = false := by rw [← hP2]; exact hnp1
  have hr2 : P2.reg k = some c := by rw [← hP2]; exact set_same
  have e3 : P2.dropHandle k = ({ P2 with reg := Pool.set P2.reg k none, free := Pool.set P2.free c (k :: P2.free c) }, true) := by
    simp [dropHandle, unregister, hnp2, hr2, give]
  have e4 : ({ P2 with reg := Pool.set P2.reg k none, free := Pool.set P2.free c (k :: P2.free c) } : Pool).dropHandle k =
      ({ P2 with reg := Pool.set P2.reg k none, free := Pool.set P2.free c (k :: P2.free c), poisoned := true }, false) := by
    simp [dropHandle, unregister, hnp2]
  generalize hP3 : ({ P2 with reg := Pool.set P2.reg k none, free := Pool.set P2.free c (k :: P2.free c) } : Pool) = P3 at e3 e4
  have hne : P1.free c ≠ [] := by rw [hfree]; simp
  let u0 : HT α := ⟨some d, s, none, none, none⟩
  let st1 : St α := { st with pool := Pool.set st.pool d P1 }
  let st2 : St α := st1.put w (some u0)
  let st3 : St α := { pool := Pool.set (Pool.set st.pool d P1) d P2, heap := st.heap
                      vars := Pool.set (Pool.set st.vars w (some u0)) w (some { u0 with handle := some k }) }
  have hn : newHandle st2 d size fresh = ok ({ st2 with pool := Pool.set (Pool.set st.pool d P1) d P2 }, k) := by
    simp only [newHandle, hcl, st2, st1, St.put, set_same, e2, if_neg hne]
  have c0 : (check ((none : Option Nat).isSome = false) : Res Unit) = ok () := rfl
  have c1 : (check ((none : Option (List α)).isNone = true) : Res Unit) = ok () := rfl
  have r1 : runR p fresh st (.dropHandle d v) = ok st1 := by
    simp only [runR, hv, unwrap_some, ok_bind, hk, e1, st1]
  have r3 : run p fresh st2 (.alloc w) = ok st3 := by
    have : st2.vars w = some u0 := set_same
    simp only [run, this, unwrap_some, ok_bind, u0, c0, c1, hs, hn]
    rfl
  have v3 : st3.vars v = some t := by simp only [st3, set_ne hvw]; exact hv
  have w3 : st3.vars w = some { u0 with handle := some k } := set_same
  refine ⟨by simp only [SafeR, hv]; simp, st1, st2, st3, r1, rfl, rfl, r3, ⟨_, v3, w3, rfl, rfl, rfl⟩, ?_⟩
  have d3 : dropTensor st3 { u0 with handle := some k } = ok { st3 with pool := Pool.set st3.pool d P3 } := by
    simp only [dropTensor, u0, st3, set_same, e3, Option.isNone_none, if_true]
  refine ⟨{ st3 with pool := Pool.set st3.pool d P3 }.put w none, ?_, ?_⟩
  · simp only [run, w3, unwrap_some, ok_bind, d3]
  · have v4 : ({ st3 with pool := Pool.set st3.pool d P3 }.put w none).vars v = some t := by simp only [St.put, set_ne hvw]; exact v3
    have d4 : dropTensor ({ st3 with pool := Pool.set st3.pool d P3 }.put w none) t = panic := by
      simp only [dropTensor, hk, ho, hd, Option.isNone_none, if_true, St.put, set_same, e4]
    simp only [run, v4, unwrap_some, ok_bind, d4]
    rfl

/-- C65, negation: overwriting the pointer of a tensor is accepted through a shared reference.  After `v.handle().store(w.handle().load())` two
owners have the buffer of `w`: dropping `w` succeeds and then dropping `v` panics. -/
theorem C65_store_handle_breaks_ownership {p : Profile} {cs : List (Cmd α)} {st : St α} (h : Runs p Good cs st) {v w d k : Nat} {t u : HT α}
    (hvw : v ≠ w) (hv : st.vars v = some t) (hw : st.vars w = some u) (hvo : t.reference = none) (hwo : u.reference = none)
    (hdv : t.device = some d) (hdw : u.device = some d) (hk : u.handle = some k) (fresh : Nat) :
    SafeR st (.storeHandle v w) ∧ ∃ st1 st2, runR p fresh st (.storeHandle v w) = ok st1 ∧
      run p fresh st1 (.drop w) = ok st2 ∧ run p fresh st2 (.drop v) = panic := by
  obtain ⟨evs, he, hl⟩ := h.inv.own.hist d
  have hnp : (st.pool d).poisoned = false := he.reach.inv.np
  obtain ⟨c, hc⟩ := Option.ne_none_iff_exists'.mp ((C15_no_leak h d k).mpr ⟨w, u, hw, hwo, hdw, hk⟩)
  have e1 : (st.pool d).dropHandle k = ({ st.pool d with reg := Pool.set (st.pool d).reg k none
                                                         free := Pool.set (st.pool d).free c (k :: (st.pool d).free c) }, true) := by
    simp [dropHandle, unregister, hnp, hc, give]
  have e2 : ({ st.pool d with reg := Pool.set (st.pool d).reg k none
                              free := Pool.set (st.pool d).free c (k :: (st.pool d).free c) } : Pool).dropHandle k =
      ({ st.pool d with reg := Pool.set (st.pool d).reg k none
                        free := Pool.set (st.pool d).free c (k :: (st.pool d).free c)
                        poisoned := true }, false) := by
    simp [dropHandle, unregister, hnp]
  generalize ({ st.pool d with reg := Pool.set (st.pool d).reg k none
                               free := Pool.set (st.pool d).free c (k :: (st.pool d).free c) } : Pool) = P1 at e1 e2
  let st1 : St α := st.put v (some { t with handle := u.handle })
  have w1 : st1.vars w = some u := by simp only [st1, St.put, set_ne (Ne.symm hvw)]; exact hw
  have v1 : st1.vars v = some { t with handle := u.handle } := set_same
  have d1 : dropTensor st1 u = ok { st1 with pool := Pool.set st1.pool d P1 } := by
    simp only [dropTensor, hk, hwo, hdw, Option.isNone_none, if_true, st1, St.put, e1]
  refine ⟨by simp only [SafeR, hv, hw]; simp, st1, { st1 with pool := Pool.set st1.pool d P1 }.put w none, ?_, ?_, ?_⟩
  · simp only [runR, hv, hw, unwrap_some, ok_bind]
    rfl
  · simp only [run, w1, unwrap_some, ok_bind, d1]
  · have v2 : ({ st1 with pool := Pool.set st1.pool d P1 }.put w none).vars v = some { t with handle := u.handle } := by
      simp only [St.put, set_ne hvw]; exact v1
    have d2 : dropTensor ({ st1 with pool := Pool.set st1.pool d P1 }.put w none) { t with handle := u.handle } = panic := by
      simp only [dropTensor, hk, hvo, hdv, Option.isNone_none, if_true, St.put, set_same, e2]
    simp only [run, v2, unwrap_some, ok_bind, d2]
    rfl

/-- C65: `d.drop_handle` accepts exactly the blocks that the pool of `d` has handed out: it panics for a null pointer, a block of another device
and a block that was given back before, in particular for the second of two calls with the same pointer. -/
theorem C65_refused {p : Profile} {cs : List (Cmd α)} {st : St α} (h : Runs p Good cs st) {r : Nat} {t : HT α} (hr : st.vars r = some t) (d fresh : Nat) :
    (runR p fresh st (.dropHandle d r) = panic ↔ ∀ k, t.handle = some k → (st.pool d).reg k = none) ∧
    ∀ st', runR p fresh st (.dropHandle d r) = ok st' → runR p fresh st' (.dropHandle d r) = panic := by
  obtain ⟨evs, he, hl⟩ := h.inv.own.hist d
  have hnp : (st.pool d).poisoned = false := he.reach.inv.np
  cases hk : t.handle with
  | none =>
    have e : ∀ fresh, runR p fresh st (.dropHandle d r) = panic := fun fresh => by
      simp only [runR, hr, unwrap_some, ok_bind, hk]
    rw [e]
    exact ⟨⟨fun _ k hc => (by cases hc), fun _ => rfl⟩, fun st' hc => (by cases hc)⟩
  | some k =>
    cases hc : (st.pool d).reg k with
    | none =>
      have e : runR p fresh st (.dropHandle d r) = panic := by
        simp [runR, hr, unwrap_some, ok_bind, hk, Pool.dropHandle, Pool.unregister, hnp, hc]
      rw [e]
      exact ⟨⟨fun _ k' hk' => (by cases hk'; exact hc), fun _ => rfl⟩, fun st' hc => (by cases hc)⟩
    | some c =>
      have e : runR p fresh st (.dropHandle d r) = ok { st with pool := Pool.set st.pool d (({ st.pool d with reg := Pool.set (st.pool d).reg k none } : Pool).give k c) } := by
        simp [runR, hr, unwrap_some, ok_bind, hk, Pool.dropHandle, Pool.unregister, hnp, hc]
      rw [e]
      refine ⟨⟨fun h => (by cases h), fun h => (by rw [h k rfl] at hc; cases hc)⟩, fun st' h => ?_⟩
      obtain rfl := Res.ok.inj h
      simp [runR, hr, unwrap_some, ok_bind, hk, Pool.dropHandle, Pool.unregister, Pool.give, hnp]

/-! ## Concrete cases -/

section
attribute [local instance] intFlt

/-- Two tensors of shape [2] on device 0, with the buffers 100 and 200. -/
def twoTensors : List (Nat × Cmd ℤ) := [(0, .new 0 0 s2), (100, .alloc 0), (0, .new 1 0 s2), (200, .alloc 1)]

theorem twoTensors_local : ∀ fc, fc ∈ twoTensors → fc.2.Local := by
  intro fc h
  simp only [twoTensors, List.mem_cons, List.not_mem_nil, or_false] at h
  rcases h with rfl | rfl | rfl | rfl <;> exact trivial

/-- The premises of `C65_drop_handle_frees_live_tensor` (with `v` = 0 and `w` = 2) and of `C65_store_handle_breaks_ownership` (with `v` = 0 and
`w` = 1) hold here. -/
example : ∃ st : St ℤ, Runs .debug Good (twoTensors.map Prod.snd).reverse st ∧
    (∃ t c, st.vars 0 = some t ∧ t.reference = none ∧ t.device = some 0 ∧ t.handle = some 100 ∧ (st.pool 0).reg 100 = some c ∧ classOf 2 = some c) ∧
    (∃ u, st.vars 1 = some u ∧ u.reference = none ∧ u.device = some 0 ∧ u.handle = some 200) ∧ st.vars 2 = none ∧ s2.sizeU .debug = ok 2 := by
  obtain ⟨r, hb, hd⟩ := legal_init (n := 6) (p := .debug) (disc := true) (A := Good) (prog := twoTensors) (fun st c a b c' => ⟨a, b rfl, c'⟩) (by decide)
    twoTensors_local rfl
  exact ⟨_, r, ⟨_, _, rfl, rfl, rfl, rfl, rfl, by decide⟩, ⟨_, rfl, rfl, rfl, rfl⟩, rfl, rfl⟩

/-- The state after a call that succeeds. -/
def after : Res (St ℤ) → St ℤ
  | .ok st => st
  | _ => St.init

def isFine : Res (St ℤ) → Bool
  | .ok _ => true
  | _ => false

theorem after_eq {r : Res (St ℤ)} (h : isFine r = true) : r = ok (after r) := by
  cases r with
  | ok _ => rfl
  | _ => cases h

/-- A disciplined program: get a raw handle of 5 elements, make a tensor, give the handle back, get another one (which is the same block). -/
example : ∃ st : St ℤ, RawRuns .debug [.newHandle 3 0 1, .forget 7, .dropHandle 0 7, .call (.alloc 0), .call (.new 0 0 s2), .newHandle 7 0 5] [3] st ∧
    (∃ t, st.vars 3 = some t ∧ t.handle = some 100) ∧ (∃ u, st.vars 0 = some u ∧ u.handle = some 200) := by
  let x1 : St ℤ := after (runR .debug 100 St.init (.newHandle 7 0 5))
  let x2 : St ℤ := after (runR .debug 200 x1 (.call (.new 0 0 s2)))
  let x3 : St ℤ := after (runR .debug 200 x2 (.call (.alloc 0)))
  let x4 : St ℤ := after (runR .debug 300 x3 (.dropHandle 0 7))
  let x5 : St ℤ := after (runR .debug 300 x4 (.forget 7))
  let x6 : St ℤ := after (runR .debug 300 x5 (.newHandle 3 0 1))
  have out : ∀ {f : Nat}, f ∉ ([] : List Nat) := by simp
  have h1 : RawRuns .debug [.newHandle 7 0 5] [7] x1 :=
    .newHandle (fresh := 100) .nil ⟨rfl, by decide⟩ (fun d => by simp [St.init, Pool.init]) (after_eq (by decide))
  have g0 : Good x1 (.new 0 0 s2) := ⟨rfl, trivial, trivial⟩
  have h2 : RawRuns .debug [.call (.new 0 0 s2), .newHandle 7 0 5] [7] x2 :=
    .call (fresh := 200) h1 g0 (by decide) (fun d => by
      cases d
      · decide
      · exact out) (after_eq (by decide))
  obtain ⟨⟨_, i2⟩, _⟩ := h2.runs
  have g1 : Good x2 (.alloc 0) := by
    refine ⟨⟨by decide, ?_⟩, ownerB_sound (by decide), trivial⟩
    rintro ⟨u, t, hu, ht⟩
    by_cases h0 : u = 0
    · subst h0; cases hu; cases ht
    · by_cases h7 : u = 7
      · subst h7; cases hu; cases ht
      · have : x2.vars u = none := by
          show Pool.set (Pool.set (fun _ => none) 7 _) 0 _ u = none
          rw [set_ne h0, set_ne h7]
        rw [this] at hu
        cases hu
  have h3 : RawRuns .debug [.call (.alloc 0), .call (.new 0 0 s2), .newHandle 7 0 5] [7] x3 :=
    .call (fresh := 200) h2 g1 (by decide) (fun d => by
      cases d
      · decide
      · exact out) (after_eq (by decide))
  have h5 : RawRuns .debug [.forget 7, .dropHandle 0 7, .call (.alloc 0), .call (.new 0 0 s2), .newHandle 7 0 5] [] x5 :=
    .giveBack (fresh := 300) (st' := x4) h3 (by decide) rfl rfl (fun d => by
      cases d
      · decide
      · exact out) (after_eq (by decide)) (after_eq (by decide))
  have h6 : RawRuns .debug [.newHandle 3 0 1, .forget 7, .dropHandle 0 7, .call (.alloc 0), .call (.new 0 0 s2), .newHandle 7 0 5] [3] x6 :=
    .newHandle (fresh := 300) h5 ⟨rfl, by decide⟩ (fun d => by
      cases d
      · decide
      · exact out) (after_eq (by decide))
  exact ⟨x6, h6, ⟨_, rfl, rfl⟩, ⟨_, rfl, rfl⟩⟩

end

end Life
end Verif
