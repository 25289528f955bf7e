import Verif.LifeSim2
import Verif.PropsSafety
import Verif.IntInst
import Verif.NodeLemmas

/-!
# Properties C15, C16, C50, C51: tensors on a pooled device are independent arrays

`Life.run` is the machine with pools, handles and views; `Life.spec` is the machine in which every tensor has its own array.
-/

set_option linter.unusedSectionVars false

namespace Verif
namespace Life
open Res
variable {α : Type} [Flt α]

/-- The calls of C15: what the compiler accepts, views only read, `replace` and `alloc` on owners, kernels that only write to their
destination. -/
def Good (st : St α) (c : Cmd α) : Prop := Safe st c ∧ Disciplined st c ∧ c.Local

/-- Runs of the abstract machine (last call first), for some contents of the buffers that are allocated. -/
inductive SpecRuns (p : Profile) : List (Cmd α) → (Nat → Option (Tensor α)) → Prop
  | nil : SpecRuns p [] (fun _ => none)
  | cons {cs vs c m vs'} : SpecRuns p cs vs → spec p m vs c = ok vs' → SpecRuns p (c :: cs) vs'

theorem Runs.inv {p : Profile} {cs : List (Cmd α)} {st : St α} (h : Runs p Good cs st) : Inv st := by
  induction h with
  | nil => exact Inv.init
  | cons _ hg hf e ih =>
    obtain ⟨m, _, h2⟩ := sim (p := p) ih hf hg.1 hg.2.1 hg.2.2
    exact h2 _ e

/-- C15: after any program of such calls, every tensor variable shows (device, shape, contents) what it shows on the machine of
independent arrays. -/
theorem C15_program {p : Profile} {cs : List (Cmd α)} {st : St α} (h : Runs p Good cs st) : SpecRuns p cs st.read := by
  induction h with
  | nil => exact .nil
  | cons h hg hf e ih =>
    obtain ⟨m, h1, _⟩ := sim (p := p) h.inv hf hg.1 hg.2.1 hg.2.2
    rw [e, ok_bind] at h1
    exact .cons ih h1.symm

/-- C15: and the next call behaves (returns or panics) as on the machine of independent arrays. -/
theorem C15_next_call {p : Profile} {cs : List (Cmd α)} {st : St α} (h : Runs p Good cs st) {c : Cmd α} (hc : Good st c) {fresh : Nat} (hf : FreshOk st fresh) :
    ∃ m, (run p fresh st c >>= fun st' => ok st'.read) = spec p m st.read c := by
  obtain ⟨m, h1, _⟩ := sim (p := p) h.inv hf hc.1 hc.2.1 hc.2.2
  exact ⟨m, h1⟩

/-- C15: dropping a tensor never panics and changes no other tensor. -/
theorem C15_drop {p : Profile} {cs : List (Cmd α)} {st : St α} (h : Runs p Good cs st) {v : Nat} (hv : Free st v) (fresh : Nat) :
    ∃ st', run p fresh st (.drop v) = ok st' ∧ st'.read v = none ∧ ∀ x, x ≠ v → st'.read x = st.read x := by
  obtain ⟨t, ht, hb⟩ := hv.get
  obtain ⟨st', e, h1, h2, h3⟩ := drop_inv h.inv ht hb
  refine ⟨st'.put v none, by simp only [run, ht, unwrap_some, ok_bind, e], by simp [St.read, St.put], fun x hx => ?_⟩
  simp only [St.read, St.put, set_ne hx, h2]
  congr 1
  funext u
  simp only [St.load, h1]

/-- C15: a kernel changes no tensor but its destination: no other tensor shares the buffer. -/
theorem C15_write_isolated {p : Profile} {cs : List (Cmd α)} {st st' : St α} (h : Runs p Good cs st) {k : List (Tensor α) → Tensor α → Res (Tensor α)} {xs : List Nat}
    {y : Nat} (hg : Good st (.kernel k xs y)) {fresh : Nat} (e : run p fresh st (.kernel k xs y) = ok st') : ∀ x, x ≠ y → st'.read x = st.read x := by
  intro x hx
  obtain ⟨t, ht, hb⟩ := hg.1.1.get
  obtain ⟨ts, e1, _⟩ := mapR_read hg.1.2.2
  simp only [run, e1, ht, unwrap_some, ok_bind, Res.bind_eq_ok, Res.ok.injEq] at e
  obtain ⟨t', hk, rfl⟩ := e
  exact (store_inv h.inv ht hb (hg.2.1 t ht) (t' := t') (hg.2.2 _ _ _ hk).2.2.2).2.1 x hx

/-- C15: two owners on the same device never have the same buffer. -/
theorem C15_no_alias {p : Profile} {cs : List (Cmd α)} {st : St α} (h : Runs p Good cs st) {v w : Nat} {t u : HT α} (hv : st.vars v = some t) (hw : st.vars w = some u)
    (hne : v ≠ w) (ht : t.reference = none) (hu : u.reference = none) (hd : t.device = u.device) (hh : t.handle ≠ none) : t.handle ≠ u.handle := by
  intro e
  obtain ⟨k, hk⟩ := Option.ne_none_iff_exists'.mp hh
  obtain ⟨d, hd'⟩ := Option.ne_none_iff_exists'.mp (h.inv.struct.dev v t k hv hk)
  exact hne (h.inv.own.uniq v w d k ⟨t, hv, ht, hd', hk⟩ ⟨u, hw, hu, hd ▸ hd', e ▸ hk⟩)

theorem reg_iff {evs : List Ev} {P : Pool} (h : Verif.Hist evs P) (k : Nat) : P.reg k ≠ none ↔ k ∈ (live evs).map Prod.fst := by
  constructor
  · intro hr
    obtain ⟨s, hs⟩ := Option.ne_none_iff_exists'.mp hr
    exact h.reg_live hs
  · intro hm
    obtain ⟨⟨a, size⟩, hm', rfl⟩ := List.mem_map.mp hm
    obtain ⟨s, _, hr, _⟩ := h.reach.inv.owned a size hm'
    rw [hr]; simp

/-- C15: the blocks that the pool of a device has handed out are exactly the buffers of the live owners: nothing leaks. -/
theorem C15_no_leak {p : Profile} {cs : List (Cmd α)} {st : St α} (h : Runs p Good cs st) (d k : Nat) :
    (st.pool d).reg k ≠ none ↔ ∃ v t, st.vars v = some t ∧ t.reference = none ∧ t.device = some d ∧ t.handle = some k := by
  obtain ⟨evs, he, hl⟩ := h.inv.own.hist d
  exact (reg_iff he k).trans (hl k)

/-- C15: when no tensor is left, destroying the device gives every block back to the back end exactly once. -/
theorem C15_all_returned {p : Profile} {cs : List (Cmd α)} {st : St α} (h : Runs p Good cs st) (hv : ∀ v, st.vars v = none) (d : Nat) :
    (st.pool d).teardown.Perm ((st.pool d).blocks.map Prod.fst) := by
  obtain ⟨evs, he, hl⟩ := h.inv.own.hist d
  refine C13_teardown_complete he ?_
  cases hlv : live evs with
  | nil => rfl
  | cons a l =>
    obtain ⟨v, t, e, _⟩ := (hl a.1).mp (by rw [hlv]; exact List.mem_cons_self)
    rw [hv] at e; cases e

/-- C15: all kernels of the naive back end, forward and backward, are of the kind the theorems above speak of (a backward kernel splits
its arguments into `xs`, `ys` and `gys`). -/
theorem C15_kernels_local (p : Profile) :
    (∀ n u f, Local fun xs y => Dev.callFw (α := α) p n xs u f y) ∧
    (∀ m n (a b c : List (Tensor α) → List (Tensor α)) u f, Local fun xs y => Dev.callBw (α := α) p m n (a xs) (b xs) (c xs) u f y) :=
  ⟨fun n u f xs y => callFw_local p n xs u f y, fun m n a b c u f xs y => callBw_local p m n (a xs) (b xs) (c xs) u f y⟩

/-- Calls one after the other; the first component is the address the back end would return. -/
def runAll (p : Profile) (st : St α) : List (Nat × Cmd α) → Res (St α)
  | [] => ok st
  | (fresh, c) :: cs => run p fresh st c >>= fun st' => runAll p st' cs

/-- The calls that a forward device function makes: create the result, allocate it, run the kernel. -/
def fwCalls (p : Profile) (op : FwOp α) (d : Nat) (s : Shape) (xs : List Nat) (y : Nat) (fresh : Nat) : List (Nat × Cmd α) :=
  [(fresh, .new y d s), (fresh, .alloc y), (fresh, .kernel (fun ts t => Dev.callFw p op.name ts op.u32data op.f32data t) xs y)]

/-- C15: in particular a forward device function evaluated on the pooled device, whatever buffer the result recycles, returns a tensor
with the elements that the function's definition gives, and changes no other tensor. -/
theorem C15_forward {p : Profile} {cs : List (Cmd α)} {st : St α} (h : Runs p Good cs st) {op : FwOp α} {xs : List Nat} {ts : List (Tensor α)} {d y : Nat}
    {ins : List (Shape × Arr α)} {s : Shape} (hy : st.vars y = none) (hx : xs.map st.read = ts.map some) (hold : HoldAll d ts ins)
    (hs : op.shape .debug (ins.map Prod.fst) = ok s) (hsz : s.size ≤ 2 ^ 31) (hfit : op.Fits s) {fresh : Nat} (hf : FreshOk st fresh) :
    ∃ st' t, runAll p st (fwCalls p op d s xs y fresh) = ok st' ∧ st'.read y = some t ∧ t.Holds d s (op.sem ins) ∧ ∀ x, x ≠ y → st'.read x = st.read x := by
  have hxs : ∀ x, x ∈ xs → st.vars x ≠ none := by
    intro x hx' e
    have : st.read x ∈ xs.map st.read := List.mem_map.mpr ⟨x, hx', rfl⟩
    rw [hx] at this
    obtain ⟨t, _, e'⟩ := List.mem_map.mp this
    rw [St.read, e] at e'; cases e'
  have hyx : y ∉ xs := fun q => hxs y q hy
  have hops : (op.shape p (ts.map Tensor.shape)) = ok s := by
    obtain ⟨y', e, hy'⟩ := Dev.fw_ok hold hs hsz hfit p (fun _ => 0)
    have := (Dev.fw_frame e).2.2.1
    rw [this, hy'.shape]
  -- new
  have g1 : Good st (.new y d s) := ⟨hy, trivial, trivial⟩
  have e1 : run p fresh st (.new y d s) = ok (st.put y (some ⟨some d, s, none, none, none⟩)) := rfl
  have r1 := Runs.cons h g1 hf e1
  generalize hst1 : st.put y (some ⟨some d, s, none, none, none⟩) = st1 at e1 r1
  have v1 : st1.vars y = some ⟨some d, s, none, none, none⟩ := by rw [← hst1]; simp [St.put]
  have rd1 : ∀ x, x ≠ y → st1.read x = st.read x := by intro x hx; rw [← hst1, read_put, set_ne hx]
  have f1 : FreshOk st1 fresh := by rw [← hst1]; exact hf
  have nb1 : ¬ Ref st1.vars y := by
    rintro ⟨u, t, a, b⟩
    obtain ⟨w, hw, _⟩ := r1.inv.struct.edge u t y a b
    by_cases hu : u = y
    · subst hu; rw [v1] at a; cases a; cases b
    · rw [← hst1] at a
      simp only [St.put, set_ne hu] at a
      exact not_ref h.inv hy ⟨u, t, a, b⟩
  -- alloc
  have g2 : Good st1 (.alloc y) := ⟨⟨by simp [v1], nb1⟩, (fun t ht => by rw [v1] at ht; cases ht; rfl), trivial⟩
  obtain ⟨m, hm⟩ := C15_next_call r1 g2 f1
  obtain ⟨w, ew, hw⟩ := Dev.fw_ok hold hs hsz hfit p m
  unfold Dev.fw at ew
  simp only [Res.bind_eq_ok] at ew
  obtain ⟨_, _, s', hs', t1, ha, hc⟩ := ew
  rw [hops] at hs'; cases hs'
  have hr1 : st1.read y = some (Tensor.new d s) := by rw [read_some v1]; rfl
  simp only [spec, hr1, unwrap_some, ok_bind, ha] at hm
  cases hr2 : run p fresh st1 (.alloc y) with
  | panic => rw [hr2] at hm; cases hm
  | ub => rw [hr2] at hm; cases hm
  | ok st2 =>
    rw [hr2, ok_bind, Res.ok.injEq] at hm
    have r2 := Runs.cons r1 g2 f1 hr2
    have rd2 : ∀ x, x ≠ y → st2.read x = st.read x := by intro x hx; rw [hm, set_ne hx, rd1 x hx]
    have hy2 : st2.read y = some t1 := by rw [hm, set_same]
    -- the kernel: `y` is an owner that nobody borrows
    obtain ⟨t2, ht2, hload⟩ : ∃ t2, st2.vars y = some t2 ∧ st2.load t2 = t1 := by
      rw [St.read] at hy2
      cases hv : st2.vars y with
      | none => rw [hv] at hy2; cases hy2
      | some t2 => rw [hv] at hy2; exact ⟨t2, rfl, by simpa using hy2⟩
    have hvars : ∃ hd, st2.vars = Pool.set st1.vars y (some ⟨some d, s, some hd, none, none⟩) := by
      simp only [run, v1, unwrap_some, ok_bind, Res.bind_eq_ok, Res.ok.injEq] at hr2
      obtain ⟨_, _, _, _, size, hsize, rr, hnew, rfl⟩ := hr2
      refine ⟨rr.2, ?_⟩
      have : rr.1.vars = st1.vars := by
        unfold newHandle at hnew
        split at hnew
        · cases hnew
        · dsimp only at hnew
          split at hnew
          · cases hnew
          · cases hnew; rfl
      simp only [St.put, this]
    obtain ⟨hd, hvars⟩ := hvars
    have ht2' : t2 = ⟨some d, s, some hd, none, none⟩ := by rw [hvars, set_same] at ht2; exact (Option.some.inj ht2).symm
    have nb2 : ¬ Ref st2.vars y := by
      rintro ⟨u, t, a, b⟩
      rw [hvars] at a
      by_cases hu : u = y
      · subst hu; rw [set_same] at a; cases a; cases b
      · rw [set_ne hu] at a; exact nb1 ⟨u, t, a, b⟩
    have hx2 : xs.map st2.read = ts.map some := by
      rw [← hx]
      exact List.map_congr_left fun x hx' => rd2 x fun q => hyx (q ▸ hx')
    have hxs2 : ∀ x, x ∈ xs → st2.vars x ≠ none := by
      intro x hx' e
      have : st2.read x ∈ xs.map st2.read := List.mem_map.mpr ⟨x, hx', rfl⟩
      rw [hx2] at this
      obtain ⟨t, _, e'⟩ := List.mem_map.mp this
      rw [St.read, e] at e'; cases e'
    have g3 : Good st2 (.kernel (fun ts t => Dev.callFw p op.name ts op.u32data op.f32data t) xs y) :=
      ⟨⟨⟨by simp [ht2], nb2⟩, hyx, hxs2⟩, (fun t ht => by rw [ht2] at ht; cases ht; rw [ht2']), (C15_kernels_local p).1 _ _ _⟩
    obtain ⟨us, u1, u2⟩ := mapR_read hxs2
    have hus : us.map st2.load = ts := by
      have : ∀ (l : List Nat) (a b : List (Tensor α)), mapR (fun x => unwrap (st2.read x)) l = ok a → l.map st2.read = b.map some → a = b := by
        intro l
        induction l with
        | nil => intro a b e1 e2; simp only [mapR, Res.ok.injEq] at e1; subst e1; cases b with
          | nil => rfl
          | cons _ _ => cases e2
        | cons x l ih =>
          intro a b e1 e2
          cases b with
          | nil => cases e2
          | cons b0 b =>
            simp only [List.map_cons, List.cons.injEq] at e2
            simp only [mapR, e2.1, unwrap_some, ok_bind, Res.bind_eq_ok, Res.ok.injEq] at e1
            obtain ⟨a', e1, rfl⟩ := e1
            rw [ih a' b e1 e2.2]
      exact this xs _ _ u2 hx2
    have e3 : run p fresh st2 (.kernel (fun ts t => Dev.callFw p op.name ts op.u32data op.f32data t) xs y) = ok (store st2 t2 w) := by
      simp only [run, u1, ht2, unwrap_some, ok_bind, hus, hload, hc]
    obtain ⟨i1, i2, i3, i4⟩ := store_inv r2.inv ht2 nb2 (g3.2.1 t2 ht2) (t' := w) (by rw [hload]; exact (callFw_local _ _ _ _ _ _ w hc).2.2.2)
    refine ⟨store st2 t2 w, w, ?_, ?_, hw, fun x hx => (i2 x hx).trans (rd2 x hx)⟩
    · simp only [runAll, fwCalls, e1, ok_bind, hr2, e3]
    · simp only [St.read, i4, ht2, Option.map_some, i3, hload, Option.some.injEq]
      exact (KL.eq (callFw_local _ _ _ _ _ _) hc).symm

end Life
end Verif
