import Verif.PropsLife

/-!
# C16, C50, C51: what goes wrong outside the discipline of C15

First a small checker that shows that concrete programs are accepted (its soundness is proved), then the programs.
-/

set_option linter.unusedSectionVars false

namespace Verif
namespace Life
open Res

section checker
variable {α : Type} [Flt α]

/-- Only variables and devices below `n` are in use. -/
def Bnd (n : Nat) (st : St α) : Prop := ∀ u, n ≤ u → st.vars u = none ∧ (st.pool u).blocks = []

/-- A call that uses only variables and devices below `n`. -/
def below (n : Nat) : Cmd α → Bool
  | .new v d _ | .moveTo v d => decide (v < n ∧ d < n)
  | .newHost v _ _ | .alloc v | .updateShape v _ | .drop v => decide (v < n)
  | .view v w | .refer v w | .replace v w => decide (v < n ∧ w < n)
  | .kernel _ xs y => decide (y < n ∧ ∀ x ∈ xs, x < n)

def borrowedB (n : Nat) (st : St α) (v : Nat) : Bool :=
  (List.range n).any fun u => match st.vars u with | some t => t.reference == some v | none => false
def freeB (n : Nat) (st : St α) (v : Nat) : Bool := (st.vars v).isSome && !borrowedB n st v
def ownerB (st : St α) (v : Nat) : Bool := match st.vars v with | some t => t.reference.isNone | none => true
def freshB (n : Nat) (st : St α) (f : Nat) : Bool := (List.range n).all fun d => !((st.pool d).blocks.map Prod.fst).contains f

def safeB (n : Nat) (st : St α) : Cmd α → Bool
  | .new v _ _ | .newHost v _ _ => (st.vars v).isNone
  | .view v w => (st.vars v).isNone && (st.vars w).isSome
  | .alloc v | .moveTo v _ | .updateShape v _ | .drop v => freeB n st v
  | .refer v w => freeB n st v && (st.vars w).isSome && decide (v ≠ w)
  | .replace v w => freeB n st v && freeB n st w && decide (v ≠ w)
  | .kernel _ xs y => freeB n st y && !xs.contains y && xs.all fun x => (st.vars x).isSome

def discB (st : St α) : Cmd α → Bool
  | .alloc v => ownerB st v
  | .replace v w => ownerB st v && ownerB st w
  | .kernel _ _ y => ownerB st y
  | _ => true

def legal (n : Nat) (p : Profile) (disc : Bool) : St α → List (Nat × Cmd α) → Bool
  | _, [] => true
  | st, (f, c) :: cs => below n c && safeB n st c && (!disc || discB st c) && freshB n st f &&
      match run p f st c with
      | ok st' => legal n p disc st' cs
      | _ => false

theorem borrowedB_sound {n : Nat} {st : St α} (hb : Bnd n st) {v : Nat} (h : borrowedB n st v = false) : ¬ Borrowed st v := by
  rintro ⟨u, t, h1, h2⟩
  have hu : u < n := by
    by_contra hc
    rw [(hb u (by omega)).1] at h1; cases h1
  have : borrowedB n st v = true := List.any_eq_true.mpr ⟨u, List.mem_range.mpr hu, by rw [h1]; simp [h2]⟩
  rw [h] at this; cases this

theorem freeB_sound {n : Nat} {st : St α} (hb : Bnd n st) {v : Nat} (h : freeB n st v = true) : Free st v := by
  unfold freeB at h
  rw [Bool.and_eq_true, Bool.not_eq_true'] at h
  exact ⟨(fun e => by rw [e] at h; cases h.1), borrowedB_sound hb h.2⟩

theorem ownerB_sound {st : St α} {v : Nat} (h : ownerB st v = true) : Owner st v := by
  intro t ht
  rw [ownerB, ht] at h
  simpa using h

theorem ne_none_of_isSome {β : Type} {o : Option β} (h : o.isSome = true) : o ≠ none := fun e => by rw [e] at h; cases h

theorem safeB_sound {n : Nat} {st : St α} (hb : Bnd n st) {c : Cmd α} (h : safeB n st c = true) : Safe st c := by
  cases c <;> simp only [safeB, Bool.and_eq_true, Option.isNone_iff_eq_none, decide_eq_true_eq, List.all_eq_true, Bool.not_eq_true'] at h <;> simp only [Safe]
  case new => exact h
  case newHost => exact h
  case alloc => exact freeB_sound hb h
  case moveTo => exact freeB_sound hb h
  case view => exact ⟨h.1, ne_none_of_isSome h.2⟩
  case refer => exact ⟨freeB_sound hb h.1.1, ne_none_of_isSome h.1.2, h.2⟩
  case replace => exact ⟨freeB_sound hb h.1.1, freeB_sound hb h.1.2, h.2⟩
  case updateShape => exact freeB_sound hb h
  case kernel => exact ⟨freeB_sound hb h.1.1, (fun q => by rw [List.contains_iff_mem.mpr q] at h; cases h.1.2), fun x hx => ne_none_of_isSome (h.2 x hx)⟩
  case drop => exact freeB_sound hb h

theorem discB_sound {st : St α} {c : Cmd α} (h : discB st c = true) : Disciplined st c := by
  cases c <;> simp only [discB, Bool.and_eq_true] at h <;> simp only [Disciplined]
  case alloc => exact ownerB_sound h
  case replace => exact ⟨ownerB_sound h.1, ownerB_sound h.2⟩
  case kernel => exact ownerB_sound h

theorem freshB_sound {n : Nat} {st : St α} (hb : Bnd n st) {f : Nat} (h : freshB n st f = true) : FreshOk st f := by
  intro d hm
  by_cases hd : d < n
  · have := List.all_eq_true.mp h d (List.mem_range.mpr hd)
    rw [List.contains_iff_mem.mpr hm] at this; cases this
  · rw [(hb d (by omega)).2] at hm; cases hm

theorem Bnd.put {n : Nat} {st : St α} (h : Bnd n st) {v : Nat} (hv : v < n) {o : Option (HT α)} : Bnd n (st.put v o) := by
  intro u hu
  have : u ≠ v := by omega
  exact ⟨by simp only [St.put, set_ne this]; exact (h u hu).1, (h u hu).2⟩

theorem Bnd.store {n : Nat} {st : St α} (h : Bnd n st) {t : HT α} {x : Tensor α} : Bnd n (store st t x) := by
  unfold Life.store
  split <;> exact h

theorem Bnd.newHandle {n : Nat} {st : St α} (h : Bnd n st) {d size fresh : Nat} (hd : d < n) {r : St α × Nat} (e : Life.newHandle st d size fresh = ok r) : Bnd n r.1 := by
  unfold Life.newHandle at e
  split at e
  · cases e
  · dsimp only at e
    split at e
    · cases e
    · cases e
      intro u hu
      refine ⟨(h u hu).1, ?_⟩
      have : u ≠ d := by omega
      simp only [set_ne this]
      exact (h u hu).2

theorem Bnd.dropTensor {n : Nat} {st st' : St α} (h : Bnd n st) {t : HT α} (hd : ∀ d, t.device = some d → d < n) (e : Life.dropTensor st t = ok st') : Bnd n st' := by
  unfold Life.dropTensor at e
  split at e
  · cases e; exact h
  · split at e
    · split at e
      · cases e
      · next d hdev =>
        split at e
        · cases e
        · cases e
          intro u hu
          refine ⟨(h u hu).1, ?_⟩
          have : u ≠ d := by have := hd d hdev; omega
          simp only [set_ne this]
          exact (h u hu).2
    · cases e; exact h

/-- All tensors are on devices below `n`. -/
def Devs (n : Nat) (st : St α) : Prop := ∀ v t d, st.vars v = some t → t.device = some d → d < n

theorem Devs.put {n : Nat} {st : St α} (h : Devs n st) {v : Nat} {o : Option (HT α)} (ho : ∀ t d, o = some t → t.device = some d → d < n) : Devs n (st.put v o) := by
  intro u t d h1 h2
  by_cases hu : u = v
  · subst hu; simp only [St.put, set_same] at h1; exact ho t d h1 h2
  · simp only [St.put, set_ne hu] at h1; exact h u t d h1 h2

theorem Devs.same {n : Nat} {st st' : St α} (h : Devs n st) (e : st'.vars = st.vars) : Devs n st' := by
  intro v t d h1; rw [e] at h1; exact h v t d h1

theorem store_vars {st : St α} {t : HT α} {x : Tensor α} : (store st t x).vars = st.vars := by
  unfold store; split <;> rfl

theorem newHandle_vars {st : St α} {d size fresh : Nat} {r : St α × Nat} (e : Life.newHandle st d size fresh = ok r) : r.1.vars = st.vars := by
  unfold Life.newHandle at e
  split at e
  · cases e
  · dsimp only at e
    split at e
    · cases e
    · cases e; rfl

theorem dropTensor_vars {st st' : St α} {t : HT α} (e : Life.dropTensor st t = ok st') : st'.vars = st.vars := by
  unfold Life.dropTensor at e
  split at e
  · cases e; rfl
  · split at e
    · split at e
      · cases e
      · split at e
        · cases e
        · cases e; rfl
    · cases e; rfl

theorem unwrap_eq {β : Type} {o : Option β} {a : β} (h : unwrap o = ok a) : o = some a := by
  unfold unwrap at h; split at h
  · cases h; rfl
  · cases h

theorem run_bnd {n : Nat} {p : Profile} {fresh : Nat} {st st' : St α} {c : Cmd α} (hb : Bnd n st) (hd : Devs n st) (hc : below n c = true)
    (e : run p fresh st c = ok st') : Bnd n st' ∧ Devs n st' := by
  cases c <;> simp only [below, decide_eq_true_eq] at hc <;> simp only [run, Res.bind_eq_ok, Res.ok.injEq] at e
  case new v d s => subst e; exact ⟨hb.put hc.1, hd.put fun t k e h => by cases e; cases h; exact hc.2⟩
  case newHost v s l => subst e; exact ⟨hb.put hc, hd.put fun t k e h => by cases e; cases h⟩
  case alloc v =>
    obtain ⟨t, ht, _, _, _, _, d, hdev, _, _, r, hr, rfl⟩ := e
    have h1 := hd v t d (unwrap_eq ht) (unwrap_eq hdev)
    exact ⟨(hb.newHandle h1 hr).put hc, (hd.same (newHandle_vars hr)).put fun t' k e h => by cases e; exact hd v t k (unwrap_eq ht) h⟩
  case moveTo v d =>
    obtain ⟨t, ht, _, _, _, _, r, hr, _, _, x, _, rfl⟩ := e
    exact ⟨((hb.newHandle hc.2 hr).store).put hc.1, (hd.same (store_vars.trans (newHandle_vars hr))).put fun t' k e h => by cases e; cases h; exact hc.2⟩
  case view v w =>
    obtain ⟨t, ht, d, hdev, _, _, rfl⟩ := e
    exact ⟨hb.put hc.1, hd.put fun t' k e h => by cases e; cases h; exact hd w t d (unwrap_eq ht) (unwrap_eq hdev)⟩
  case refer v w =>
    obtain ⟨t, ht, u, hu, _, _, rfl⟩ := e
    exact ⟨hb.put hc.1, hd.put fun t' k e h => by cases e; exact hd v t k (unwrap_eq ht) h⟩
  case replace v w =>
    obtain ⟨t, ht, u, hu, _, _, st2, hdr, rfl⟩ := e
    have h1 : Devs n (st.put v (some { t with handle := u.handle })) := hd.put fun t' k e h => by cases e; exact hd v t k (unwrap_eq ht) h
    exact ⟨((hb.put hc.1).dropTensor (t := { u with handle := none }) (fun d h => hd w u d (unwrap_eq hu) h) hdr).put hc.2,
      (h1.same (dropTensor_vars hdr)).put fun t' k e => by cases e⟩
  case updateShape v s =>
    obtain ⟨t, ht, _, _, _, _, _, _, rfl⟩ := e
    exact ⟨hb.put hc, hd.put fun t' k e h => by cases e; exact hd v t k (unwrap_eq ht) h⟩
  case kernel k xs y =>
    obtain ⟨ts, _, t, ht, x, _, rfl⟩ := e
    exact ⟨hb.store, hd.same store_vars⟩
  case drop v =>
    obtain ⟨t, ht, st2, hdr, rfl⟩ := e
    exact ⟨(hb.dropTensor (fun d h => hd v t d (unwrap_eq ht) h) hdr).put hc, (hd.same (dropTensor_vars hdr)).put fun t' k e => by cases e⟩

/-- The checker is sound. -/
theorem legal_runs {n : Nat} {p : Profile} {disc : Bool} {A : St α → Cmd α → Prop} (hA : ∀ st c, Safe st c → (disc = true → Disciplined st c) → c.Local → A st c) :
    ∀ (prog : List (Nat × Cmd α)) (cs : List (Cmd α)) (st st' : St α), Runs p A cs st → Bnd n st → Devs n st → legal n p disc st prog = true →
      (∀ fc, fc ∈ prog → fc.2.Local) → runAll p st prog = ok st' → Runs p A ((prog.map Prod.snd).reverse ++ cs) st' ∧ Bnd n st' ∧ Devs n st' := by
  intro prog
  induction prog with
  | nil => intro cs st st' hr hb hd _ _ e; cases e; exact ⟨hr, hb, hd⟩
  | cons fc prog ih =>
    obtain ⟨f, c⟩ := fc
    intro cs st st' hr hb hd hl hloc e
    simp only [legal, Bool.and_eq_true] at hl
    obtain ⟨⟨⟨⟨h1, h2⟩, h3⟩, h4⟩, h5⟩ := hl
    simp only [runAll, Res.bind_eq_ok] at e
    obtain ⟨st1, e1, e2⟩ := e
    rw [e1] at h5
    obtain ⟨b1, d1⟩ := run_bnd hb hd h1 e1
    have hdisc : disc = true → Disciplined st c := by
      intro hdt; subst hdt
      exact discB_sound (by simpa using h3)
    have r1 := Runs.cons hr (hA st c (safeB_sound hb h2) hdisc (hloc _ List.mem_cons_self)) (freshB_sound hb h4) e1
    have := ih (c :: cs) st1 st' r1 b1 d1 h5 (fun fc h => hloc fc (List.mem_cons_of_mem _ h)) e2
    simpa using this

theorem legal_init {n : Nat} {p : Profile} {disc : Bool} {A : St α → Cmd α → Prop} (hA : ∀ st c, Safe st c → (disc = true → Disciplined st c) → c.Local → A st c)
    {prog : List (Nat × Cmd α)} {st' : St α} (hl : legal n p disc St.init prog = true) (hloc : ∀ fc, fc ∈ prog → fc.2.Local)
    (e : runAll p St.init prog = ok st') : Runs p A (prog.map Prod.snd).reverse st' ∧ Bnd n st' ∧ Devs n st' := by
  have := legal_runs (n := n) hA prog [] St.init st' .nil (fun _ _ => ⟨rfl, rfl⟩) (fun _ _ _ h => by cases h) hl hloc e
  simpa using this

end checker

attribute [local instance] intFlt

/-- `y.reset(k)` as a kernel (tensor.rs:88-90). -/
def resetK (k : ℤ) : List (Tensor ℤ) → Tensor ℤ → Res (Tensor ℤ) := fun _ t => Dev.callFw .debug .resetTensor [] [] [k] t

theorem resetK_local (k : ℤ) : Local (resetK k) := fun _ t => callFw_local .debug .resetTensor [] [] [k] t

/-- Calls that the compiler accepts, with kernels of the library. -/
def Accepted (st : St ℤ) (c : Cmd ℤ) : Prop := Safe st c ∧ c.Local

/-- `shape![2]` -/
def s2 : Shape := vecShape 2 1

/-- What `to_vec` returns for variable `v`. -/
def shows (st : St ℤ) (v : Nat) : Option (Res (List ℤ)) := (st.read v).map fun t => t.toVec .debug

/-! ### C16 -/

/-- Double ownership: `x = constant([2], 7); v = Tensor::from(&x); y = new; y.replace(v); drop(y); z = constant([2], 9)`. -/
def doubleOwner : List (Nat × Cmd ℤ) :=
  [(100, .new 0 0 s2), (100, .alloc 0), (0, .kernel (resetK 7) [] 0), (0, .view 1 0), (0, .new 2 0 s2), (0, .replace 2 1), (0, .drop 2),
   (0, .new 3 0 s2), (101, .alloc 3), (0, .kernel (resetK 9) [] 3)]

/-- C16, negation of the full claim: a program the compiler accepts, in which `replace` receives a view: `x` (0) was set to 7 and never
touched afterwards, but shows 9, because the later tensor `z` (3) got the same buffer; and after dropping `z`, dropping `x` panics. -/
theorem C16_replace_of_view_breaks_ownership : ∃ st : St ℤ, runAll .debug St.init doubleOwner = ok st ∧ Runs .debug Accepted (doubleOwner.map Prod.snd).reverse st ∧
    shows st 0 = some (ok [9, 9]) ∧
    (∃ t u, st.vars 0 = some t ∧ st.vars 3 = some u ∧ t.reference = none ∧ u.reference = none ∧ t.handle = some 100 ∧ u.handle = some 100) ∧
    Safe st (.drop 3) ∧ ∃ st', run .debug 0 st (.drop 3) = ok st' ∧ Safe st' (.drop 0) ∧ run .debug 0 st' (.drop 0) = panic := by
  have hloc : ∀ fc, fc ∈ doubleOwner → fc.2.Local := by
    intro fc h
    simp only [doubleOwner, List.mem_cons, List.not_mem_nil, or_false] at h
    rcases h with rfl | rfl | rfl | rfl | rfl | rfl | rfl | rfl | rfl | rfl <;> first | exact trivial | exact resetK_local _
  obtain ⟨r, hb, hd⟩ := legal_init (n := 4) (p := .debug) (disc := false) (A := Accepted) (prog := doubleOwner) (fun st c a _ b => ⟨a, b⟩) (by decide) hloc rfl
  have r1 := run_bnd (p := .debug) (fresh := 0) (c := .drop 3) hb hd (by decide) rfl
  exact ⟨_, rfl, r, by decide, ⟨_, _, rfl, rfl, rfl, rfl, rfl, rfl⟩, safeB_sound hb (by decide), _, rfl, safeB_sound r1.1 (by decide), rfl⟩

section
variable {α : Type} [Flt α]

theorem newHandle_reg {st : St α} {d size fresh : Nat} {r : St α × Nat} (e : Life.newHandle st d size fresh = ok r) {d' k : Nat} (h : (st.pool d').reg k ≠ none) :
    (r.1.pool d').reg k ≠ none := by
  unfold Life.newHandle at e
  split at e
  · cases e
  · next s hc =>
    dsimp only at e
    split at e
    · cases e
    · next P' a hn =>
      cases e
      by_cases hd : d' = d
      · subst hd
        simp only [set_same]
        unfold Pool.newHandle at hn
        rw [hc] at hn
        dsimp only at hn
        cases hr : ((st.pool d').take s fresh).1.register ((st.pool d').take s fresh).2 s with
        | none => rw [hr] at hn; cases hn
        | some Q =>
          rw [hr] at hn
          cases hn
          unfold Pool.register at hr
          split at hr
          · cases hr
          · cases hr
            simp only [Pool.set_apply]
            split
            · simp
            · have : ((st.pool d').take s fresh).1.reg = (st.pool d').reg := by unfold Pool.take; split <;> rfl
              rw [this]; exact h
      · simp only [set_ne hd]; exact h

/-- C16, the part that holds for every state and every call: a buffer goes back to the pool only by dropping a tensor that has this handle
and no reference mark; dropping views, `replace`, `refer` and kernels return nothing. -/
theorem C16_returned_only_by_owner {p : Profile} {st st' : St α} {fresh : Nat} {c : Cmd α}
    (e : run p fresh st c = ok st') {d k : Nat} (h1 : (st.pool d).reg k ≠ none) (h2 : (st'.pool d).reg k = none) :
    ∃ v t, c = .drop v ∧ st.vars v = some t ∧ t.reference = none ∧ t.device = some d ∧ t.handle = some k := by
  cases c <;> simp only [run, Res.bind_eq_ok, Res.ok.injEq] at e
  case new => subst e; exact (h1 h2).elim
  case newHost => subst e; exact (h1 h2).elim
  case alloc =>
    obtain ⟨t, ht, _, _, _, _, _, hdev, _, _, r, hr, rfl⟩ := e
    exact (newHandle_reg hr h1 h2).elim
  case moveTo =>
    obtain ⟨t, ht, _, _, _, _, r, hr, _, _, x, _, rfl⟩ := e
    have : ∀ (s : St α) (t : HT α) (x : Tensor α), (store s t x).pool = s.pool := by intro s t x; unfold store; split <;> rfl
    simp only [St.put, this] at h2
    exact (newHandle_reg hr h1 h2).elim
  case view => obtain ⟨t, ht, _, hdev, _, _, rfl⟩ := e; exact (h1 h2).elim
  case refer => obtain ⟨t, ht, u, hu, _, _, rfl⟩ := e; exact (h1 h2).elim
  case replace =>
    obtain ⟨t, ht, u, hu, _, _, st2, hdr, rfl⟩ := e
    simp only [dropTensor, Res.ok.injEq] at hdr
    subst hdr
    exact (h1 h2).elim
  case updateShape => obtain ⟨t, ht, _, _, _, _, _, _, rfl⟩ := e; exact (h1 h2).elim
  case kernel =>
    obtain ⟨ts, _, t, ht, x, _, rfl⟩ := e
    have : (store st t x).pool = st.pool := by unfold store; split <;> rfl
    rw [this] at h2
    exact (h1 h2).elim
  case drop v =>
    obtain ⟨t, ht, st2, hdr, rfl⟩ := e
    refine ⟨v, t, rfl, unwrap_eq ht, ?_⟩
    unfold dropTensor at hdr
    split at hdr
    · cases hdr; exact (h1 h2).elim
    · next a ha =>
      split at hdr
      · next hr =>
        split at hdr
        · cases hdr
        · next d' hd' =>
          split at hdr
          · cases hdr
          · next P' hP =>
            cases hdr
            simp only [St.put] at h2
            by_cases hdd : d = d'
            · subst hdd
              rw [set_same] at h2
              unfold Pool.dropHandle Pool.unregister at hP
              by_cases hpo : (st.pool d).poisoned = true
              · simp [hpo] at hP
              · simp only [hpo] at hP
                cases hreg : (st.pool d).reg a with
                | none => simp [hreg] at hP
                | some s =>
                  simp only [hreg, Bool.false_eq_true, if_false] at hP
                  cases hP
                  simp only [Pool.give, Pool.set_apply] at h2
                  split at h2
                  · next hk => subst hk; exact ⟨by simpa using hr, hd', ha⟩
                  · exact (h1 h2).elim
            · rw [set_ne hdd] at h2; exact (h1 h2).elim
      · cases hdr; exact (h1 h2).elim

end

/-! ### The theorems of C15 and C16 have instances -/

/-- `y = -x` as a kernel. -/
def negK : List (Tensor ℤ) → Tensor ℤ → Res (Tensor ℤ) := fun ts t => Dev.callFw .debug (.un .neg) ts [] [] t

theorem negK_local : Local negK := fun ts t => callFw_local .debug (.un .neg) ts [] [] t

/-- `x = constant([2], 7); v = Tensor::from(&x); y = -v; drop(v); drop(x); z = constant([2], 9)` (recycles the buffer of `x`)
`; w = new; w.replace(z); h = host tensor moved to the device`. -/
def tidy : List (Nat × Cmd ℤ) :=
  [(100, .new 0 0 s2), (100, .alloc 0), (0, .kernel (resetK 7) [] 0), (0, .view 1 0), (0, .new 2 0 s2), (101, .alloc 2), (0, .kernel negK [1] 2),
   (0, .drop 1), (0, .drop 0), (0, .new 3 0 s2), (102, .alloc 3), (0, .kernel (resetK 9) [] 3), (0, .new 4 0 s2), (0, .replace 4 3),
   (0, .newHost 5 s2 [1, 2]), (103, .moveTo 5 0)]

theorem tidy_local : ∀ fc, fc ∈ tidy → fc.2.Local := by
  intro fc h
  simp only [tidy, List.mem_cons, List.not_mem_nil, or_false] at h
  rcases h with rfl | rfl | rfl | rfl | rfl | rfl | rfl | rfl | rfl | rfl | rfl | rfl | rfl | rfl | rfl | rfl <;>
    first | exact trivial | exact resetK_local _ | exact negK_local

/-- The run is one of those that C15 speaks of: `y` (2) shows `-7`, and the tensor that was moved twice (4) shows 9 in the recycled
buffer 100. -/
example : ∃ st : St ℤ, Runs .debug Good (tidy.map Prod.snd).reverse st ∧ shows st 2 = some (ok [-7, -7]) ∧ shows st 4 = some (ok [9, 9]) ∧
    shows st 5 = some (ok [1, 2]) ∧ (∃ t, st.vars 4 = some t ∧ t.handle = some 100) ∧ Good st (.drop 4) ∧ Good st (.kernel negK [4] 2) := by
  obtain ⟨r, hb, hd⟩ := legal_init (n := 6) (p := .debug) (disc := true) (A := Good) (prog := tidy) (fun st c a b c' => ⟨a, b rfl, c'⟩) (by decide) tidy_local rfl
  exact ⟨_, r, by decide, by decide, by decide, ⟨_, rfl, rfl⟩, ⟨safeB_sound hb (by decide), trivial, trivial⟩,
    safeB_sound hb (by decide), discB_sound (by decide), negK_local⟩

/-- And after dropping what is left, the premise of `C15_all_returned` holds. -/
example : ∃ st : St ℤ, Runs .debug Good (.drop 5 :: .drop 4 :: .drop 2 :: (tidy.map Prod.snd).reverse) st ∧ ∀ v, st.vars v = none := by
  obtain ⟨r, hb, hd⟩ := legal_init (n := 6) (p := .debug) (disc := true) (A := Good) (prog := tidy ++ [(0, .drop 2), (0, .drop 4), (0, .drop 5)])
    (fun st c a b c' => ⟨a, b rfl, c'⟩) (by decide)
    (fun fc h => by
      rcases List.mem_append.mp h with h | h
      · exact tidy_local fc h
      · simp only [List.mem_cons, List.not_mem_nil, or_false] at h
        rcases h with rfl | rfl | rfl <;> exact trivial) rfl
  refine ⟨_, by simpa using r, fun v => ?_⟩
  by_cases hv : v < 6
  · interval_cases v <;> rfl
  · exact (hb v (by omega)).1

/-! ### C50: writing through a view -/

/-- `x = constant([2], 7); let mut v = Tensor::from(&x); v.reset(k)` -/
def writeView (k : ℤ) : List (Nat × Cmd ℤ) :=
  [(100, .new 0 0 s2), (100, .alloc 0), (0, .kernel (resetK 7) [] 0), (0, .view 1 0), (0, .kernel (resetK k) [] 1)]

/-- C50, negation: the compiler accepts a program that changes `x` (0) through the view `v` (1) while `x` is borrowed as shared: `x` was set
to 7 and no later call names `x` as what it changes, but `x` shows `k`. -/
theorem C50_view_is_writable (k : ℤ) : ∃ st : St ℤ, runAll .debug St.init (writeView k) = ok st ∧ Runs .debug Accepted ((writeView k).map Prod.snd).reverse st ∧
    shows st 0 = some (ok [k, k]) := by
  have hloc : ∀ fc, fc ∈ writeView k → fc.2.Local := by
    intro fc h
    simp only [writeView, List.mem_cons, List.not_mem_nil, or_false] at h
    rcases h with rfl | rfl | rfl | rfl | rfl <;> first | exact trivial | exact resetK_local _
  obtain ⟨r, -, -⟩ := legal_init (n := 2) (p := .debug) (disc := false) (A := Accepted) (prog := writeView k) (fun st c a _ b => ⟨a, b⟩) rfl hloc rfl
  exact ⟨_, rfl, r, rfl⟩

section
variable {α : Type} [Flt α]

/-- C50, the general form: in any state, what a kernel writes to a view with a buffer becomes the contents of every tensor with the same
handle, in particular of the tensor that the view refers to. -/
theorem C50_view_write_reaches_owner {p : Profile} {fresh : Nat} {st st' : St α} {k : List (Tensor α) → Tensor α → Res (Tensor α)} (hk : Local k) {xs : List Nat} {v w : Nat}
    {t u : HT α} {d h : Nat} (hv : st.vars v = some t) (hw : st.vars w = some u) (hd : t.device = some d) (hh : t.handle = some h)
    (hd' : u.device = some d) (hh' : u.handle = some h) (e : run p fresh st (.kernel k xs v) = ok st') :
    ∃ ts x, k ts (st.load t) = ok x ∧ (st'.read w).map Tensor.buf = some x.buf := by
  simp only [run, Res.bind_eq_ok, Res.ok.injEq, hv] at e
  obtain ⟨ts, _, t', ht', x, hx, rfl⟩ := e
  obtain rfl : t = t' := Option.some.inj (unwrap_eq ht')
  refine ⟨_, x, hx, ?_⟩
  have hb := (hk _ _ _ hx).2.2.2
  simp only [St.load, hd, hh, Option.map_some] at hb
  obtain ⟨b, hxb, _⟩ := Option.map_eq_some_iff.mp hb
  simp only [St.read, hw, Option.map_some, St.load, hd', hh', hxb, store, hd, hh, set_same]

end

/-! ### C51: buffers that never come back -/

/-- `x = new([2]); let mut v = Tensor::from(&x); v.alloc(); drop(v); drop(x)` -/
def leakAlloc : List (Nat × Cmd ℤ) := [(0, .new 0 0 s2), (0, .view 1 0), (100, .alloc 1), (0, .drop 1), (0, .drop 0)]

/-- `x = new([2]); let mut v = Tensor::from(&x); y = constant([2], 7); v.replace(y); drop(v); drop(x)` -/
def leakReplace : List (Nat × Cmd ℤ) :=
  [(0, .new 0 0 s2), (0, .view 1 0), (0, .new 2 0 s2), (100, .alloc 2), (0, .kernel (resetK 7) [] 2), (0, .replace 1 2), (0, .drop 1), (0, .drop 0)]

/-- C51, negation: the compiler accepts programs after which no tensor is left but a buffer is never given back, neither to the pool nor
to the back end when the device is destroyed: a view of a tensor without buffer gets one of its own, by `alloc` or by `replace`. -/
theorem C51_view_leaks : ∀ prog, prog = leakAlloc ∨ prog = leakReplace →
    ∃ st : St ℤ, runAll .debug St.init prog = ok st ∧ Runs .debug Accepted (prog.map Prod.snd).reverse st ∧
      (∀ v, st.vars v = none) ∧ (st.pool 0).blocks.map Prod.fst = [100] ∧ (st.pool 0).reg 100 ≠ none ∧ (st.pool 0).teardown = [] := by
  rintro prog (rfl | rfl)
  · have hloc : ∀ fc, fc ∈ leakAlloc → fc.2.Local := by
      intro fc h
      simp only [leakAlloc, List.mem_cons, List.not_mem_nil, or_false] at h
      rcases h with rfl | rfl | rfl | rfl | rfl <;> exact trivial
    obtain ⟨r, hb, -⟩ := legal_init (n := 3) (p := .debug) (disc := false) (A := Accepted) (prog := leakAlloc) (fun st c a _ b => ⟨a, b⟩) (by decide) hloc rfl
    refine ⟨_, rfl, r, fun v => ?_, rfl, by decide, by decide⟩
    by_cases hv : v < 3
    · interval_cases v <;> rfl
    · exact (hb v (by omega)).1
  · have hloc : ∀ fc, fc ∈ leakReplace → fc.2.Local := by
      intro fc h
      simp only [leakReplace, List.mem_cons, List.not_mem_nil, or_false] at h
      rcases h with rfl | rfl | rfl | rfl | rfl | rfl | rfl | rfl <;> first | exact trivial | exact resetK_local _
    obtain ⟨r, hb, -⟩ := legal_init (n := 3) (p := .debug) (disc := false) (A := Accepted) (prog := leakReplace) (fun st c a _ b => ⟨a, b⟩) (by decide) hloc rfl
    refine ⟨_, rfl, r, fun v => ?_, rfl, by decide, by decide⟩
    by_cases hv : v < 3
    · interval_cases v <;> rfl
    · exact (hb v (by omega)).1

end Life
end Verif
