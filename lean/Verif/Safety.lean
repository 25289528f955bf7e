import Verif.DevBw

/-!
# Memory safety of the forward device functions: lemmas for C18
-/

set_option linter.unusedSectionVars false

namespace Verif
open Res
variable {α : Type} {d : Nat}

/-- A tensor as the safe API produces it: a proper shape; an allocated tensor has no host values; its buffer (if it has one) is at least
as large as the shape says, and at most the largest block of the pool. -/
structure Tensor.Fine (t : Tensor α) : Prop where
  wf : t.shape.WF
  host : t.buf ≠ none → t.host = none
  buf : ∀ l, t.buf = some l → t.shape.size ≤ 2 ^ 31 ∧ t.shape.size ≤ l.length

theorem Tensor.Fine.holds [Zero α] {t : Tensor α} (h : t.Fine) {l : List α} (hd : t.device = some d) (hl : t.buf = some l) :
    ∃ f, t.Holds d t.shape f := by
  obtain ⟨h1, h2⟩ := h.buf l hl
  refine ⟨fun c b => (l[t.shape.offset c b]?).getD 0, hd, h.host (by rw [hl]; simp), rfl, h.wf, h1, l, hl, h2, ?_⟩
  intro c b hv
  have := h.wf.offset_lt hv
  rw [List.getElem?_eq_getElem (by omega)]; simp

theorem Tensor.Holds.fine {t : Tensor α} {s : Shape} {f : Arr α} (h : t.Holds d s f) : t.Fine := by
  obtain ⟨l, h1, h2, _⟩ := h.buf
  refine ⟨h.shape ▸ h.wf, fun _ => h.host, fun l' hl' => ?_⟩
  rw [h1] at hl'; cases hl'
  rw [h.shape]; exact ⟨h.small, h2⟩

theorem Tensor.Room.fine {t : Tensor α} {s : Shape} (h : t.Room d s) : t.Fine := by
  obtain ⟨l, h1, h2⟩ := h.buf
  refine ⟨h.shape ▸ h.wf, fun _ => h.host, fun l' hl' => ?_⟩
  rw [h1] at hl'; cases hl'
  rw [h.shape]; exact ⟨h.small, h2⟩

/-- Loop rule for safety. -/
theorem loop_safe_inv {n : Nat} {f : Nat → σ → Res σ} {s : σ} (P : Nat → σ → Prop) (h0 : P 0 s)
    (hstep : ∀ i t, i < n → P i t → (f i t).Safe ∧ ∀ t', f i t = ok t' → P (i + 1) t') :
    (loop n f s).Safe ∧ ∀ t, loop n f s = ok t → P n t := by
  induction n with
  | zero => exact ⟨by simp, fun t ht => by cases ht; exact h0⟩
  | succ n ih =>
    obtain ⟨h1, h2⟩ := ih (fun i t hi => hstep i t (by omega))
    refine ⟨Res.Safe.bind h1 fun a ha => (hstep n a (by omega) (h2 a ha)).1, fun t ht => ?_⟩
    rw [loop_succ, Res.bind_eq_ok] at ht
    obtain ⟨a, ha, hb⟩ := ht
    exact (hstep n a (by omega) (h2 a ha)).2 t hb

theorem unwrap_safe (x : Option β) : (unwrap x).Safe := by unfold unwrap; split <;> simp
theorem Tensor.ptr_safe (t : Tensor α) : t.ptr.Safe := unwrap_safe _
theorem Tensor.dev_safe (t : Tensor α) : t.dev.Safe := unwrap_safe _
theorem Tensor.onDev_safe (t : Tensor α) (d : Nat) : (t.onDev d).Safe :=
  Res.Safe.bind (t.dev_safe) fun _ _ => check_safe _
theorem Shape.lowerVolumeU_safe (p : Profile) (s : Shape) (dim : Nat) : (s.lowerVolumeU p dim).Safe :=
  loop_ne_ub fun _ _ _ => Shape.u32_safe _ _
theorem Shape.sizeU_safe (p : Profile) (s : Shape) : (s.sizeU p).Safe := Shape.u32_safe _ _

theorem Tensor.onDev_eq_ok {t : Tensor α} {d : Nat} {u : Unit} : t.onDev d = ok u ↔ t.device = some d := by
  unfold Tensor.onDev Tensor.dev unwrap
  cases h : t.device <;> simp [check_eq_ok]

theorem Tensor.onDev_panic {t : Tensor α} {d : Nat} (h : t.device ≠ some d) : t.onDev d = panic := by
  unfold Tensor.onDev Tensor.dev unwrap
  cases h' : t.device with
  | none => rfl
  | some e => simp only [ok_bind]; exact check_false _ (fun e' => h (by rw [h', e']))

variable [Flt α]

theorem Dev.onAll_safe (d : Nat) (xs : List (Tensor α)) : (Dev.onAll d xs).Safe :=
  loop_ne_ub fun _ _ _ => Res.Safe.bind (ix_safe _ _) fun _ _ => Tensor.onDev_safe _ _

theorem Dev.onAll_eq_ok {d : Nat} {xs : List (Tensor α)} {u : Unit} :
    Dev.onAll d xs = ok u ↔ ∀ x, x ∈ xs → x.device = some d := by
  refine ⟨fun h => ?_, fun h => onAll_ok h⟩
  have key := (loop_safe_inv (n := xs.length) (f := fun i (_ : Unit) => do
      let x ← ix xs i
      x.onDev d) (s := ()) (fun n _ => ∀ i, i < n → ∀ x, xs[i]? = some x → x.device = some d) (by intro i hi; omega)
    (fun i t hi ht => ⟨Res.Safe.bind (ix_safe _ _) fun _ _ => Tensor.onDev_safe _ _, fun t' ht' j hj x hx => by
      rw [ix_eq hi, ok_bind, Tensor.onDev_eq_ok] at ht'
      by_cases hji : j = i
      · subst hji; rw [List.getElem?_eq_getElem hi] at hx; cases hx; exact ht'
      · exact ht j (by omega) x hx⟩)).2 u h
  intro x hx
  obtain ⟨i, hi, rfl⟩ := List.getElem_of_mem hx
  exact key i hi _ (List.getElem?_eq_getElem hi)

theorem Dev.onAll_panic {d : Nat} {xs : List (Tensor α)} {x : Tensor α} (hx : x ∈ xs) (h : x.device ≠ some d) :
    Dev.onAll d xs = panic := by
  cases h' : Dev.onAll d xs with
  | ok u => exact absurd (Dev.onAll_eq_ok.mp h' x hx) h
  | panic => rfl
  | ub => exact absurd h' (Dev.onAll_safe d xs)

/-- Repeatedly take a chain of binds apart. -/
macro "safe_chain" : tactic => `(tactic|
  repeat' first
    | exact safe_panic
    | exact safe_ok _
    | exact ix_safe _ _
    | exact check_safe _
    | exact Shape.sizeU_safe _ _
    | exact Shape.lowerVolumeU_safe _ _ _
    | exact Tensor.ptr_safe _
    | exact Tensor.dev_safe _
    | refine Res.Safe.bind ?_ (fun _ _ => ?_))

theorem ptr_none {t : Tensor α} (h : t.buf = none) : t.ptr = panic := by simp [Tensor.ptr, unwrap, h]
theorem ptr_some {t : Tensor α} {l : List α} (h : t.buf = some l) : t.ptr = ok l := by simp [Tensor.ptr, unwrap, h]

/-- The triangular kernels are safe for every offset `k`, also when `j + k` overflows. -/
theorem K.triangular_safe {lower : Bool} {p : Profile} {x y : Tensor α} {s : Shape} {f : Arr α} {u : List Nat} {v : List α}
    (hx : x.Holds d s f) (hy : y.Room d s) (hsq : s.size = s.batch * (s.get 0 * s.get 0)) :
    (K.triangularFw lower p [x] u v y).Safe ∧ ∀ y', K.triangularFw lower p [x] u v y = ok y' → y'.Fine := by
  obtain ⟨lx, hlx, hsx, _⟩ := hx.buf
  obtain ⟨ly, hly, hsy⟩ := hy.buf
  unfold K.triangularFw
  simp only [ix_eq (show 0 < [x].length by simp), List.getElem_cons_zero, ok_bind, ptr_some hlx, ptr_some hly, hx.shape, hy.shape]
  generalize hm : s.get 0 = m at *
  cases hu : ix u 0 with
  | panic => exact ⟨safe_panic, fun _ h => by cases h⟩
  | ub => exact absurd hu (ix_safe _ _)
  | ok k =>
  simp only [ok_bind]
  have key := loop_safe_inv (n := s.batch) (s := (0, ly))
    (f := fun _ (st : Nat × List α) => loop m (fun j st => loop m (fun i st => do
      let keep ← (if lower then do let t ← uadd p j k; ok (decide (t ≤ i))
                  else do let t ← uadd p i k; ok (decide (t ≤ j)))
      let v ← (if keep = true then rd lx st.1 else ok 0)
      let py ← wr st.2 st.1 v
      ok (st.1 + 1, py)) st) st)
    (fun n st => st.1 = n * (m * m) ∧ st.2.length = ly.length) ⟨by simp, rfl⟩
    (fun n st hn hst => by
      have h2 := loop_safe_inv (n := m) (s := st)
        (f := fun j st => loop m (fun i st => do
          let keep ← (if lower then do let t ← uadd p j k; ok (decide (t ≤ i))
                  else do let t ← uadd p i k; ok (decide (t ≤ j)))
          let v ← (if keep = true then rd lx st.1 else ok 0)
          let py ← wr st.2 st.1 v
          ok (st.1 + 1, py)) st)
        (fun j st => st.1 = n * (m * m) + j * m ∧ st.2.length = ly.length) ⟨by simpa using hst.1, hst.2⟩
        (fun j st hj hst => by
          have h3 := loop_safe_inv (n := m) (s := st)
            (f := fun i (st : Nat × List α) => do
              let keep ← (if lower then do let t ← uadd p j k; ok (decide (t ≤ i))
                  else do let t ← uadd p i k; ok (decide (t ≤ j)))
              let v ← (if keep = true then rd lx st.1 else ok 0)
              let py ← wr st.2 st.1 v
              ok (st.1 + 1, py))
            (fun i st => st.1 = n * (m * m) + j * m + i ∧ st.2.length = ly.length) ⟨by simpa using hst.1, hst.2⟩
            (fun i st hi hst => by
              obtain ⟨e1, e2⟩ := hst
              have hlt : st.1 < s.size := by
                rw [e1, hsq, Nat.add_assoc]; exact nm_lt hn (nm_lt hj hi)
              have hk : ∀ (r : Res Bool), r.Safe → (r >>= fun keep => (if keep = true then rd lx st.1 else ok 0) >>= fun v =>
                  wr st.2 st.1 v >>= fun py => ok (st.1 + 1, py)).Safe ∧ ∀ t', (r >>= fun keep =>
                    (if keep = true then rd lx st.1 else ok 0) >>= fun v =>
                  wr st.2 st.1 v >>= fun py => ok (st.1 + 1, py)) = ok t' → t'.1 = n * (m * m) + j * m + (i + 1) ∧
                    t'.2.length = ly.length := by
                intro r hr
                cases r with
                | ub => exact absurd rfl hr
                | panic => exact ⟨safe_panic, fun _ h => by cases h⟩
                | ok keep =>
                  have : ∃ v : α, (if keep = true then rd lx st.1 else ok 0) = ok v := by
                    cases keep
                    · exact ⟨0, rfl⟩
                    · exact ⟨_, rd_eq (by omega)⟩
                  obtain ⟨v, hv⟩ := this
                  simp only [ok_bind, hv, wr_eq (show st.1 < st.2.length by omega)]
                  refine ⟨safe_ok _, fun t' ht' => ?_⟩
                  cases ht'
                  exact ⟨by simp only; omega, by simpa using e2⟩
              refine hk _ ?_
              cases lower
              · exact Res.Safe.bind (Shape.u32_safe _ _) fun _ _ => safe_ok _
              · exact Res.Safe.bind (Shape.u32_safe _ _) fun _ _ => safe_ok _)
          refine ⟨h3.1, fun t' ht' => ?_⟩
          obtain ⟨a, b⟩ := h3.2 t' ht'
          exact ⟨by rw [a, Nat.succ_mul]; omega, b⟩)
      refine ⟨h2.1, fun t' ht' => ?_⟩
      obtain ⟨a, b⟩ := h2.2 t' ht'
      exact ⟨by rw [a, Nat.succ_mul], b⟩)
  refine ⟨Res.Safe.bind key.1 fun _ _ => safe_ok _, fun y' hy' => ?_⟩
  rw [Res.bind_eq_ok] at hy'
  obtain ⟨a, ha, hb⟩ := hy'
  cases hb
  refine ⟨hy.shape ▸ hy.wf, fun _ => hy.host, fun l' hl' => ?_⟩
  cases hl'
  have := (key.2 a ha).2
  simp only [hy.shape]
  exact ⟨hy.small, by omega⟩


/-- The first result panics or equals the second. -/
def PanicOr (r r' : Res σ) : Prop := r = panic ∨ r = r'

theorem PanicOr.refl (r : Res σ) : PanicOr r r := .inr rfl

theorem PanicOr.bind {r r' : Res σ} {f g : σ → Res τ} (h : PanicOr r r') (hf : ∀ a, PanicOr (f a) (g a)) :
    PanicOr (r >>= f) (r' >>= g) := by
  rcases h with rfl | rfl
  · exact .inl rfl
  · cases r with
    | ok a => exact hf a
    | panic => exact .inl rfl
    | ub => exact .inr rfl

theorem PanicOr.loop {n : Nat} {f g : Nat → σ → Res σ} {s : σ} (h : ∀ i t, PanicOr (f i t) (g i t)) :
    PanicOr (loop n f s) (Verif.loop n g s) := by
  induction n with
  | zero => exact .inr rfl
  | succ n ih => exact PanicOr.bind ih (fun a => h n a)

theorem PanicOr.safe {r r' : Res σ} (h : PanicOr r r') (h' : r'.Safe) : r.Safe := by
  rcases h with rfl | rfl
  · exact safe_panic
  · exact h'

theorem PanicOr.eq_ok {r r' : Res σ} (h : PanicOr r r') {a : σ} (ha : r = ok a) : r' = ok a := by
  rcases h with rfl | rfl
  · cases ha
  · exact ha

/-- A null buffer replaced by some buffer. -/
def Tensor.fill (t : Tensor α) : Tensor α :=
  { t with buf := some (t.buf.getD (List.replicate t.shape.size 0)), host := if t.buf.isSome then t.host else none }

theorem Tensor.fill_of_some {t : Tensor α} {l : List α} (h : t.buf = some l) : t.fill = t := by
  cases t; simp_all [Tensor.fill]

theorem Tensor.fill_ptr (t : Tensor α) : PanicOr t.ptr t.fill.ptr := by
  cases h : t.buf with
  | none => exact .inl (ptr_none h)
  | some l => rw [Tensor.fill_of_some h]; exact .inr rfl

theorem Tensor.Fine.fill {t : Tensor α} (h : t.Fine) (hsz : t.shape.size ≤ 2 ^ 31) : t.fill.Fine := by
  refine ⟨h.wf, fun _ => ?_, fun l hl => ?_⟩
  · cases h' : t.buf with
    | none => simp [Tensor.fill, h']
    | some l => rw [Tensor.fill_of_some h']; exact h.host (by rw [h']; simp)
  cases h' : t.buf with
  | none => simp [Tensor.fill, h'] at hl; subst hl; exact ⟨hsz, by simp [Tensor.fill]⟩
  | some l' => rw [Tensor.fill_of_some h'] at hl ⊢; exact h.buf l hl

theorem ix_fill (xs : List (Tensor α)) (n : Nat) : ix (xs.map Tensor.fill) n = (ix xs n >>= fun x => ok x.fill) := by
  unfold ix
  rw [List.getElem?_map]
  cases xs[n]? <;> rfl

theorem K.concat_fill (p : Profile) (xs : List (Tensor α)) (u : List Nat) (v : List α) (y : Tensor α) :
    PanicOr (K.concatFw p xs u v y) (K.concatFw p (xs.map Tensor.fill) u v y) := by
  unfold K.concatFw
  simp only [List.length_map, ix_fill, Res.bind_assoc, ok_bind]
  refine PanicOr.bind (.refl _) fun dim => PanicOr.bind (.refl _) fun base => PanicOr.bind (.refl _) fun _ => PanicOr.bind ?_ fun _ => .refl _
  refine PanicOr.loop fun n st => PanicOr.bind (.refl _) fun x => ?_
  exact PanicOr.bind (Tensor.fill_ptr x) fun px => .refl _

theorem K.batchConcat_fill (p : Profile) (xs : List (Tensor α)) (u : List Nat) (v : List α) (y : Tensor α) :
    PanicOr (K.batchConcatFw p xs u v y) (K.batchConcatFw p (xs.map Tensor.fill) u v y) := by
  unfold K.batchConcatFw
  simp only [List.length_map, ix_fill, Res.bind_assoc, ok_bind]
  refine PanicOr.bind (.refl _) fun py => PanicOr.bind ?_ fun _ => .refl _
  refine PanicOr.loop fun n st => PanicOr.bind (.refl _) fun x => ?_
  exact PanicOr.bind (Tensor.fill_ptr x) fun px => .refl _

theorem HoldAll.of_fine {xs : List (Tensor α)} (h : ∀ x, x ∈ xs → x.Fine ∧ x.device = some d ∧ x.buf ≠ none) :
    ∃ ins, HoldAll d xs ins ∧ ins.map Prod.fst = xs.map Tensor.shape := by
  induction xs with
  | nil => exact ⟨[], .nil, rfl⟩
  | cons x xs ih =>
    obtain ⟨ins, h1, h2⟩ := ih (fun z hz => h z (List.mem_cons_of_mem _ hz))
    obtain ⟨hf, hd, hb⟩ := h x (List.mem_cons_self ..)
    cases hl : x.buf with
    | none => exact absurd hl hb
    | some l =>
      obtain ⟨f, hh⟩ := hf.holds hd hl
      exact ⟨(x.shape, f) :: ins, .cons hh h1, by simp [h2]⟩

/-- Safe, and if it returns then a fine tensor on device `d` with shape `s`. -/
def Good (d : Nat) (s : Shape) (r : Res (Tensor α)) : Prop :=
  r.Safe ∧ ∀ y, r = ok y → y.Fine ∧ y.device = some d ∧ y.shape = s ∧ y.buf ≠ none

theorem Good.of_ok {s : Shape} {r : Res (Tensor α)} {F : Arr α} (h : ∃ y, r = ok y ∧ y.Holds d s F) : Good d s r := by
  obtain ⟨y, e, hy⟩ := h
  refine ⟨by rw [e]; exact safe_ok _, fun y' hy' => ?_⟩
  rw [e] at hy'; cases hy'
  obtain ⟨l, hl, _⟩ := hy.buf
  exact ⟨hy.fine, hy.device, hy.shape, by rw [hl]; simp⟩

theorem Good.panic {s : Shape} : Good d s (panic : Res (Tensor α)) := ⟨safe_panic, fun _ h => by cases h⟩

theorem Good.panicOr {s : Shape} {r r' : Res (Tensor α)} (h : PanicOr r r') (h' : Good d s r') : Good d s r :=
  ⟨h.safe h'.1, fun y hy => h'.2 y (h.eq_ok hy)⟩

theorem Good.bind_of {s : Shape} {r : Res σ} {f : σ → Res (Tensor α)} (h : r.Safe) (hf : ∀ a, r = ok a → Good d s (f a)) :
    Good d s (r >>= f) := by
  cases r with
  | ok a => exact hf a rfl
  | panic => exact Good.panic
  | ub => exact absurd rfl h

/-- Kernels with a null operand panic (all but the two concatenations). -/
theorem FwOp.null_good {op : FwOp α} {p : Profile} {s : Shape} {xs : List (Tensor α)} {y : Tensor α} {sh : Shape}
    (hs : op.shape .debug (xs.map Tensor.shape) = ok s) (hy : y.buf ≠ none)
    (hn : ∃ x, x ∈ xs ∧ x.buf = none) (hc : op.arity ≠ none) :
    Good d sh (Dev.callFw p op.name xs op.u32data op.f32data y) := by
  have hlen := FwOp.shape_len hs
  rw [List.length_map] at hlen
  have hyp := Tensor.ptr_safe y
  obtain ⟨ly, hly⟩ := Option.ne_none_iff_exists'.mp hy
  have h2 : ∀ {k : Tensor α → Tensor α → Res (Tensor α)}, True := fun {_} => trivial
  unfold Dev.callFw Naive.fwImpl
  cases op
  case concat => exact absurd rfl hc
  case batchConcat => exact absurd rfl hc
  case bi o =>
    obtain ⟨a, b, rfl⟩ := List.length_eq_two.mp (hlen 2 rfl)
    obtain ⟨x, hx, hb⟩ := hn
    simp only [FwOp.name, K.fwAb, ix, List.getElem?_cons_zero, List.getElem?_cons_succ, ok_bind]
    simp only [List.mem_cons, List.not_mem_nil, or_false] at hx
    rcases hx with rfl | rfl
    · rw [ptr_none hb]; exact Good.panic
    · refine Good.bind_of (Tensor.ptr_safe _) fun _ _ => ?_
      rw [ptr_none hb]; exact Good.panic
  case sc o =>
    obtain ⟨a, b, rfl⟩ := List.length_eq_two.mp (hlen 2 rfl)
    obtain ⟨x, hx, hb⟩ := hn
    simp only [FwOp.name, K.fwScalar, ix, List.getElem?_cons_zero, List.getElem?_cons_succ, ok_bind]
    simp only [List.mem_cons, List.not_mem_nil, or_false] at hx
    rcases hx with rfl | rfl
    · rw [ptr_none hb]; exact Good.panic
    · refine Good.bind_of (Tensor.ptr_safe _) fun _ _ => ?_
      rw [ptr_none hb]; exact Good.panic
  case matmul =>
    obtain ⟨a, b, rfl⟩ := List.length_eq_two.mp (hlen 2 rfl)
    obtain ⟨x, hx, hb⟩ := hn
    simp only [FwOp.name, K.matmulFw, ix, List.getElem?_cons_zero, List.getElem?_cons_succ, ok_bind]
    simp only [List.mem_cons, List.not_mem_nil, or_false] at hx
    rcases hx with rfl | rfl
    · rw [ptr_none hb]; exact Good.panic
    · refine Good.bind_of (Tensor.ptr_safe _) fun _ _ => ?_
      rw [ptr_none hb]; exact Good.panic
  all_goals
    obtain ⟨z, rfl⟩ := List.length_eq_one_iff.mp (hlen 1 rfl)
    obtain ⟨x, hx, hb⟩ := hn
    simp only [List.mem_cons, List.not_mem_nil, or_false] at hx
    subst hx
    simp only [FwOp.name, FwOp.u32data, FwOp.f32data, K.fwX, K.fwConst, K.powiFw, K.sumFw, K.maxFw, K.minFw, K.logsumexpFw, K.reduce,
      K.broadcastFw, K.transposeFw, K.triangularFw, K.sliceFw, K.pickFw, K.batchSumFw, K.batchSliceFw, K.batchPickFw,
      ix_eq (show 0 < [x].length by simp), List.getElem_cons_zero, ok_bind, ptr_none hb, panic_bind]
    repeat' first
      | exact Good.panic
      | exact ix_safe _ _
      | exact check_safe _
      | exact Shape.sizeU_safe _ _
      | exact Shape.lowerVolumeU_safe _ _ _
      | refine Good.bind_of ?_ (fun _ _ => ?_)

end Verif
