import Verif.Safety2

/-!
# Memory safety of the backward device functions: lemmas for C18
-/

set_option linter.unusedSectionVars false

namespace Verif
open Res
variable {α : Type} {d : Nat} [Flt α]

/-- Safe, and a returned gradient is a fine tensor on the same device with the same shape. -/
abbrev GoodG (d : Nat) (g : Tensor α) (r : Res (Tensor α)) : Prop :=
  r.Safe ∧ ∀ y, r = ok y → y.Fine ∧ y.device = some d ∧ y.shape = g.shape ∧ y.buf ≠ none

/-- `g op= x` for fine tensors of equal dims and compatible batches. -/
theorem K.opAssign_good (op : α → α → α) {p : Profile} {x g : Tensor α} {u : List Nat} {v : List α} (hx : x.Fine) (hg : g.Fine)
    (dx : x.device = some d) (dg : g.device = some d)
    (hd : ∀ i, x.shape.get i = g.shape.get i)
    (hb : x.shape.batch = 1 ∨ g.shape.batch = 1 ∨ x.shape.batch = g.shape.batch) :
    Good d g.shape (K.opAssign op p [x] u v g) := by
  cases hxb : x.buf with
  | none => simp only [K.opAssign, ix_cons_zero, ok_bind, ptr_none hxb]; exact Good.panic
  | some lx =>
    cases hgb : g.buf with
    | none =>
      simp only [K.opAssign, ix_cons_zero, ok_bind, ptr_none hgb, ptr_some hxb]; exact Good.panic
    | some lg =>
      obtain ⟨fx, h1⟩ := hx.holds dx hxb
      obtain ⟨fg, h2⟩ := hg.holds dg hgb
      exact Good.of_ok (K.opAssign_holds op h1 h2 hd hb)

/-- The loops of `+=`/`-=` stay inside both tensors also when the operand is smaller than one batch of the result. -/
theorem K.opAssign_good' (op : α → α → α) {p : Profile} {x g : Tensor α} {u : List Nat} {v : List α} (hx : x.Fine) (hg : g.Fine)
    (dg : g.device = some d) (hd : x.shape.volume ≤ g.shape.volume)
    (hb : x.shape.batch = 1 ∨ g.shape.batch = 1 ∨ x.shape.batch = g.shape.batch) :
    Good d g.shape (K.opAssign op p [x] u v g) := by
  cases hxb : x.buf with
  | none => simp only [K.opAssign, ix_cons_zero, ok_bind, ptr_none hxb]; exact Good.panic
  | some lx =>
    cases hgb : g.buf with
    | none =>
      simp only [K.opAssign, ix_cons_zero, ok_bind, ptr_none hgb, ptr_some hxb]; exact Good.panic
    | some lg =>
      simp only [K.opAssign, ix_cons_zero, ok_bind, ptr_some hgb, ptr_some hxb]
      have sx := (hx.buf _ hxb).2
      have sg := (hg.buf _ hgb).2
      unfold Shape.size at sx sg
      have px := hx.wf.batch_pos
      have pg := hg.wf.batch_pos
      have ex : ∀ k, k < Max.max x.shape.batch g.shape.batch → ∀ i, i < x.shape.volume →
          k * (if x.shape.hasBatch then x.shape.volume else 0) + i < lx.length := by
        intro k hk i hi
        have : k * (if x.shape.hasBatch then x.shape.volume else 0) + x.shape.volume ≤ x.shape.batch * x.shape.volume := by
          by_cases h : x.shape.hasBatch
          · rw [if_pos h]
            have hk' : k + 1 ≤ x.shape.batch := by
              simp only [Shape.hasBatch, bne_iff_ne, ne_eq] at h
              omega
            calc k * x.shape.volume + x.shape.volume = (k + 1) * x.shape.volume := by rw [Nat.add_mul, Nat.one_mul]
              _ ≤ _ := Nat.mul_le_mul_right _ hk'
          · rw [if_neg h, Nat.mul_zero, Nat.zero_add]
            exact Nat.le_mul_of_pos_left _ px
        omega
      have eg : ∀ k, k < Max.max x.shape.batch g.shape.batch → ∀ i, i < x.shape.volume →
          k * (if g.shape.hasBatch then x.shape.volume else 0) + i < lg.length := by
        intro k hk i hi
        have : k * (if g.shape.hasBatch then x.shape.volume else 0) + x.shape.volume ≤ g.shape.batch * g.shape.volume := by
          by_cases h : g.shape.hasBatch
          · rw [if_pos h]
            have hk' : k + 1 ≤ g.shape.batch := by
              simp only [Shape.hasBatch, bne_iff_ne, ne_eq] at h
              omega
            calc k * x.shape.volume + x.shape.volume = (k + 1) * x.shape.volume := by rw [Nat.add_mul, Nat.one_mul]
              _ ≤ _ := Nat.mul_le_mul hk' hd
          · rw [if_neg h, Nat.mul_zero, Nat.zero_add]
            exact hd.trans (Nat.le_mul_of_pos_left _ pg)
        omega
      have key := loop_safe_inv (n := Max.max x.shape.batch g.shape.batch) (s := (((0, 0), lg) : (Nat × Nat) × List α)) (f := fun _ (st : (Nat × Nat) × List α) => do
          let py ← loop x.shape.volume (fun i py => do
            let v ← rd lx (st.1.1 + i)
            upd py (st.1.2 + i) (fun w => op w v)) st.2
          ok ((st.1.1 + (if x.shape.hasBatch then x.shape.volume else 0), st.1.2 + (if g.shape.hasBatch then x.shape.volume else 0)), py))
        (fun k st => st.1.1 = k * (if x.shape.hasBatch then x.shape.volume else 0) ∧ st.1.2 = k * (if g.shape.hasBatch then x.shape.volume else 0) ∧
          st.2.length = lg.length) ⟨by simp, by simp, rfl⟩ (fun k st hk hst => by
            obtain ⟨h1, h2, h3⟩ := hst
            have inner := loop_safe_inv (n := x.shape.volume) (s := st.2) (f := fun i py => do
                let v ← rd lx (st.1.1 + i)
                upd py (st.1.2 + i) (fun w => op w v)) (fun _ t => t.length = lg.length) h3 (fun i t hi ht => by
                  have a1 := ex k hk i hi
                  have a2 := eg k hk i hi
                  rw [← h1] at a1
                  rw [← h2, ← ht] at a2
                  simp only [rd_eq a1, ok_bind, upd_eq a2]
                  exact ⟨safe_ok _, fun t' ht' => by cases ht'; simpa using ht⟩)
            refine ⟨Res.Safe.bind inner.1 fun _ _ => safe_ok _, fun t' ht' => ?_⟩
            obtain ⟨l, hl, he⟩ := Res.bind_eq_ok.mp ht'
            cases he
            refine ⟨?_, ?_, inner.2 l hl⟩
            · show st.1.1 + _ = _
              rw [h1, Nat.add_mul, Nat.one_mul]
            · show st.1.2 + _ = _
              rw [h2, Nat.add_mul, Nat.one_mul])
      refine Good.bind_of key.1 fun st hst => ⟨safe_ok _, fun y hy => ?_⟩
      cases hy
      refine ⟨⟨hg.wf, fun _ => hg.host (by first | assumption | simp_all), fun l hl => ?_⟩, dg, rfl, by simp⟩
      cases hl
      have := (key.2 st hst).2.2
      have sg' := hg.buf _ hgb
      exact ⟨sg'.1, by simp only; omega⟩

theorem Tensor.addAssign_good {p : Profile} {x g : Tensor α} (hx : x.Fine) (hg : g.Fine)
    (dg : g.device = some d)
    (hd : ∀ i, x.shape.get i = g.shape.get i)
    (hb : x.shape.batch = 1 ∨ g.shape.batch = 1 ∨ x.shape.batch = g.shape.batch) :
    Good d g.shape (g.addAssign p x) := by
  unfold Tensor.addAssign Dev.addAssign
  simp only [Tensor.dev, unwrap, dg, ok_bind]
  refine Good.bind_of (Tensor.onDev_safe _ _) fun _ h1 => Good.bind_of (Tensor.onDev_safe _ _) fun _ _ => ?_
  exact K.opAssign_good (p := p) (u := []) (v := []) _ hx hg (Tensor.onDev_eq_ok.mp h1) dg hd hb

theorem K.powiBw_good {p : Profile} {m : Mem α} {x gy g : Tensor α} {ys : List (Tensor α)} {u : List Nat} {v : List α}
    (hx : x.Fine) (hgy : gy.Fine) (hg : g.Fine) (dg : g.device = some d) (e1 : x.shape = g.shape) (e2 : gy.shape = g.shape) :
    Good d g.shape (K.powiBw p m [x] ys [gy] u v g) := by
  simp only [K.powiBw, ix_cons_zero, ok_bind]
  refine Good.bind_of (ix_safe _ _) fun n0 _ => Good.bind_of (Shape.sizeU_safe _ _) fun size hsz => ?_
  refine Good.bind_of (Tensor.ptr_safe _) fun lx hlx => Good.bind_of (Tensor.ptr_safe _) fun lgy hlgy =>
    Good.bind_of (Tensor.ptr_safe _) fun lg hlg => ?_
  have bx : x.buf = some lx := by
    cases h : x.buf with
    | none => rw [ptr_none h] at hlx; cases hlx
    | some l => rw [ptr_some h] at hlx; cases hlx; rfl
  have bgy : gy.buf = some lgy := by
    cases h : gy.buf with
    | none => rw [ptr_none h] at hlgy; cases hlgy
    | some l => rw [ptr_some h] at hlgy; cases hlgy; rfl
  have bg : g.buf = some lg := by
    cases h : g.buf with
    | none => rw [ptr_none h] at hlg; cases hlg
    | some l => rw [ptr_some h] at hlg; cases hlg; rfl
  have sx := hx.buf _ bx
  have sgy := hgy.buf _ bgy
  have sg := hg.buf _ bg
  rw [e1] at sx
  rw [e2] at sgy hsz
  have hsz' : size = g.shape.size := by
    rw [Shape.sizeU_eq sg.1] at hsz; cases hsz; rfl
  subst hsz'
  have key := loop_safe_inv (n := g.shape.size) (s := lg) (f := fun i pgx => do
      let g ← rd lgy i
      let a ← rd lx i
      let n1 ← K.decI32 p (K.powiFw.asI32 n0)
      upd pgx i (fun w => w + g * Flt.ofInt (K.powiFw.asI32 n0) * Flt.powi a n1))
    (fun _ t => t.length = lg.length) rfl (fun i t hi ht => by
      simp only [rd_eq (show i < lgy.length by omega), rd_eq (show i < lx.length by omega), ok_bind]
      cases hdec : K.decI32 p (K.powiFw.asI32 n0) with
      | ub => unfold K.decI32 at hdec; cases p <;> simp only at hdec <;> split at hdec <;> cases hdec
      | panic => exact ⟨safe_panic, fun _ h => by cases h⟩
      | ok n1 =>
        simp only [ok_bind, upd_eq (show i < t.length by omega)]
        exact ⟨safe_ok _, fun t' ht' => by cases ht'; simpa using ht⟩)
  refine Good.bind_of key.1 fun lg' hlg' => ⟨safe_ok _, fun y hy => ?_⟩
  cases hy
  refine ⟨⟨hg.wf, fun _ => hg.host (by first | assumption | simp_all), fun l hl => ?_⟩, dg, rfl, by simp⟩
  cases hl
  have := key.2 lg' hlg'
  exact ⟨sg.1, by simp only; omega⟩

/-- The backward functions other than `batch_pick_bw`. -/
def BwOp.Checked : BwOp α → Prop
  | .batchPick ids => ids.length = 1
  | _ => True

theorem get_one_of_matDims {s : Shape} {a b : Nat} (h : ∀ i, s.get i = matDims a b i) : ∀ i, 2 ≤ i → s.get i = 1 := fun i hi => by
  rw [h]; unfold matDims; rw [if_neg (by omega), if_neg (by omega)]

theorem K.matmulBwA_good {m : Mem α} {xa xb gy g : Tensor α} {ys : List (Tensor α)} {u : List Nat} {v : List α}
    (hb : xb.Fine) (hgy : gy.Fine) (hg : g.Fine) (dg : g.device = some d)
    (hs : ShapeOps.matmul .debug g.shape xb.shape = ok gy.shape) :
    Good d g.shape (K.matmulBwA .debug m [xa, xb] ys [gy] u v g) := by
  simp only [K.matmulBwA, ix_cons_zero, ix_cons_one, ok_bind]
  refine Good.bind_of (Tensor.dev_safe _) fun e1 _ => Good.bind_of (Tensor.dev_safe _) fun e2 _ => ?_
  have f1 := Dev.fw_good (op := (.transpose : FwOp α)) (xs := [xb]) (p := .debug) (by simpa using hb) (.inl rfl) e2 (m 0)
  refine Good.bind_of f1.1 fun bt hbt => ?_
  obtain ⟨st, hst, btF, _, bts, _⟩ := f1.2 bt hbt
  have f2 := Dev.fw_good (op := (.matmul : FwOp α)) (xs := [gy, bt]) (p := .debug) (by simpa using ⟨hgy, btF⟩) (.inl rfl) e1 (m 1)
  refine Good.bind_of f2.1 fun t ht => ?_
  obtain ⟨s2, hs2, tF, _, ts, _⟩ := f2.2 t ht
  obtain ⟨ma, mb, hab, hc, hlt, hw, hgd, hbt'⟩ := (Shape.matmul_iff hg.wf hb.wf).mp hs
  obtain ⟨hba, hbb⟩ := K.compat_bb hg.wf hb.wf hc hbt'
  obtain ⟨_, hstI⟩ := (Shape.transpose_iff hb.wf).mp hst
  obtain ⟨_, _, _, _, _, hs2I⟩ := (Shape.matmul_iff (hgy.wf) (btF.wf)).mp hs2
  rw [bts] at hs2I
  refine Tensor.addAssign_good tF hg dg (fun i => ?_) ?_
  · rw [ts, hs2I.2.1, hstI.2.1, hgd]
    exact (matDims_mat (s := g.shape) ma rfl (by rw [hab]; rfl) i).symm
  · rw [ts, hs2I.2.2, hstI.2.2]
    have := hw.batch_pos
    have := hb.wf.batch_pos
    omega

theorem K.matmulBwB_good {m : Mem α} {xa xb gy g : Tensor α} {ys : List (Tensor α)} {u : List Nat} {v : List α}
    (ha : xa.Fine) (hgy : gy.Fine) (hg : g.Fine) (dg : g.device = some d)
    (hs : ShapeOps.matmul .debug xa.shape g.shape = ok gy.shape) :
    Good d g.shape (K.matmulBwB .debug m [xa, xb] ys [gy] u v g) := by
  simp only [K.matmulBwB, ix_cons_zero, ok_bind]
  refine Good.bind_of (Tensor.dev_safe _) fun e1 _ => ?_
  have f1 := Dev.fw_good (op := (.transpose : FwOp α)) (xs := [xa]) (p := .debug) (by simpa using ha) (.inl rfl) e1 (m 0)
  refine Good.bind_of f1.1 fun at' hat => ?_
  obtain ⟨st, hst, atF, _, ats, _⟩ := f1.2 at' hat
  have f2 := Dev.fw_good (op := (.matmul : FwOp α)) (xs := [at', gy]) (p := .debug) (by simpa using ⟨atF, hgy⟩) (.inl rfl) e1 (m 1)
  refine Good.bind_of f2.1 fun t ht => ?_
  obtain ⟨s2, hs2, tF, _, ts, _⟩ := f2.2 t ht
  obtain ⟨ma, mb, hab, hc, hlt, hw, hgd, hbt'⟩ := (Shape.matmul_iff ha.wf hg.wf).mp hs
  obtain ⟨hba, hbb⟩ := K.compat_bb ha.wf hg.wf hc hbt'
  obtain ⟨_, hstI⟩ := (Shape.transpose_iff ha.wf).mp hst
  obtain ⟨_, _, _, _, _, hs2I⟩ := (Shape.matmul_iff (atF.wf) (hgy.wf)).mp hs2
  rw [ats] at hs2I
  refine Tensor.addAssign_good tF hg dg (fun i => ?_) ?_
  · rw [ts, hs2I.2.1, hstI.2.1, hgd]
    exact (matDims_mat (s := g.shape) mb (by rw [← hab]; rfl) rfl i).symm
  · rw [ts, hs2I.2.2, hstI.2.2]
    have := hw.batch_pos
    have := ha.wf.batch_pos
    omega

theorem K.transposeBw_good {m : Mem α} {gy g : Tensor α} {xs ys : List (Tensor α)} {u : List Nat} {v : List α}
    (hgy : gy.Fine) (hg : g.Fine) (dg : g.device = some d)
    (hs : ShapeOps.transpose .debug g.shape = ok gy.shape) :
    Good d g.shape (K.transposeBw .debug m xs ys [gy] u v g) := by
  simp only [K.transposeBw, ix_cons_zero, ok_bind]
  refine Good.bind_of (Tensor.dev_safe _) fun e1 _ => ?_
  have f1 := Dev.fw_good (op := (.transpose : FwOp α)) (xs := [gy]) (p := .debug) (by simpa using hgy) (.inl rfl) e1 (m 0)
  refine Good.bind_of f1.1 fun t ht => ?_
  obtain ⟨st, hst, tF, _, ts, _⟩ := f1.2 t ht
  obtain ⟨mg, hI⟩ := (Shape.transpose_iff hg.wf).mp hs
  obtain ⟨_, hstI⟩ := (Shape.transpose_iff hgy.wf).mp hst
  refine Tensor.addAssign_good tF hg dg (fun i => ?_) ?_
  · rw [ts, hstI.2.1, hI.2.1, hI.2.1]
    exact (matDims_mat (s := g.shape) mg rfl rfl i).symm
  · rw [ts, hstI.2.2, hI.2.2]; exact .inr (.inr rfl)

theorem K.triangularBw_good {lower : Bool} {m : Mem α} {gy g : Tensor α} {xs ys : List (Tensor α)} {u : List Nat} {v : List α}
    (hgy : gy.Fine) (hg : g.Fine) (dg : g.device = some d) (hs : gy.shape = g.shape) :
    Good d g.shape (K.triangularBw lower .debug m xs ys [gy] u v g) := by
  simp only [K.triangularBw, ix_cons_zero, ok_bind]
  refine Good.bind_of (ix_safe _ _) fun k _ => Good.bind_of (Tensor.dev_safe _) fun e1 _ => ?_
  have f1 := Dev.fw_good (op := (if lower then .triangularL k else .triangularU k : FwOp α)) (xs := [gy]) (p := .debug)
    (by simpa using hgy) (.inl rfl) e1 (m 0)
  refine Good.bind_of f1.1 fun t ht => ?_
  obtain ⟨st, hst, tF, _, ts, _⟩ := f1.2 t ht
  have : st = g.shape := by
    cases lower
    · have := (check_bind_ok.mp hst).2; cases this; exact hs
    · have := (check_bind_ok.mp hst).2; cases this; exact hs
  subst this
  refine Tensor.addAssign_good tF hg dg (fun i => by rw [ts]) (by rw [ts]; exact .inr (.inr rfl))


/-- One step of showing that a kernel on operands with replaced null buffers does the same or panics on the originals. -/
macro "fill_chain" : tactic => `(tactic|
  repeat' first
    | exact PanicOr.refl _
    | exact Tensor.fill_ptr _
    | refine PanicOr.bind ?_ (fun _ => ?_))

/-- The backward functions whose kernel works on the buffers directly. -/
def BwOp.Direct : BwOp α → Prop
  | .un u => u.bwFn (α := α) ≠ none
  | .cn _ _ => True
  | .biA _ => True
  | .biB _ => True
  | .max _ => True
  | .min _ => True
  | .slice _ _ => True
  | .pick _ _ => True
  | _ => False

theorem K.bwX_fill (f : α → α → α → α) (p : Profile) (m : Mem α) (xs ys gys : List (Tensor α)) (u : List Nat) (v : List α)
    (g : Tensor α) :
    PanicOr (K.bwX f p m xs ys gys u v g) (K.bwX f p m (xs.map Tensor.fill) (ys.map Tensor.fill) gys u v g) := by
  unfold K.bwX; simp only [ix_fill, Res.bind_assoc, ok_bind]; fill_chain

theorem K.bwConst_fill (f : α → α → α → α → α) (p : Profile) (m : Mem α) (xs ys gys : List (Tensor α)) (u : List Nat) (v : List α)
    (g : Tensor α) :
    PanicOr (K.bwConst f p m xs ys gys u v g) (K.bwConst f p m (xs.map Tensor.fill) (ys.map Tensor.fill) gys u v g) := by
  unfold K.bwConst; simp only [ix_fill, Res.bind_assoc, ok_bind]; fill_chain

theorem K.extBw_fill (p : Profile) (m : Mem α) (xs ys gys : List (Tensor α)) (u : List Nat) (v : List α)
    (g : Tensor α) :
    PanicOr (K.extBw p m xs ys gys u v g) (K.extBw p m (xs.map Tensor.fill) (ys.map Tensor.fill) gys u v g) := by
  unfold K.extBw; simp only [ix_fill, Res.bind_assoc, ok_bind]; fill_chain

theorem K.mulDivBw_fill (o : Nat) (f : α → α → α) (p : Profile) (m : Mem α) (xs ys gys : List (Tensor α)) (u : List Nat) (v : List α)
    (g : Tensor α) :
    PanicOr (K.mulDivBw o f p m xs ys gys u v g) (K.mulDivBw o f p m (xs.map Tensor.fill) (ys.map Tensor.fill) gys u v g) := by
  unfold K.mulDivBw; simp only [ix_fill, Res.bind_assoc, ok_bind]; fill_chain

theorem K.divBwB_fill (p : Profile) (m : Mem α) (xs ys gys : List (Tensor α)) (u : List Nat) (v : List α)
    (g : Tensor α) :
    PanicOr (K.divBwB p m xs ys gys u v g) (K.divBwB p m (xs.map Tensor.fill) (ys.map Tensor.fill) gys u v g) := by
  unfold K.divBwB; simp only [ix_fill, Res.bind_assoc, ok_bind]; fill_chain

theorem K.powfBwA_fill (p : Profile) (m : Mem α) (xs ys gys : List (Tensor α)) (u : List Nat) (v : List α)
    (g : Tensor α) :
    PanicOr (K.powfBwA p m xs ys gys u v g) (K.powfBwA p m (xs.map Tensor.fill) (ys.map Tensor.fill) gys u v g) := by
  unfold K.powfBwA; simp only [ix_fill, Res.bind_assoc, ok_bind]; fill_chain

theorem K.powfBwB_fill (p : Profile) (m : Mem α) (xs ys gys : List (Tensor α)) (u : List Nat) (v : List α)
    (g : Tensor α) :
    PanicOr (K.powfBwB p m xs ys gys u v g) (K.powfBwB p m (xs.map Tensor.fill) (ys.map Tensor.fill) gys u v g) := by
  unfold K.powfBwB; simp only [ix_fill, Res.bind_assoc, ok_bind]; fill_chain

theorem BwOp.fill {op : BwOp α} (h : op.Direct) (p : Profile) (m : Mem α) (xs ys gys : List (Tensor α)) (gx : Tensor α) :
    PanicOr (Dev.callBw p m op.name xs ys gys op.u32data op.f32data gx)
      (Dev.callBw p m op.name (xs.map Tensor.fill) (ys.map Tensor.fill) gys op.u32data op.f32data gx) := by
  unfold Dev.callBw
  cases op
  case un u =>
    show PanicOr (unwrap (Option.map _ _) >>= _) (unwrap (Option.map _ _) >>= _)
    cases hu : (u.bwFn : Option (α → α → α → α)) with
    | none => exact .refl _
    | some f => exact K.bwX_fill f p m xs ys gys [] [] gx
  case cn c k => exact K.bwConst_fill _ p m xs ys gys [] [k] gx
  case biA o =>
    cases o
    · exact .refl _
    · exact .refl _
    · exact K.mulDivBw_fill 1 _ p m xs ys gys [] [] gx
    · exact K.mulDivBw_fill 1 _ p m xs ys gys [] [] gx
    · exact K.powfBwA_fill p m xs ys gys [] [] gx
  case biB o =>
    cases o
    · exact .refl _
    · exact .refl _
    · exact K.mulDivBw_fill 0 _ p m xs ys gys [] [] gx
    · exact K.divBwB_fill p m xs ys gys [] [] gx
    · exact K.powfBwB_fill p m xs ys gys [] [] gx
  case max dim => exact K.extBw_fill p m xs ys gys [dim] [] gx
  case min dim => exact K.extBw_fill p m xs ys gys [dim] [] gx
  case slice dim lower => exact .refl _
  case pick ids dim => exact .refl _
  all_goals exact absurd h id

/-- One step of showing that a kernel with a null gradient buffer is safe. -/
macro "good_chain" : tactic => `(tactic|
  repeat' first
    | exact Good.panic
    | exact ix_safe _ _
    | exact check_safe _
    | exact Shape.sizeU_safe _ _
    | exact Shape.lowerVolumeU_safe _ _ _
    | exact Tensor.ptr_safe _
    | refine Good.bind_of ?_ (fun _ _ => ?_))

theorem BwOp.null_good {op : BwOp α} (h : op.Direct) {p : Profile} {m : Mem α} {xs ys : List (Tensor α)} {gy gx : Tensor α}
    {s : Shape} (hn : gy.buf = none ∨ gx.buf = none) :
    Good d s (Dev.callBw p m op.name xs ys [gy] op.u32data op.f32data gx) := by
  have hX : ∀ f u v, Good d s (K.bwX f p m xs ys [gy] u v gx) := by
    intro f u v
    unfold K.bwX
    rcases hn with h | h <;> simp only [ix_cons_zero, ok_bind, ptr_none h, panic_bind] <;> good_chain
  have hC : ∀ f u v, Good d s (K.bwConst f p m xs ys [gy] u v gx) := by
    intro f u v
    unfold K.bwConst
    rcases hn with h | h <;> simp only [ix_cons_zero, ok_bind, ptr_none h, panic_bind] <;> good_chain
  have hE : ∀ u v, Good d s (K.extBw p m xs ys [gy] u v gx) := by
    intro u v
    unfold K.extBw
    rcases hn with h | h <;> simp only [ix_cons_zero, ok_bind, ptr_none h, panic_bind] <;> good_chain
  have hM : ∀ o f u v, Good d s (K.mulDivBw o f p m xs ys [gy] u v gx) := by
    intro o f u v
    unfold K.mulDivBw
    rcases hn with h | h <;> simp only [ix_cons_zero, ok_bind, ptr_none h, panic_bind] <;> good_chain
  have hA : ∀ f u v, Good d s (K.addSubBw f p m xs ys [gy] u v gx) := by
    intro f u v
    unfold K.addSubBw
    rcases hn with h | h <;> simp only [ix_cons_zero, ok_bind, ptr_none h, panic_bind] <;> good_chain
  have hD : ∀ u v, Good d s (K.divBwB p m xs ys [gy] u v gx) := by
    intro u v
    unfold K.divBwB
    rcases hn with h | h <;> simp only [ix_cons_zero, ok_bind, ptr_none h, panic_bind] <;> good_chain
  have hPA : ∀ u v, Good d s (K.powfBwA p m xs ys [gy] u v gx) := by
    intro u v
    unfold K.powfBwA
    rcases hn with h | h <;> simp only [ix_cons_zero, ok_bind, ptr_none h, panic_bind] <;> good_chain
  have hPB : ∀ u v, Good d s (K.powfBwB p m xs ys [gy] u v gx) := by
    intro u v
    unfold K.powfBwB
    rcases hn with h | h <;> simp only [ix_cons_zero, ok_bind, ptr_none h, panic_bind] <;> good_chain
  have hS : ∀ u v, Good d s (K.sliceBw p m xs ys [gy] u v gx) := by
    intro u v
    unfold K.sliceBw
    rcases hn with h | h <;> simp only [ix_cons_zero, ok_bind, ptr_none h, panic_bind] <;> good_chain
  have hP : ∀ u v, Good d s (K.pickBw p m xs ys [gy] u v gx) := by
    intro u v
    unfold K.pickBw
    rcases hn with h | h <;> simp only [ix_cons_zero, ok_bind, ptr_none h, panic_bind] <;> good_chain
  unfold Dev.callBw
  cases op
  case un u =>
    show Good d s (unwrap (Option.map _ _) >>= _)
    cases hu : (u.bwFn : Option (α → α → α → α)) with
    | none => exact Good.panic
    | some f => exact hX f [] []
  case cn c k => exact hC _ [] [k]
  case biA o =>
    cases o
    · exact hA _ [] []
    · exact hA _ [] []
    · exact hM _ _ [] []
    · exact hM _ _ [] []
    · exact hPA [] []
  case biB o =>
    cases o
    · exact hA _ [] []
    · exact hA _ [] []
    · exact hM _ _ [] []
    · exact hD [] []
    · exact hPB [] []
  case max dim => exact hE [dim] []
  case min dim => exact hE [dim] []
  case slice dim lower => exact hS [dim, lower] []
  case pick ids dim => exact hP (dim :: ids) []
  all_goals exact absurd h id

theorem BwOp.check_safe (op : BwOp α) (p : Profile) (xs ys : List Shape) (gy gx : Shape) : (op.check p xs ys gy gx).Safe := by
  unfold BwOp.check
  split
  all_goals first
    | exact safe_panic
    | exact Res.Safe.bind (Verif.check_safe _) fun _ _ => Res.Safe.bind (Verif.check_safe _) fun _ _ => Verif.check_safe _
    | exact Res.Safe.bind (Verif.check_safe _) fun _ _ => Res.Safe.bind (Verif.check_safe _) fun _ _ =>
        Res.Safe.bind (Shape.elementwise_safe _ _) fun _ _ => Verif.check_safe _
    | exact Res.Safe.bind (Verif.check_safe _) fun _ _ => Res.Safe.bind (Verif.check_safe _) fun _ _ =>
        Res.Safe.bind (Shape.resizeDim_safe _ _ _ _) fun _ _ => Verif.check_safe _
    | exact Res.Safe.bind (Verif.check_safe _) fun _ _ => Res.Safe.bind (Verif.check_safe _) fun _ _ =>
        Res.Safe.bind (Shape.matmul_safe _ _ _) fun _ _ => Verif.check_safe _
    | exact Res.Safe.bind (Verif.check_safe _) fun _ _ => Res.Safe.bind (Verif.check_safe _) fun _ _ =>
        Res.Safe.bind (Shape.transpose_safe _ _) fun _ _ => Verif.check_safe _
    | exact Res.Safe.bind (Shape.u32_safe _ _) fun _ _ => Res.Safe.bind (Shape.slice_safe _ _ _ _ _) fun _ _ => Verif.check_safe _
    | exact Res.Safe.bind (Shape.pick_safe _ _ _ _) fun _ _ => Verif.check_safe _
    | exact Res.Safe.bind (Shape.u32_safe _ _) fun _ _ => Res.Safe.bind (Shape.batchSlice_safe _ _ _) fun _ _ => Verif.check_safe _
    | exact Res.Safe.bind (Shape.batchPick_safe _ _) fun _ _ => Verif.check_safe _

/-- Sizes of the operands of the direct backward functions are bounded by those of the gradients. -/
theorem BwOp.direct_sizes {op : BwOp α} (h : op.Direct) {xs ys : List Shape} {gy gx : Shape} {N : Nat}
    (hw : ∀ x, x ∈ xs → x.WF) (hc : op.check .debug xs ys gy gx = ok ()) (h1 : gy.size ≤ N) (h2 : gx.size ≤ N) :
    (∀ x, x ∈ xs → x.size ≤ N) ∧ (∀ y, y ∈ ys → y.size ≤ N) := by
  have el : ∀ a b s : Shape, a.WF → b.WF → ShapeOps.elementwise a b = ok s → a.size ≤ s.size ∧ b.size ≤ s.size := by
    intro a b s ha hb he
    obtain ⟨e1, e2, e3, e4, e5⟩ := (Shape.elementwise_iff ha hb).mp he
    have v1 : a.volume = s.volume := vol_of_dims ha e3 (fun i => (e4 i).symm)
    have v2 : b.volume = s.volume := vol_of_dims hb e3 (fun i => by rw [← e1 i]; exact (e4 i).symm)
    unfold Shape.size
    rw [v1, v2]
    exact ⟨Nat.mul_le_mul_right _ (by omega), Nat.mul_le_mul_right _ (by omega)⟩
  unfold BwOp.check at hc
  split at hc
  all_goals first | (cases hc; done) | skip
  all_goals try simp only [check_bind_ok] at hc
  all_goals simp only [Res.bind_eq_ok, check_eq_ok] at hc
  all_goals first
    | (obtain ⟨rfl, rfl, _⟩ := hc; simp [h1, h2]; done)
    | (obtain ⟨rfl, rfl, s, hs, rfl⟩ := hc
       have := el _ _ _ (hw _ (by simp)) (hw _ (by simp)) hs
       simp only [List.mem_cons, List.not_mem_nil, or_false, forall_eq_or_imp, forall_eq]
       omega)
    | (simp; done)
    | exact absurd h id

theorem Dev.bw_good {op : BwOp α} {xs ys : List (Tensor α)} {gy gx : Tensor α} (hx : ∀ x, x ∈ xs → x.Fine)
    (hy : ∀ y, y ∈ ys → y.Fine) (hgy : gy.Fine) (hgx : gx.Fine) (hop : op.Checked) (d : Nat) (m : Mem α) :
    Good d gx.shape (Dev.bw op .debug d m xs ys gy gx) := by
  have hwf : ∀ t, t ∈ xs.map Tensor.shape → t.WF := by
    intro t ht; obtain ⟨x, h1, rfl⟩ := List.mem_map.mp ht; exact (hx x h1).wf
  unfold Dev.bw
  refine Good.bind_of (Dev.onAll_safe _ _) fun _ d1 => Good.bind_of (Dev.onAll_safe _ _) fun _ d2 =>
    Good.bind_of (Tensor.onDev_safe _ _) fun _ d3 => Good.bind_of (Tensor.onDev_safe _ _) fun _ d4 => ?_
  have d1' := Dev.onAll_eq_ok.mp d1
  have d2' := Dev.onAll_eq_ok.mp d2
  have d3' := Tensor.onDev_eq_ok.mp d3
  have d4' := Tensor.onDev_eq_ok.mp d4
  refine Good.bind_of (BwOp.check_safe _ _ _ _ _ _) fun u0 hc => ?_
  cases u0
  have hlen := BwOp.check_len hc
  rw [List.length_map, List.length_map] at hlen
  by_cases hdir : op.Direct
  · by_cases hn : gy.buf = none ∨ gx.buf = none
    · exact BwOp.null_good hdir hn
    · obtain ⟨n1, n2⟩ := not_or.mp hn
      obtain ⟨lgy, hlgy⟩ := Option.ne_none_iff_exists'.mp n1
      obtain ⟨lgx, hlgx⟩ := Option.ne_none_iff_exists'.mp n2
      obtain ⟨s1, s2⟩ := BwOp.direct_sizes hdir hwf hc (hgy.buf _ hlgy).1 (hgx.buf _ hlgx).1
      refine Good.panicOr (BwOp.fill hdir .debug m xs ys [gy] gx) ?_
      obtain ⟨xi, x1, x2⟩ := HoldAll.of_fine (d := d) (xs := xs.map Tensor.fill) (by
        intro z hz
        obtain ⟨w, hw, rfl⟩ := List.mem_map.mp hz
        exact ⟨(hx w hw).fill (s1 _ (List.mem_map.mpr ⟨w, hw, rfl⟩)), d1' w hw, by simp [Tensor.fill]⟩)
      obtain ⟨yi, y1, y2⟩ := HoldAll.of_fine (d := d) (xs := ys.map Tensor.fill) (by
        intro z hz
        obtain ⟨w, hw, rfl⟩ := List.mem_map.mp hz
        exact ⟨(hy w hw).fill (s2 _ (List.mem_map.mpr ⟨w, hw, rfl⟩)), d2' w hw, by simp [Tensor.fill]⟩)
      obtain ⟨fgy, hh1⟩ := hgy.holds d3' hlgy
      obtain ⟨fgx, hh2⟩ := hgx.holds d4' hlgx
      have e1 : (xs.map Tensor.fill).map Tensor.shape = xs.map Tensor.shape := by simp [Tensor.fill, Function.comp_def]
      have e2 : (ys.map Tensor.fill).map Tensor.shape = ys.map Tensor.shape := by simp [Tensor.fill, Function.comp_def]
      have hc' : op.check .debug (xi.map Prod.fst) (yi.map Prod.fst) gy.shape gx.shape = ok () := by
        rw [x2, y2, e1, e2]; exact hc
      have := Dev.bw_ok x1 y1 hh1 hh2 hc' (by
        cases op <;> first | exact trivial | exact hdir | exact absurd hdir id) .debug m
      unfold Dev.bw at this
      rw [x1.onAll, ok_bind, y1.onAll, ok_bind, e1, e2, d3, ok_bind, d4, ok_bind, hc, ok_bind] at this
      exact Good.of_ok this
  · obtain ⟨l1, l2⟩ := hlen
    unfold Dev.callBw
    cases op
    case un u =>
      have : (u.bwFn : Option (α → α → α → α)) = none := by
        by_contra h; exact hdir h
      show Good d gx.shape (unwrap (Option.map _ _) >>= _)
      rw [this]; exact Good.panic
    case powi k =>
      obtain ⟨x, rfl⟩ := List.length_eq_one_iff.mp l1
      obtain ⟨y, rfl⟩ := List.length_eq_one_iff.mp l2
      simp only [List.map_cons, List.map_nil, BwOp.check, check_bind_ok, check_eq_ok] at hc
      obtain ⟨c1, c2, c3⟩ := hc
      exact K.powiBw_good (p := .debug) (m := m) (ys := [y]) (u := [asU32 k]) (v := []) (hx x (by simp)) hgy hgx d4' c1 (by rw [← c2, ← c3, c1])
    case matmulA =>
      obtain ⟨a, b, rfl⟩ := List.length_eq_two.mp l1
      obtain ⟨y, rfl⟩ := List.length_eq_one_iff.mp l2
      simp only [List.map_cons, List.map_nil, BwOp.check, check_bind_ok] at hc
      simp only [check_eq_ok, Res.bind_eq_ok] at hc
      obtain ⟨c1, c2, s, c3, c4⟩ := hc
      exact K.matmulBwA_good (m := m) (xa := a) (ys := [y]) (u := []) (v := []) (hx b (by simp)) hgy hgx d4' (by rw [← c1, c3, ← c4, c2])
    case matmulB =>
      obtain ⟨a, b, rfl⟩ := List.length_eq_two.mp l1
      obtain ⟨y, rfl⟩ := List.length_eq_one_iff.mp l2
      simp only [List.map_cons, List.map_nil, BwOp.check, check_bind_ok] at hc
      simp only [check_eq_ok, Res.bind_eq_ok] at hc
      obtain ⟨c1, c2, s, c3, c4⟩ := hc
      exact K.matmulBwB_good (m := m) (xb := b) (ys := [y]) (u := []) (v := []) (hx a (by simp)) hgy hgx d4' (by rw [← c1, c3, ← c4, c2])
    case transpose =>
      obtain ⟨a, rfl⟩ := List.length_eq_one_iff.mp l1
      obtain ⟨y, rfl⟩ := List.length_eq_one_iff.mp l2
      simp only [List.map_cons, List.map_nil, BwOp.check, check_bind_ok] at hc
      simp only [check_eq_ok, Res.bind_eq_ok] at hc
      obtain ⟨c1, c2, s, c3, c4⟩ := hc
      exact K.transposeBw_good (m := m) (xs := [a]) (ys := [y]) (u := []) (v := []) hgy hgx d4' (by rw [← c1, c3, ← c4, c2])
    case triangularL k =>
      obtain ⟨a, rfl⟩ := List.length_eq_one_iff.mp l1
      obtain ⟨y, rfl⟩ := List.length_eq_one_iff.mp l2
      simp only [List.map_cons, List.map_nil, BwOp.check, check_bind_ok, check_eq_ok] at hc
      obtain ⟨c1, c2, c3⟩ := hc
      exact K.triangularBw_good (lower := true) (m := m) (xs := [a]) (ys := [y]) (u := [k]) (v := []) hgy hgx d4' (by rw [← c2, c3, c1])
    case triangularU k =>
      obtain ⟨a, rfl⟩ := List.length_eq_one_iff.mp l1
      obtain ⟨y, rfl⟩ := List.length_eq_one_iff.mp l2
      simp only [List.map_cons, List.map_nil, BwOp.check, check_bind_ok, check_eq_ok] at hc
      obtain ⟨c1, c2, c3⟩ := hc
      exact K.triangularBw_good (lower := false) (m := m) (xs := [a]) (ys := [y]) (u := [k]) (v := []) hgy hgx d4' (by rw [← c2, c3, c1])
    case batchSlice lower => exact Good.panic
    case batchPick ids =>
      obtain ⟨i, rfl⟩ := List.length_eq_one_iff.mp hop
      obtain rfl := List.length_eq_zero_iff.mp l1
      obtain rfl := List.length_eq_zero_iff.mp l2
      show Good d gx.shape (K.pickBw .debug m [] [] [gy] [i] [] gx)
      unfold K.pickBw
      simp only [ix_cons_zero, ok_bind]
      refine Good.bind_of (Shape.lowerVolumeU_safe _ _ _) fun base _ => Good.bind_of (check_safe _) fun _ _ => Good.bind_of (Tensor.ptr_safe _) fun lgy _ =>
        Good.bind_of (Tensor.ptr_safe _) fun lg _ => ?_
      have hb := hgy.wf.batch_pos
      obtain ⟨n, hn⟩ : ∃ n, gy.shape.batch = n + 1 := ⟨gy.shape.batch - 1, by omega⟩
      rw [hn]
      have : ∀ n (f : Nat → Nat × List α → Res (Nat × List α)) s, f 0 s = Res.panic → loop (n + 1) f s = Res.panic := by
        intro n f s h0
        induction n with
        | zero => simpa [loop_succ] using h0
        | succ n ih => rw [loop_succ, ih]; rfl
      rw [this]
      · exact Good.panic
      · rfl
    all_goals exact absurd trivial hdir

end Verif
