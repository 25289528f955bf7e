import Verif.Safety5

/-!
# Results do not depend on recycled memory: lemmas for C19
-/

set_option linter.unusedSectionVars false

namespace Verif
open Res
variable {α : Type} {d : Nat} [Flt α]

/-- Two tensors with the same device, shape and elements. -/
def Tensor.Equiv (x x' : Tensor α) : Prop := x = x' ∨ ∃ d s F, x.Holds d s F ∧ x'.Holds d s F

theorem Tensor.Equiv.device {x x' : Tensor α} (h : x.Equiv x') : x'.device = x.device := by
  rcases h with rfl | ⟨d, s, F, h1, h2⟩
  · rfl
  · rw [h1.device, h2.device]

theorem Tensor.Equiv.shape {x x' : Tensor α} (h : x.Equiv x') : x'.shape = x.shape := by
  rcases h with rfl | ⟨d, s, F, h1, h2⟩
  · rfl
  · rw [h1.shape, h2.shape]

theorem Tensor.Equiv.buf {x x' : Tensor α} (h : x.Equiv x') : x'.buf = none ↔ x.buf = none := by
  rcases h with rfl | ⟨d, s, F, h1, h2⟩
  · rfl
  · obtain ⟨l, e, _⟩ := h1.buf
    obtain ⟨l', e', _⟩ := h2.buf
    simp [e, e']

theorem Tensor.Equiv.fine {x x' : Tensor α} (h : x.Equiv x') (hx : x.Fine) : x'.Fine := by
  rcases h with rfl | ⟨d, s, F, h1, h2⟩
  · exact hx
  · exact h2.fine

theorem Tensor.Equiv.holds {x x' : Tensor α} (h : x.Equiv x') {d : Nat} {s : Shape} {F : Arr α} (hx : x.Holds d s F) : x'.Holds d s F := by
  rcases h with rfl | ⟨d', s', F', h1, h2⟩
  · exact hx
  · obtain ⟨rfl, rfl, e⟩ := hx.unique h1
    exact h2.congr fun c b hv => e c b hv

/-- Both panic, or both return tensors with the same elements. -/
def SameT (d : Nat) (s : Shape) (r r' : Res (Tensor α)) : Prop :=
  (r = panic ∧ r' = panic) ∨ ∃ y y' F, r = ok y ∧ r' = ok y' ∧ y.Holds d s F ∧ y'.Holds d s F

theorem Good.same {s : Shape} {r : Res (Tensor α)} (h : Good d s r) : SameT d s r r := by
  cases r with
  | panic => exact .inl ⟨rfl, rfl⟩
  | ub => exact absurd rfl h.1
  | ok y =>
    obtain ⟨h1, h2, h3, h4⟩ := h.2 y rfl
    obtain ⟨l, hl⟩ := Option.ne_none_iff_exists'.mp h4
    obtain ⟨f, hf⟩ := h1.holds h2 hl
    rw [h3] at hf
    exact .inr ⟨y, y, f, rfl, rfl, hf, hf⟩

theorem SameT.bind {s s' : Shape} {r r' : Res (Tensor α)} {f f' : Tensor α → Res (Tensor α)} (h : SameT d s r r')
    (hf : ∀ y y', r = ok y → y.Equiv y' → y.Fine → y'.Fine → SameT e s' (f y) (f' y')) : SameT e s' (r >>= f) (r' >>= f') := by
  rcases h with ⟨rfl, rfl⟩ | ⟨y, y', F, rfl, rfl, h1, h2⟩
  · exact .inl ⟨rfl, rfl⟩
  · exact hf y y' rfl (.inr ⟨_, _, _, h1, h2⟩) h1.fine h2.fine

theorem SameT.bind_left {s' : Shape} {r : Res σ} {f f' : σ → Res (Tensor α)} (hr : r.Safe)
    (hf : ∀ a, r = ok a → SameT e s' (f a) (f' a)) : SameT e s' (r >>= f) (r >>= f') := by
  cases r with
  | ok a => exact hf a rfl
  | panic => exact .inl ⟨rfl, rfl⟩
  | ub => exact absurd rfl hr

theorem HoldAll.equiv {xs xs' : List (Tensor α)} {ins : List (Shape × Arr α)} (h : HoldAll d xs ins)
    (he : List.Forall₂ Tensor.Equiv xs xs') : HoldAll d xs' ins := by
  induction he generalizing ins with
  | nil => exact h
  | cons h1 _ ih =>
    cases h with
    | cons h2 h3 => exact .cons (h1.holds h2) (ih h3)

theorem FwOp.Pre.equiv {op : FwOp α} {xs xs' : List (Tensor α)} {s : Shape} (h : op.Pre d xs s)
    (he : List.Forall₂ Tensor.Equiv xs xs') : op.Pre d xs' s := by
  have hs : xs'.map Tensor.shape = xs.map Tensor.shape := by
    clear h
    induction he with
    | nil => rfl
    | cons h1 _ ih => simp [h1.shape, ih]
  have hmem : ∀ x', x' ∈ xs' → ∃ x, x ∈ xs ∧ x.Equiv x' := by
    clear h hs
    induction he with
    | nil => intro x' h; cases h
    | cons h1 _ ih =>
      intro x' hx'
      rcases List.mem_cons.mp hx' with rfl | h2
      · exact ⟨_, List.mem_cons_self .., h1⟩
      · obtain ⟨x, a, b⟩ := ih x' h2; exact ⟨x, List.mem_cons_of_mem _ a, b⟩
  refine ⟨fun x' hx' => ?_, fun x' hx' => ?_, by rw [hs]; exact h.shape, h.size, h.fits⟩
  · obtain ⟨x, a, b⟩ := hmem x' hx'; rw [b.device]; exact h.dev x a
  · obtain ⟨x, a, b⟩ := hmem x' hx'; rw [Ne, b.buf]; exact h.buf x a

theorem Tensor.Equiv.symm {x x' : Tensor α} (h : x.Equiv x') : x'.Equiv x := by
  rcases h with rfl | ⟨d, s, F, h1, h2⟩
  · exact .inl rfl
  · exact .inr ⟨d, s, F, h2, h1⟩

theorem Dev.fw_same {op : FwOp α} {xs xs' : List (Tensor α)} (hx : ∀ x, x ∈ xs → x.Fine) (hx' : ∀ x, x ∈ xs' → x.Fine)
    (hr : op.InRange) (he : List.Forall₂ Tensor.Equiv xs xs') (d : Nat) (m m' : Nat → α) :
    ∃ s, SameT d s (Dev.fw op .debug d m xs) (Dev.fw op .debug d m' xs') ∧
      ∀ y, Dev.fw op .debug d m xs = ok y → op.shape .debug (xs.map Tensor.shape) = ok s := by
  rcases Dev.fw_spec (op := op) (d := d) hx hr with ⟨s, ins, hp, h1, h2, h3⟩ | ⟨hn, h⟩
  · obtain ⟨y, e1, hy1⟩ := h3 m
    obtain ⟨y', e2, hy2⟩ := Dev.fw_ok (h1.equiv he) (by rw [h2]; exact hp.shape) hp.size hp.fits .debug m'
    exact ⟨s, .inr ⟨y, y', _, e1, e2, hy1, hy2⟩, fun _ _ => hp.shape⟩
  · have he' : List.Forall₂ Tensor.Equiv xs' xs := by
      clear hx hx' hn h
      induction he with
      | nil => exact .nil
      | cons h1 _ ih => exact .cons h1.symm ih
    exact ⟨⟨[], 1, 0, 1⟩, .inl ⟨h m, Dev.fw_panics hx' hr (fun ⟨s, hs⟩ => hn ⟨s, hs.equiv he'⟩) m'⟩,
      fun y hy => by rw [h m] at hy; cases hy⟩

/-- `g += x` with two versions of `x`. -/
theorem Tensor.addAssign_same {x x' g : Tensor α} (hx : x.Fine) (hg : g.Fine) (he : x.Equiv x') (dg : g.device = some d)
    (hd : ∀ i, x.shape.get i = g.shape.get i)
    (hb : x.shape.batch = 1 ∨ g.shape.batch = 1 ∨ x.shape.batch = g.shape.batch) :
    SameT d g.shape (g.addAssign .debug x) (g.addAssign .debug x') := by
  rcases he with rfl | ⟨e, s, F, h1, h2⟩
  · exact (Tensor.addAssign_good hx hg dg hd hb).same
  · unfold Tensor.addAssign Dev.addAssign
    simp only [Tensor.dev, dg, unwrap, ok_bind]
    by_cases hed : e = d
    · subst hed
      rw [(Tensor.onDev_eq_ok (u := ())).mpr h1.device, (Tensor.onDev_eq_ok (u := ())).mpr h2.device, ok_bind, ok_bind,
        (Tensor.onDev_eq_ok (u := ())).mpr dg, ok_bind, ok_bind]
      show SameT e g.shape (K.opAssign (fun w v => w + v) .debug [x] [] [] g) (K.opAssign (fun w v => w + v) .debug [x'] [] [] g)
      cases hgb : g.buf with
      | none =>
        obtain ⟨l, hl, _⟩ := h1.buf
        obtain ⟨l', hl', _⟩ := h2.buf
        simp only [K.opAssign, ix_cons_zero, ok_bind, ptr_none hgb, ptr_some hl, ptr_some hl']
        exact .inl ⟨rfl, rfl⟩
      | some lg =>
        obtain ⟨fg, hfg⟩ := hg.holds dg hgb
        obtain ⟨y, e1, q1⟩ := K.opAssign_holds (p := .debug) (u := []) (v := []) (fun w v => w + v) h1 hfg (by rw [← h1.shape]; exact hd)
          (by rw [← h1.shape]; exact hb)
        obtain ⟨y', e2, q2⟩ := K.opAssign_holds (p := .debug) (u := []) (v := []) (fun w v => w + v) h2 hfg (by rw [← h1.shape]; exact hd)
          (by rw [← h1.shape]; exact hb)
        exact .inr ⟨y, y', _, e1, e2, q1, q2⟩
    · rw [Tensor.onDev_panic (t := x) (by rw [h1.device]; simpa using hed), Tensor.onDev_panic (t := x') (by rw [h2.device]; simpa using hed)]
      exact .inl ⟨rfl, rfl⟩

theorem K.matmulBwA_same {m m' : Mem α} {xa xb gy g : Tensor α} {ys : List (Tensor α)} {u : List Nat} {v : List α}
    (hb : xb.Fine) (hgy : gy.Fine) (hg : g.Fine) (dg : g.device = some d)
    (hs : ShapeOps.matmul .debug g.shape xb.shape = ok gy.shape) :
    SameT d g.shape (K.matmulBwA .debug m [xa, xb] ys [gy] u v g) (K.matmulBwA .debug m' [xa, xb] ys [gy] u v g) := by
  simp only [K.matmulBwA, ix_cons_zero, ix_cons_one, ok_bind]
  refine SameT.bind_left (Tensor.dev_safe _) fun e1 _ => SameT.bind_left (Tensor.dev_safe _) fun e2 _ => ?_
  obtain ⟨st, f1, hst⟩ := Dev.fw_same (op := (.transpose : FwOp α)) (xs := [xb]) (xs' := [xb]) (by simpa using hb) (by simpa using hb)
    trivial (.cons (.inl rfl) .nil) e2 (m 0) (m' 0)
  refine f1.bind fun bt bt' hbt eb fb fb' => ?_
  obtain ⟨s2, f2, hs2⟩ := Dev.fw_same (op := (.matmul : FwOp α)) (xs := [gy, bt]) (xs' := [gy, bt']) (by simpa using ⟨hgy, fb⟩)
    (by simpa using ⟨hgy, fb'⟩) trivial (.cons (.inl rfl) (.cons eb .nil)) e1 (m 1) (m' 1)
  have hst := hst bt hbt
  have hg1 := (Dev.fw_good (op := (.transpose : FwOp α)) (xs := [xb]) (p := .debug) (by simpa using hb) (.inl rfl) e2 (m 0)).2 bt hbt
  obtain ⟨st', hst', _, _, bts, _⟩ := hg1
  rw [hst] at hst'; cases hst'
  refine f2.bind fun t t' ht et ft ft' => ?_
  have hs2 := hs2 t ht
  have hg2 := (Dev.fw_good (op := (.matmul : FwOp α)) (xs := [gy, bt]) (p := .debug) (by simpa using ⟨hgy, fb⟩) (.inl rfl) e1 (m 1)).2 t ht
  obtain ⟨s2', hs2', _, _, ts, _⟩ := hg2
  rw [hs2] at hs2'; cases hs2'
  obtain ⟨ma, mb, hab, hc, hlt, hw, hgd, hbt'⟩ := (Shape.matmul_iff hg.wf hb.wf).mp hs
  obtain ⟨hba, hbb⟩ := K.compat_bb hg.wf hb.wf hc hbt'
  obtain ⟨_, hstI⟩ := (Shape.transpose_iff hb.wf).mp hst
  obtain ⟨_, _, _, _, _, hs2I⟩ := (Shape.matmul_iff (hgy.wf) (fb.wf)).mp hs2
  rw [bts] at hs2I
  refine Tensor.addAssign_same ft hg et dg (fun i => ?_) ?_
  · rw [ts, hs2I.2.1, hstI.2.1, hgd]
    exact (matDims_mat (s := g.shape) ma rfl (by rw [hab]; rfl) i).symm
  · rw [ts, hs2I.2.2, hstI.2.2]
    have := hw.batch_pos
    have := hb.wf.batch_pos
    omega

theorem K.matmulBwB_same {m m' : Mem α} {xa xb gy g : Tensor α} {ys : List (Tensor α)} {u : List Nat} {v : List α}
    (ha : xa.Fine) (hgy : gy.Fine) (hg : g.Fine) (dg : g.device = some d)
    (hs : ShapeOps.matmul .debug xa.shape g.shape = ok gy.shape) :
    SameT d g.shape (K.matmulBwB .debug m [xa, xb] ys [gy] u v g) (K.matmulBwB .debug m' [xa, xb] ys [gy] u v g) := by
  simp only [K.matmulBwB, ix_cons_zero, ok_bind]
  refine SameT.bind_left (Tensor.dev_safe _) fun e1 _ => ?_
  obtain ⟨st, f1, hst⟩ := Dev.fw_same (op := (.transpose : FwOp α)) (xs := [xa]) (xs' := [xa]) (by simpa using ha) (by simpa using ha)
    trivial (.cons (.inl rfl) .nil) e1 (m 0) (m' 0)
  refine f1.bind fun bt bt' hbt eb fb fb' => ?_
  obtain ⟨s2, f2, hs2⟩ := Dev.fw_same (op := (.matmul : FwOp α)) (xs := [bt, gy]) (xs' := [bt', gy]) (by simpa using ⟨fb, hgy⟩)
    (by simpa using ⟨fb', hgy⟩) trivial (.cons eb (.cons (.inl rfl) .nil)) e1 (m 1) (m' 1)
  have hst := hst bt hbt
  have hg1 := (Dev.fw_good (op := (.transpose : FwOp α)) (xs := [xa]) (p := .debug) (by simpa using ha) (.inl rfl) e1 (m 0)).2 bt hbt
  obtain ⟨st', hst', _, _, bts, _⟩ := hg1
  rw [hst] at hst'; cases hst'
  refine f2.bind fun t t' ht et ft ft' => ?_
  have hs2 := hs2 t ht
  have hg2 := (Dev.fw_good (op := (.matmul : FwOp α)) (xs := [bt, gy]) (p := .debug) (by simpa using ⟨fb, hgy⟩) (.inl rfl) e1 (m 1)).2 t ht
  obtain ⟨s2', hs2', _, _, ts, _⟩ := hg2
  rw [hs2] at hs2'; cases hs2'
  obtain ⟨ma, mb, hab, hc, hlt, hw, hgd, hbt'⟩ := (Shape.matmul_iff ha.wf hg.wf).mp hs
  obtain ⟨hba, hbb⟩ := K.compat_bb ha.wf hg.wf hc hbt'
  obtain ⟨_, hstI⟩ := (Shape.transpose_iff ha.wf).mp hst
  obtain ⟨_, _, _, _, _, hs2I⟩ := (Shape.matmul_iff (fb.wf) (hgy.wf)).mp hs2
  rw [bts] at hs2I
  refine Tensor.addAssign_same ft hg et dg (fun i => ?_) ?_
  · rw [ts, hs2I.2.1, hstI.2.1, hgd]
    exact (matDims_mat (s := g.shape) mb (by rw [← hab]; rfl) rfl i).symm
  · rw [ts, hs2I.2.2, hstI.2.2]
    have := hw.batch_pos
    have := ha.wf.batch_pos
    omega

theorem K.transposeBw_same {m m' : Mem α} {gy g : Tensor α} {xs ys : List (Tensor α)} {u : List Nat} {v : List α}
    (hgy : gy.Fine) (hg : g.Fine) (dg : g.device = some d)
    (hs : ShapeOps.transpose .debug g.shape = ok gy.shape) :
    SameT d g.shape (K.transposeBw .debug m xs ys [gy] u v g) (K.transposeBw .debug m' xs ys [gy] u v g) := by
  simp only [K.transposeBw, ix_cons_zero, ok_bind]
  refine SameT.bind_left (Tensor.dev_safe _) fun e1 _ => ?_
  obtain ⟨st, f1, hst⟩ := Dev.fw_same (op := (.transpose : FwOp α)) (xs := [gy]) (xs' := [gy]) (by simpa using hgy) (by simpa using hgy)
    trivial (.cons (.inl rfl) .nil) e1 (m 0) (m' 0)
  refine f1.bind fun t t' ht et ft ft' => ?_
  have hst := hst t ht
  have hg1 := (Dev.fw_good (op := (.transpose : FwOp α)) (xs := [gy]) (p := .debug) (by simpa using hgy) (.inl rfl) e1 (m 0)).2 t ht
  obtain ⟨st', hst', _, _, ts, _⟩ := hg1
  rw [hst] at hst'; cases hst'
  obtain ⟨mg, hI⟩ := (Shape.transpose_iff hg.wf).mp hs
  obtain ⟨_, hstI⟩ := (Shape.transpose_iff hgy.wf).mp hst
  refine Tensor.addAssign_same ft hg et dg (fun i => ?_) ?_
  · rw [ts, hstI.2.1, hI.2.1, hI.2.1]
    exact (matDims_mat (s := g.shape) mg rfl rfl i).symm
  · rw [ts, hstI.2.2, hI.2.2]; exact .inr (.inr rfl)

theorem K.triangularBw_same {lower : Bool} {m m' : Mem α} {gy g : Tensor α} {xs ys : List (Tensor α)} {u : List Nat} {v : List α}
    (hgy : gy.Fine) (hg : g.Fine) (dg : g.device = some d) (hs : gy.shape = g.shape) :
    SameT d g.shape (K.triangularBw lower .debug m xs ys [gy] u v g) (K.triangularBw lower .debug m' xs ys [gy] u v g) := by
  simp only [K.triangularBw, ix_cons_zero, ok_bind]
  refine SameT.bind_left (ix_safe _ _) fun k _ => SameT.bind_left (Tensor.dev_safe _) fun e1 _ => ?_
  obtain ⟨st, f1, hst⟩ := Dev.fw_same (op := (if lower then .triangularL k else .triangularU k : FwOp α)) (xs := [gy]) (xs' := [gy])
    (by simpa using hgy) (by simpa using hgy) (by cases lower <;> trivial) (.cons (.inl rfl) .nil) e1 (m 0) (m' 0)
  refine f1.bind fun t t' ht et ft ft' => ?_
  have hst := hst t ht
  have hg1 := (Dev.fw_good (op := (if lower then .triangularL k else .triangularU k : FwOp α)) (xs := [gy]) (p := .debug)
    (by simpa using hgy) (.inl rfl) e1 (m 0)).2 t ht
  obtain ⟨st', hst', _, _, ts, _⟩ := hg1
  rw [hst] at hst'; cases hst'
  have : st = g.shape := by
    cases lower
    · have := (check_bind_ok.mp hst).2; cases this; exact hs
    · have := (check_bind_ok.mp hst).2; cases this; exact hs
  subst this
  refine Tensor.addAssign_same ft hg et dg (fun i => by rw [ts]) (by rw [ts]; exact .inr (.inr rfl))

/-- The backward functions that allocate temporaries. -/
def BwOp.Temps : BwOp α → Prop
  | .matmulA => True
  | .matmulB => True
  | .transpose => True
  | .triangularL _ => True
  | .triangularU _ => True
  | _ => False

theorem BwOp.no_temps {op : BwOp α} (h : ¬ op.Temps) (p : Profile) (m m' : Mem α) (xs ys : List (Tensor α)) (gy gx : Tensor α) :
    Dev.callBw p m op.name xs ys [gy] op.u32data op.f32data gx = Dev.callBw p m' op.name xs ys [gy] op.u32data op.f32data gx := by
  unfold Dev.callBw
  cases op
  case un u => cases u <;> rfl
  case biA b => cases b <;> rfl
  case biB b => cases b <;> rfl
  all_goals first | rfl | exact absurd trivial h

theorem Dev.bw_same {op : BwOp α} {xs ys : List (Tensor α)} {gy gx : Tensor α} (hx : ∀ x, x ∈ xs → x.Fine)
    (hy : ∀ y, y ∈ ys → y.Fine) (hgy : gy.Fine) (hgx : gx.Fine) (hop : op.Checked) (d : Nat) (m m' : Mem α) :
    SameT d gx.shape (Dev.bw op .debug d m xs ys gy gx) (Dev.bw op .debug d m' xs ys gy gx) := by
  by_cases ht : op.Temps
  swap
  · have : Dev.bw op .debug d m xs ys gy gx = Dev.bw op .debug d m' xs ys gy gx := by
      unfold Dev.bw; simp only [BwOp.no_temps ht .debug m m']
    rw [this]; exact (Dev.bw_good hx hy hgy hgx hop d m').same
  unfold Dev.bw
  refine SameT.bind_left (Dev.onAll_safe _ _) fun _ d1 => SameT.bind_left (Dev.onAll_safe _ _) fun _ d2 =>
    SameT.bind_left (Tensor.onDev_safe _ _) fun _ d3 => SameT.bind_left (Tensor.onDev_safe _ _) fun _ d4 => ?_
  have d4' := Tensor.onDev_eq_ok.mp d4
  refine SameT.bind_left (BwOp.check_safe _ _ _ _ _ _) fun u0 hc => ?_
  cases u0
  have hlen := BwOp.check_len hc
  rw [List.length_map, List.length_map] at hlen
  obtain ⟨l1, l2⟩ := hlen
  unfold Dev.callBw
  cases op
  case matmulA =>
    obtain ⟨a, b, rfl⟩ := List.length_eq_two.mp l1
    obtain ⟨y, rfl⟩ := List.length_eq_one_iff.mp l2
    simp only [List.map_cons, List.map_nil, BwOp.check, check_bind_ok] at hc
    simp only [check_eq_ok, Res.bind_eq_ok] at hc
    obtain ⟨c1, c2, s, c3, c4⟩ := hc
    exact K.matmulBwA_same (m := m) (m' := m') (xa := a) (ys := [y]) (u := []) (v := []) (hx b (by simp)) hgy hgx d4' (by rw [← c1, c3, ← c4, c2])
  case matmulB =>
    obtain ⟨a, b, rfl⟩ := List.length_eq_two.mp l1
    obtain ⟨y, rfl⟩ := List.length_eq_one_iff.mp l2
    simp only [List.map_cons, List.map_nil, BwOp.check, check_bind_ok] at hc
    simp only [check_eq_ok, Res.bind_eq_ok] at hc
    obtain ⟨c1, c2, s, c3, c4⟩ := hc
    exact K.matmulBwB_same (m := m) (m' := m') (xb := b) (ys := [y]) (u := []) (v := []) (hx a (by simp)) hgy hgx d4' (by rw [← c1, c3, ← c4, c2])
  case transpose =>
    obtain ⟨a, rfl⟩ := List.length_eq_one_iff.mp l1
    obtain ⟨y, rfl⟩ := List.length_eq_one_iff.mp l2
    simp only [List.map_cons, List.map_nil, BwOp.check, check_bind_ok] at hc
    simp only [check_eq_ok, Res.bind_eq_ok] at hc
    obtain ⟨c1, c2, s, c3, c4⟩ := hc
    exact K.transposeBw_same (m := m) (m' := m') (xs := [a]) (ys := [y]) (u := []) (v := []) hgy hgx d4' (by rw [← c1, c3, ← c4, c2])
  case triangularL k =>
    obtain ⟨a, rfl⟩ := List.length_eq_one_iff.mp l1
    obtain ⟨y, rfl⟩ := List.length_eq_one_iff.mp l2
    simp only [List.map_cons, List.map_nil, BwOp.check, check_bind_ok, check_eq_ok] at hc
    obtain ⟨c1, c2, c3⟩ := hc
    exact K.triangularBw_same (lower := true) (m := m) (m' := m') (xs := [a]) (ys := [y]) (u := [k]) (v := []) hgy hgx d4' (by rw [← c2, c3, c1])
  case triangularU k =>
    obtain ⟨a, rfl⟩ := List.length_eq_one_iff.mp l1
    obtain ⟨y, rfl⟩ := List.length_eq_one_iff.mp l2
    simp only [List.map_cons, List.map_nil, BwOp.check, check_bind_ok, check_eq_ok] at hc
    obtain ⟨c1, c2, c3⟩ := hc
    exact K.triangularBw_same (lower := false) (m := m) (m' := m') (xs := [a]) (ys := [y]) (u := [k]) (v := []) hgy hgx d4' (by rw [← c2, c3, c1])
  all_goals exact absurd ht id

end Verif
