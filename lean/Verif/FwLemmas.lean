import Verif.Pointwise

/-!
# What the forward kernels compute, on flat positions
-/

namespace Verif
open Res
variable {α : Type} {d : Nat} {p : Profile}

@[simp] theorem ix_cons_zero {β : Type} (x : β) (l : List β) : ix (x :: l) 0 = ok x := rfl
@[simp] theorem ix_cons_one {β : Type} (x y : β) (l : List β) : ix (x :: y :: l) 1 = ok y := rfl
@[simp] theorem ix_nil {β : Type} (i : Nat) : ix ([] : List β) i = panic := by simp [ix]
@[simp] theorem ix_one_panic {β : Type} (x : β) : ix [x] 1 = panic := rfl

/-- Flat position read in an operand of shape `s` for position `k` of the result: operands with batch 1 are broadcast. -/
def bidx (s : Shape) (k : Nat) : Nat := if s.batch = 1 then k % s.volume else k

theorem bidx_lt {s y : Shape} (hs : s.WF) (hv : s.volume = y.volume) (hb : s.batch = 1 ∨ s.batch = y.batch) {k : Nat}
    (hk : k < y.size) : bidx s k < s.size := by
  unfold bidx Shape.size at *
  have := hs.volume_pos
  by_cases h : s.batch = 1
  · rw [if_pos h, h, Nat.one_mul]; exact Nat.mod_lt _ (by omega)
  · rw [if_neg h, hv]
    rcases hb with hb | hb
    · exact absurd hb h
    · rw [hb]; exact hk

theorem bidx_flat {s : Shape} {v n i : Nat} (hv : s.volume = v) (hi : i < v) :
    n * (if s.batch = 1 then 0 else v) + i = bidx s (n * v + i) := by
  unfold bidx
  subst hv
  by_cases h : s.batch = 1
  · simp only [h, if_true, Nat.mul_zero, Nat.zero_add]
    rw [Nat.add_comm, Nat.add_mul_mod_self_right, Nat.mod_eq_of_lt hi]
  · simp only [h, if_false]

theorem nm_lt {n v b i : Nat} (hn : n < b) (hi : i < v) : n * v + i < b * v := by
  calc n * v + i < n * v + v := by omega
    _ = (n + 1) * v := by ring
    _ ≤ b * v := Nat.mul_le_mul_right _ hn

/-- Two nested store loops over a rectangle. -/
theorem foldN_rect {σ : Type} {b v k : Nat} {f : Nat → Nat → σ → σ} {s r : σ} (hk : k < b * v)
    (h : ∀ n i, n < b → i < v → n * v + i ≠ k → ∀ t, f n i t = t)
    (hr : f (k / v) (k % v) s = r) :
    foldN b (fun n a => foldN v (fun i a => f n i a) a) s = r := by
  have hv : 0 < v := by
    rcases Nat.eq_zero_or_pos v with h0 | h0
    · subst h0; simp at hk
    · exact h0
  have hkd : k / v < b := (Nat.div_lt_iff_lt_mul hv).mpr hk
  have hkm : k % v < v := Nat.mod_lt _ hv
  have hkk : k / v * v + k % v = k := Nat.div_add_mod' k v
  refine foldN_one (k / v) hkd (fun n hn hne t => foldN_id (fun i hi t => h n i hn hi (fun e => hne ?_) t)) ?_
  · rw [← e, Nat.add_comm, Nat.add_mul_div_right _ _ hv, Nat.div_eq_of_lt hi, Nat.zero_add]
  · exact foldN_one (k % v) hkm (fun i hi hne t => h _ i hkd hi (fun e => hne (by omega)) t) hr

theorem hasBatch_if {s : Shape} {v : Nat} : (if s.hasBatch = true then v else 0) = if s.batch = 1 then 0 else v := by
  unfold Shape.hasBatch
  by_cases h : s.batch = 1 <;> simp [h]

/-- Effect on element `k` of accumulating over batches: into a tensor with batch 1 all batches are accumulated in order,
otherwise each element is touched once. -/
def accB {σ : Type} (one : Prop) [Decidable one] (B vol : Nat) (F : Nat → σ → σ) (k : Nat) (s : σ) : σ :=
  if one then foldN B (fun n a => F (n * vol + k) a) s else F k s

theorem foldN_acc {σ : Type} {one : Prop} [Decidable one] {B vol k : Nat} {F : Nat → σ → σ} {s : σ}
    (hk : k < (if one then vol else B * vol)) :
    foldN B (fun n a => foldN vol (fun i a => if k = n * (if one then 0 else vol) + i then F (n * vol + i) a else a) a) s
      = accB one B vol F k s := by
  unfold accB
  by_cases h : one
  · simp only [h, if_true, Nat.mul_zero, Nat.zero_add] at hk ⊢
    apply foldN_congr
    intro n _ t
    exact foldN_one k hk (fun i _ hne t => by rw [if_neg (fun e => hne e.symm)]) (by rw [if_pos rfl])
  · simp only [h, if_false] at hk ⊢
    refine foldN_rect (f := fun n i a => if k = n * vol + i then F (n * vol + i) a else a) hk
      (fun n i _ _ hne t => by rw [if_neg (fun e => hne e.symm)]) ?_
    simp only [Nat.div_add_mod' k vol, if_true]

namespace K

theorem fwX_ok (op : α → α) {x y : Tensor α} {s : Shape} {g : Nat → α} {rest u f} (hx : x.Flat d s g) (hy : y.Room d s) :
    ∃ y', K.fwX op p (x :: rest) u f y = ok y' ∧ y'.Flat d s (fun k => op (g k)) := by
  obtain ⟨lx, hpx, _, _, hr⟩ := hx.ptr
  obtain ⟨ly, hpy, _, hly⟩ := hy.ptr
  have pw : PW ly.length (loop s.size fun i py => (rd lx i >>= fun a => wr py i (op a)))
      (fun k => foldN s.size (fun i a => if k = i then op (g i) else a)) :=
    PW.loop fun i hi => (PW.wr (by omega)).congr (fun t _ => by rw [hr i hi, ok_bind]) (fun _ _ _ => rfl)
  obtain ⟨l', e, hf⟩ := pw.result hy hly (fun k hk a => foldN_one k hk (fun i _ hne t => by
    rw [if_neg (fun e => hne e.symm)]) (by rw [if_pos rfl]))
  refine ⟨_, ?_, hf⟩
  simp only [K.fwX, ix_cons_zero, ok_bind, hy.shape, Shape.sizeU_eq hy.small, hpx, hpy, e]

theorem fwConst_ok (op : α → α → α) {x y : Tensor α} {s : Shape} {g : Nat → α} {c : α} {rest u f}
    (hx : x.Flat d s g) (hy : y.Room d s) :
    ∃ y', K.fwConst op p (x :: rest) u (c :: f) y = ok y' ∧ y'.Flat d s (fun k => op (g k) c) := by
  obtain ⟨lx, hpx, _, _, hr⟩ := hx.ptr
  obtain ⟨ly, hpy, _, hly⟩ := hy.ptr
  have pw : PW ly.length (loop s.size fun i py => (rd lx i >>= fun a => wr py i (op a c)))
      (fun k => foldN s.size (fun i a => if k = i then op (g i) c else a)) :=
    PW.loop fun i hi => (PW.wr (by omega)).congr (fun t _ => by rw [hr i hi, ok_bind]) (fun _ _ _ => rfl)
  obtain ⟨l', e, hf⟩ := pw.result hy hly (fun k hk a => foldN_one k hk (fun i _ hne t => by
    rw [if_neg (fun e => hne e.symm)]) (by rw [if_pos rfl]))
  refine ⟨_, ?_, hf⟩
  simp only [K.fwConst, ix_cons_zero, ok_bind, hy.shape, Shape.sizeU_eq hy.small, hpx, hpy, e]

theorem powiFw_ok [Flt α] {x y : Tensor α} {s : Shape} {g : Nat → α} {n : Nat} {rest u f}
    (hx : x.Flat d s g) (hy : y.Room d s) :
    ∃ y', K.powiFw p (x :: rest) (n :: u) f y = ok y' ∧ y'.Flat d s (fun k => Flt.powi (g k) (powiFw.asI32 n)) := by
  obtain ⟨lx, hpx, _, _, hr⟩ := hx.ptr
  obtain ⟨ly, hpy, _, hly⟩ := hy.ptr
  have pw : PW ly.length (loop s.size fun i py => (rd lx i >>= fun a => wr py i (Flt.powi a (powiFw.asI32 n))))
      (fun k => foldN s.size (fun i a => if k = i then Flt.powi (g i) (powiFw.asI32 n) else a)) :=
    PW.loop fun i hi => (PW.wr (by omega)).congr (fun t _ => by rw [hr i hi, ok_bind]) (fun _ _ _ => rfl)
  obtain ⟨l', e, hf⟩ := pw.result hy hly (fun k hk a => foldN_one k hk (fun i _ hne t => by
    rw [if_neg (fun e => hne e.symm)]) (by rw [if_pos rfl]))
  refine ⟨_, ?_, hf⟩
  simp only [K.powiFw, ix_cons_zero, ok_bind, hy.shape, Shape.sizeU_eq hy.small, hpx, hpy, e]

theorem resetTensor_ok {y : Tensor α} {s : Shape} {c : α} {xs u f} (hy : y.Room d s) :
    ∃ y', K.resetTensor p xs u (c :: f) y = ok y' ∧ y'.Flat d s (fun _ => c) := by
  obtain ⟨ly, hpy, _, hly⟩ := hy.ptr
  have pw : PW ly.length (loop s.size fun i py => wr py i c)
      (fun k => foldN s.size (fun i a => if k = i then c else a)) :=
    PW.loop fun i hi => (PW.wr (by omega))
  obtain ⟨l', e, hf⟩ := pw.result hy hly (fun k hk a => foldN_one k hk (fun i _ hne t => by
    rw [if_neg (fun e => hne e.symm)]) (by rw [if_pos rfl]))
  refine ⟨_, ?_, hf⟩
  simp only [K.resetTensor, ix_cons_zero, ok_bind, hy.shape, Shape.sizeU_eq hy.small, hpy, e]

theorem resetBySlice_ok {y : Tensor α} {s : Shape} {xs u} {f : List α} {g : Nat → α} (hy : y.Room d s)
    (hf : ∀ k, k < s.size → f[k]? = some (g k)) :
    ∃ y', K.resetBySlice p xs u f y = ok y' ∧ y'.Flat d s g := by
  obtain ⟨ly, hpy, _, hly⟩ := hy.ptr
  have pw : PW ly.length (loop s.size fun i py => (ix f i >>= fun v => wr py i v))
      (fun k => foldN s.size (fun i a => if k = i then g i else a)) :=
    PW.loop fun i hi => (PW.wr (by omega)).congr (fun t _ => by rw [ix_some (hf i hi), ok_bind]) (fun _ _ _ => rfl)
  obtain ⟨l', e, hf⟩ := pw.result hy hly (fun k hk a => foldN_one k hk (fun i _ hne t => by
    rw [if_neg (fun e => hne e.symm)]) (by rw [if_pos rfl]))
  refine ⟨_, ?_, hf⟩
  simp only [K.resetBySlice, ok_bind, hy.shape, Shape.sizeU_eq hy.small, hpy, e]

theorem mulAssignConst_ok [Mul α] {y : Tensor α} {s : Shape} {c : α} {xs u f} {g : Nat → α} (hy : y.Flat d s g) :
    ∃ y', K.mulAssignConst p xs u (c :: f) y = ok y' ∧ y'.Flat d s (fun k => g k * c) := by
  obtain ⟨ly, hpy, hbuf, hly⟩ := hy.room.ptr
  have pw : PW ly.length (loop s.size fun i py => upd py i (fun w => w * c))
      (fun k => foldN s.size (fun i a => if k = i then a * c else a)) :=
    PW.loop fun i hi => (PW.upd (by omega))
  obtain ⟨l', e, hf⟩ := pw.result' hy hbuf
  refine ⟨_, ?_, hf.congr (fun k hk => (foldN_if (f := fun w => w * c) hk).symm)⟩
  simp only [K.mulAssignConst, ix_cons_zero, ok_bind, hy.shape, Shape.sizeU_eq hy.small, hpy, e]

/-- `to_vec`: the first `size` elements, in order. -/
theorem tensorToVector_ok {x : Tensor α} {s : Shape} {g : Nat → α} {rest} {ys : List α} (hx : x.Flat d s g)
    (hy : ys.length = s.size) :
    K.tensorToVector p (x :: rest) ys = ok ((List.range s.size).map g) := by
  obtain ⟨lx, hpx, _, _, hr⟩ := hx.ptr
  have pw : PW ys.length (loop s.size fun i py => (rd lx i >>= fun v => wx py i v))
      (fun k => foldN s.size (fun i a => if k = i then g i else a)) :=
    PW.loop fun i hi => (PW.wr (v := g i) (p := i) (by omega)).congr (fun t ht => by
      rw [hr i hi, ok_bind]; simp [wx, wr, show i < t.length by omega]) (fun _ _ _ => rfl)
  obtain ⟨l', e, h2, h3⟩ := pw ys rfl
  simp only [K.tensorToVector, ix_cons_zero, ok_bind, hx.shape, Shape.sizeU_eq hx.small, hpx, e]
  congr 1
  apply List.ext_getElem?
  intro k
  rw [h3]
  by_cases hk : k < s.size
  · rw [List.getElem?_eq_getElem (by omega), Option.map_some]
    have := foldN_one (f := fun i a => if k = i then g i else a) (s := ys[k]) k hk
      (fun i _ hne t => by rw [if_neg (fun e => hne e.symm)]) rfl
    simp [hk, this]
  · rw [List.getElem?_eq_none (by omega), List.getElem?_eq_none (by simp; omega)]; rfl

/-- The two-operand loop shared by the element-wise kernels. -/
theorem fwAb_ok (op : α → α → α) {a b y : Tensor α} {sa sb s : Shape} {ga gb : Nat → α} {rest u f}
    (ha : a.Flat d sa ga) (hb : b.Flat d sb gb) (hy : y.Room d s)
    (hva : sa.volume = s.volume) (hvb : sb.volume = s.volume)
    (hba : sa.batch = 1 ∨ sa.batch = s.batch) (hbb : sb.batch = 1 ∨ sb.batch = s.batch) :
    ∃ y', K.fwAb op p (a :: b :: rest) u f y = ok y' ∧
      y'.Flat d s (fun k => op (ga (bidx sa k)) (gb (bidx sb k))) := by
  obtain ⟨la, hpa, _, _, hra⟩ := ha.ptr
  obtain ⟨lb, hpb, _, _, hrb⟩ := hb.ptr
  obtain ⟨ly, hpy, _, hly⟩ := hy.ptr
  have pw : PW ly.length (loop s.batch fun n => loop s.volume fun i py =>
        (rd la (n * (if sa.batch = 1 then 0 else s.volume) + i) >>= fun u =>
          rd lb (n * (if sb.batch = 1 then 0 else s.volume) + i) >>= fun v => wr py (n * s.volume + i) (op u v)))
      (fun k => foldN s.batch fun n => foldN s.volume fun i a => if k = n * s.volume + i then
        op (ga (bidx sa (n * s.volume + i))) (gb (bidx sb (n * s.volume + i))) else a) := by
    refine PW.loop fun n hn => PW.loop fun i hi => ?_
    have hlt : n * s.volume + i < s.size := nm_lt hn hi
    refine (PW.wr (p := n * s.volume + i) (by omega)).congr (fun t _ => ?_) (fun _ _ _ => rfl)
    rw [bidx_flat hva hi, bidx_flat hvb hi, hra _ (bidx_lt ha.wf hva hba hlt), ok_bind,
      hrb _ (bidx_lt hb.wf hvb hbb hlt), ok_bind]
  obtain ⟨l', e, hf⟩ := pw.result hy hly (g := fun k => op (ga (bidx sa k)) (gb (bidx sb k))) (fun k hk a => by
    refine foldN_rect (f := fun n i a => if k = n * s.volume + i then
        op (ga (bidx sa (n * s.volume + i))) (gb (bidx sb (n * s.volume + i))) else a) hk
      (fun n i _ _ hne t => by rw [if_neg (fun e => hne e.symm)]) ?_
    simp only [Nat.div_add_mod' k s.volume, if_true])
  refine ⟨_, ?_, hf⟩
  simp only [K.fwAb, ix_cons_zero, ix_cons_one, ok_bind, hy.shape, ha.shape, hb.shape, hpa, hpb, hpy, iter]
  rw [loop_ghost (fun n => (n * (if sa.batch = 1 then 0 else s.volume),
    n * (if sb.batch = 1 then 0 else s.volume), n * s.volume))
    (fun n => loop s.volume fun i py =>
        (rd la (n * (if sa.batch = 1 then 0 else s.volume) + i) >>= fun u =>
          rd lb (n * (if sb.batch = 1 then 0 else s.volume) + i) >>= fun v => wr py (n * s.volume + i) (op u v)))
    (by simp) (fun n _ t => by simp only [Nat.add_mul, Nat.one_mul]), e]
  rfl

theorem fwScalar_ok (op : α → α → α) {x c y : Tensor α} {sx sc s : Shape} {gx gc : Nat → α} {rest u f}
    (hx : x.Flat d sx gx) (hc : c.Flat d sc gc) (hy : y.Room d s)
    (hvx : sx.volume = s.volume) (hvc : sc.volume = 1)
    (hbx : sx.batch = 1 ∨ sx.batch = s.batch) (hbc : sc.batch = 1 ∨ sc.batch = s.batch) :
    ∃ y', K.fwScalar op p (x :: c :: rest) u f y = ok y' ∧
      y'.Flat d s (fun k => op (gx (bidx sx k)) (gc (if sc.batch = 1 then 0 else k / s.volume))) := by
  obtain ⟨lx, hpx, _, _, hrx⟩ := hx.ptr
  obtain ⟨lc, hpc, _, _, hrc⟩ := hc.ptr
  obtain ⟨ly, hpy, _, hly⟩ := hy.ptr
  have hcn : ∀ n, n < s.batch → n * (if sc.batch = 1 then 0 else 1) < sc.size := by
    intro n hn
    unfold Shape.size
    rw [hvc, Nat.mul_one]
    by_cases h : sc.batch = 1
    · simp [h]
    · simp only [h, if_false, Nat.mul_one]
      rcases hbc with hb | hb
      · exact absurd hb h
      · omega
  have pw : PW ly.length (loop s.batch fun n => loop s.volume fun i py =>
        (rd lx (n * (if sx.batch = 1 then 0 else s.volume) + i) >>= fun u =>
          rd lc (n * (if sc.batch = 1 then 0 else 1)) >>= fun v => wr py (n * s.volume + i) (op u v)))
      (fun k => foldN s.batch fun n => foldN s.volume fun i a => if k = n * s.volume + i then
        op (gx (bidx sx (n * s.volume + i))) (gc (n * (if sc.batch = 1 then 0 else 1))) else a) := by
    refine PW.loop fun n hn => PW.loop fun i hi => ?_
    have hlt : n * s.volume + i < s.size := nm_lt hn hi
    refine (PW.wr (p := n * s.volume + i) (by omega)).congr (fun t _ => ?_) (fun _ _ _ => rfl)
    rw [bidx_flat hvx hi, hrx _ (bidx_lt hx.wf hvx hbx hlt), ok_bind, hrc _ (hcn n hn), ok_bind]
  obtain ⟨l', e, hf⟩ := pw.result hy hly
    (g := fun k => op (gx (bidx sx k)) (gc (if sc.batch = 1 then 0 else k / s.volume))) (fun k hk a => by
    refine foldN_rect (f := fun n i a => if k = n * s.volume + i then
        op (gx (bidx sx (n * s.volume + i))) (gc (n * (if sc.batch = 1 then 0 else 1))) else a) hk
      (fun n i _ _ hne t => by rw [if_neg (fun e => hne e.symm)]) ?_
    simp only [Nat.div_add_mod' k s.volume, if_true]
    by_cases h : sc.batch = 1 <;> simp [h])
  refine ⟨_, ?_, hf⟩
  simp only [K.fwScalar, ix_cons_zero, ix_cons_one, ok_bind, hy.shape, hx.shape, hc.shape, hpx, hpc, hpy, iter]
  rw [loop_ghost (fun n => (n * (if sx.batch = 1 then 0 else s.volume),
    n * (if sc.batch = 1 then 0 else 1), n * s.volume))
    (fun n => loop s.volume fun i py =>
        (rd lx (n * (if sx.batch = 1 then 0 else s.volume) + i) >>= fun u =>
          rd lc (n * (if sc.batch = 1 then 0 else 1)) >>= fun v => wr py (n * s.volume + i) (op u v)))
    (by simp) (fun n _ t => by simp only [Nat.add_mul, Nat.one_mul]), e]
  rfl

/-- `+=`/`-=` when the shapes are compatible. -/
theorem opAssign_ok (op : α → α → α) {x y : Tensor α} {sx s : Shape} {gx gy : Nat → α} {rest u f}
    (hx : x.Flat d sx gx) (hy : y.Flat d s gy) (hv : sx.volume = s.volume)
    (hb : sx.batch = 1 ∨ s.batch = 1 ∨ sx.batch = s.batch) :
    ∃ y', K.opAssign op p (x :: rest) u f y = ok y' ∧
      y'.Flat d s (fun k => accB (s.batch = 1) (max sx.batch s.batch) s.volume
        (fun j w => op w (gx (bidx sx j))) k (gy k)) := by
  obtain ⟨lx, hpx, _, _, hrx⟩ := hx.ptr
  obtain ⟨ly, hpy, hbuf, hly⟩ := hy.room.ptr
  have hbx := hx.wf.batch_pos
  have hby := hy.wf.batch_pos
  have hsz : s.size = s.batch * s.volume := rfl
  have pw : PW ly.length (loop (max sx.batch s.batch) fun n => loop s.volume fun i py =>
        (rd lx (n * (if sx.batch = 1 then 0 else s.volume) + i) >>= fun v =>
          upd py (n * (if s.batch = 1 then 0 else s.volume) + i) (fun w => op w v)))
      (fun k => foldN (max sx.batch s.batch) fun n => foldN s.volume fun i a =>
        if k = n * (if s.batch = 1 then 0 else s.volume) + i then
          (fun j w => op w (gx (bidx sx j))) (n * s.volume + i) a else a) := by
    refine PW.loop fun n hn => PW.loop fun i hi => ?_
    have hpos : n * (if s.batch = 1 then 0 else s.volume) + i < s.size := by
      rw [hsz]
      by_cases h : s.batch = 1
      · simp [h]; omega
      · simp only [h, if_false]; exact nm_lt (by omega) hi
    refine (PW.upd (p := n * (if s.batch = 1 then 0 else s.volume) + i) (by omega)).congr (fun t _ => ?_) (fun _ _ _ => rfl)
    have hlt : bidx sx (n * s.volume + i) < sx.size := by
      refine bidx_lt (y := { s with batch := max sx.batch s.batch }) hx.wf hv (by simp only; omega) ?_
      exact nm_lt hn hi
    rw [bidx_flat hv hi, hrx _ hlt, ok_bind]
  obtain ⟨l', e, hf⟩ := pw.result' hy hbuf
  refine ⟨_, ?_, hf.congr (fun k hk => ?_)⟩
  · simp only [K.opAssign, ix_cons_zero, ok_bind, hy.shape, hx.shape, hpx, hpy, iter, hasBatch_if, hv]
    rw [loop_ghost (fun n => (n * (if sx.batch = 1 then 0 else s.volume), n * (if s.batch = 1 then 0 else s.volume)))
      (fun n => loop s.volume fun i py =>
        (rd lx (n * (if sx.batch = 1 then 0 else s.volume) + i) >>= fun v =>
          upd py (n * (if s.batch = 1 then 0 else s.volume) + i) (fun w => op w v)))
      (by simp) (fun n _ t => by simp only [Nat.add_mul, Nat.one_mul]), e]
    rfl
  · refine (foldN_acc (F := fun j w => op w (gx (bidx sx j))) ?_).symm
    rw [hsz] at hk
    by_cases h : s.batch = 1
    · simp only [h, if_true] at hk ⊢; omega
    · simp only [h, if_false]
      calc k < s.batch * s.volume := hk
        _ ≤ _ := Nat.mul_le_mul_right _ (by omega)

/-! ## Axis reductions -/

/-- Flat position of element `j` of the fibre of output position `k`: `lv` is the volume below the axis, `n` its length. -/
def fibPos (lv n k j : Nat) : Nat := k % lv + (k / lv) * (lv * n) + j * lv

theorem fibPos_lt {lv n H k j : Nat} (hk : k < lv * H) (hj : j < n) : fibPos lv n k j < lv * n * H := by
  have hlv : 0 < lv := by
    rcases Nat.eq_zero_or_pos lv with h | h
    · subst h; simp at hk
    · exact h
  have h1 : k % lv < lv := Nat.mod_lt _ hlv
  have h2 : k / lv < H := by rw [Nat.div_lt_iff_lt_mul hlv, Nat.mul_comm]; exact hk
  unfold fibPos
  have : k % lv + k / lv * (lv * n) + j * lv = k % lv + lv * (j + n * (k / lv)) := by ring
  rw [this, Nat.mul_assoc]
  exact flat_lt h1 (by
    calc j + n * (k / lv) < n + n * (k / lv) := by omega
      _ = n * (k / lv + 1) := by ring
      _ ≤ n * H := Nat.mul_le_mul_left _ h2)

theorem reduce_ok {fibre : List α → Nat → Nat → Nat → Res α} {F : Nat → (Nat → α) → α}
    (hF : ∀ (px : List α) n skip off (r : Nat → α), 1 ≤ n → (∀ j, j < n → rd px (off + j * skip) = ok (r j)) →
      fibre px n skip off = ok (F n r))
    {x y : Tensor α} {sx s : Shape} {g : Nat → α} {dim : Nat} {rest u f}
    (hx : x.Flat d sx g) (hy : y.Room d s) (hd : ∀ i, i ≠ dim → sx.get i = s.get i) (h1 : s.get dim = 1)
    (hb : sx.batch = s.batch) :
    ∃ y', K.reduce fibre p (x :: rest) (dim :: u) f y = ok y' ∧
      y'.Flat d s (fun k => F (sx.get dim) (fun j => g (fibPos (s.lowerVolume dim) (sx.get dim) k j))) := by
  obtain ⟨lx, hpx, _, _, hr⟩ := hx.ptr
  obtain ⟨ly, hpy, _, hly⟩ := hy.ptr
  have hlv := Shape.lowerVolume_congr hx.wf hy.wf hd
  have hszy : s.size = s.lowerVolume dim * (s.up dim * s.batch) := by
    unfold Shape.size; rw [hy.wf.volume_split dim, h1]; ring
  have hszx : sx.size = s.lowerVolume dim * sx.get dim * (s.up dim * s.batch) := by
    unfold Shape.size; rw [hx.wf.volume_split dim, hlv, Shape.up_congr hd, hb]; ring
  have hfib : ∀ i, i < s.size → fibre lx (sx.get dim) (s.lowerVolume dim)
      (i % s.lowerVolume dim + (i / s.lowerVolume dim) * (s.lowerVolume dim * sx.get dim))
      = ok (F (sx.get dim) (fun j => g (fibPos (s.lowerVolume dim) (sx.get dim) i j))) := by
    intro i hi
    refine hF _ _ _ _ _ (hx.wf.get_pos dim) (fun j hj => hr _ ?_)
    rw [hszx]; exact fibPos_lt (by rw [← hszy]; exact hi) hj
  have pw : PW ly.length (loop s.size fun i py => (fibre lx (sx.get dim) (s.lowerVolume dim)
      (i % s.lowerVolume dim + (i / s.lowerVolume dim) * (s.lowerVolume dim * sx.get dim)) >>= fun a => wr py i a))
      (fun k => foldN s.size (fun i a => if k = i then
        F (sx.get dim) (fun j => g (fibPos (s.lowerVolume dim) (sx.get dim) i j)) else a)) :=
    PW.loop fun i hi => (PW.wr (by omega)).congr (fun t _ => by rw [hfib i hi, ok_bind]) (fun _ _ _ => rfl)
  obtain ⟨l', e, hf⟩ := pw.result hy hly (fun k hk a => foldN_one k hk (fun i _ hne t => by
    rw [if_neg (fun e => hne e.symm)]) (by rw [if_pos rfl]))
  refine ⟨_, ?_, hf⟩
  simp only [K.reduce, ix_cons_zero, ok_bind, hy.shape, hx.shape, Shape.sizeU_eq hy.small,
    Shape.lowerVolumeU_eq hy.wf, hpx, hpy, check_true _ (Or.inr (Nat.ne_of_gt (hy.wf.lowerVolume_pos dim))), e]

theorem sumFibre_ok [Zero α] [Add α] (px : List α) (n skip off : Nat) (r : Nat → α) (_ : 1 ≤ n)
    (h : ∀ j, j < n → rd px (off + j * skip) = ok (r j)) :
    sumFibre px n skip off = ok (foldN n (fun j a => a + r j) 0) := by
  unfold sumFibre iter
  rw [loop_ghost (fun j => off + j * skip) (fun j a => ok (a + r j)) (by simp) (fun j hj t => by
    simp only [h j hj, ok_bind, Nat.add_mul, Nat.one_mul, Nat.add_assoc]), loop_pure]
  rfl

theorem extFibre_ok (better : α → α → Bool) (px : List α) (n skip off : Nat) (r : Nat → α) (h1 : 1 ≤ n)
    (h : ∀ j, j < n → rd px (off + j * skip) = ok (r j)) :
    extFibre better px n skip off = ok (foldN n (fun j a => if better (r j) a then r j else a) (r 0)) := by
  unfold extFibre iter
  have h0 := h 0 (by omega)
  simp only [Nat.zero_mul, Nat.add_zero] at h0
  rw [h0, ok_bind, loop_ghost (fun j => off + j * skip) (fun j a => ok (if better (r j) a then r j else a)) (by simp)
    (fun j hj t => by simp only [h j hj, ok_bind, Nat.add_mul, Nat.one_mul, Nat.add_assoc]), loop_pure]
  rfl

theorem lseFibre_ok [Flt α] (px : List α) (n skip off : Nat) (r : Nat → α) (h1 : 1 ≤ n)
    (h : ∀ j, j < n → rd px (off + j * skip) = ok (r j)) :
    lseFibre px n skip off = ok (Flt.down (foldN (n - 1) (fun j a => Scalar.lseStep a (Flt.up (r (j + 1)))) (Flt.up (r 0)))) := by
  unfold lseFibre iter
  have h0 := h 0 (by omega)
  simp only [Nat.zero_mul, Nat.add_zero] at h0
  rw [h0, ok_bind, loop_ghost (fun j => off + j * skip) (fun j a => ok (Scalar.lseStep a (Flt.up (r (j + 1))))) (by simp)
    (fun j hj t => by
      have := h (j + 1) (by omega)
      rw [Nat.add_mul, Nat.one_mul] at this
      simp only [this, ok_bind, Nat.add_mul, Nat.one_mul, Nat.add_assoc]), loop_pure]
  rfl

end K
end Verif
