import Verif.BwKernels
import Verif.DevFw3
import Verif.BwSpec

/-!
# What the backward kernels compute: element-wise and two-operand kernels
-/

set_option linter.unusedSectionVars false

namespace Verif
open Res Shape ShapeOps
variable {α : Type} [Flt α] {d : Nat} {p : Profile} {m : Mem α}

theorem accB_overBatch {sg sy : Shape} (hg : sg.WF) (hy : sy.WF) (hd : ∀ i, sg.get i = sy.get i)
    (hb : sg.batch = 1 ∨ sg.batch = sy.batch) {F : Nat → α → α} {c : Nat → Nat} {b : Nat} (hv : sg.Valid c b) (s : α) :
    accB (sg.batch = 1) sy.batch sg.volume F (sg.offset c b) s =
      overBatch sg sy.batch b (fun b' => F (sy.offset c b')) s := by
  have hvol := vol_of_dims hg hy hd
  have ho : offN sg.get c 8 = offN sy.get c 8 := offN_congr (fun i _ => hd i) (fun _ _ => rfl)
  unfold accB overBatch
  by_cases h1 : sg.batch = 1
  · rw [if_pos h1]
    have hb0 : b = 0 := by have := hv.2; omega
    refine foldN_congr (fun n hn t => ?_)
    have : bb sg n = b := by unfold bb; rw [if_pos h1, hb0]
    rw [if_pos this]
    show _ = F (sy.offset c n) t
    rw [hg.offset_eq, hy.offset_eq, hb0, ho, hvol]
    congr 1; ring
  · rw [if_neg h1]
    have hb' : sg.batch = sy.batch := by omega
    refine (foldN_one b (by have := hv.2; omega) (fun i _ hne t => ?_) ?_).symm
    · have : bb sg i = i := by unfold bb; rw [if_neg h1]
      rw [this, if_neg hne]
    · have : bb sg b = b := by unfold bb; rw [if_neg h1]
      rw [if_pos this]
      show F (sy.offset c b) s = _
      rw [hg.offset_eq, hy.offset_eq, ho, hvol]

namespace K

theorem bwX_ok (op : α → α → α → α) {x y gy g : Tensor α} {s : Shape} {fx fy fgy fg : Nat → α} {rx ry rg u f}
    (hx : x.Flat d s fx) (hy : y.Flat d s fy) (hgy : gy.Flat d s fgy) (hg : g.Flat d s fg) :
    ∃ g', K.bwX op p m (x :: rx) (y :: ry) (gy :: rg) u f g = ok g' ∧
      g'.Flat d s (fun k => fg k + op (fx k) (fy k) (fgy k)) := by
  obtain ⟨lx, hpx, _, _, hrx⟩ := hx.ptr
  obtain ⟨ly, hpy, _, _, hry⟩ := hy.ptr
  obtain ⟨lgy, hpgy, _, _, hrg⟩ := hgy.ptr
  obtain ⟨lg, hpg, hbuf, hlg⟩ := hg.room.ptr
  have pw : PW lg.length (loop s.size fun i pg => (rd lx i >>= fun a => rd ly i >>= fun b => rd lgy i >>= fun g =>
        upd pg i (fun w => w + op a b g)))
      (fun k => foldN s.size (fun i a => if k = i then a + op (fx i) (fy i) (fgy i) else a)) :=
    PW.loop fun i hi => (PW.upd (f := fun w => w + op (fx i) (fy i) (fgy i)) (by omega)).congr (fun t _ => by
      rw [hrx i hi, ok_bind, hry i hi, ok_bind, hrg i hi, ok_bind]) (fun _ _ _ => rfl)
  obtain ⟨l', e, hf⟩ := pw.result' hg hbuf
  refine ⟨_, ?_, hf.congr (fun k hk => (foldN_one k hk (fun i _ hne t => by
    rw [if_neg (fun e => hne e.symm)]) (by rw [if_pos rfl])).symm)⟩
  simp only [K.bwX, ix_cons_zero, ok_bind, hgy.shape, Shape.sizeU_eq hgy.small, hpx, hpy, hpgy, hpg, e]

theorem bwConst_ok (op : α → α → α → α → α) {x y gy g : Tensor α} {s : Shape} {fx fy fgy fg : Nat → α} {c : α} {rx ry rg u f}
    (hx : x.Flat d s fx) (hy : y.Flat d s fy) (hgy : gy.Flat d s fgy) (hg : g.Flat d s fg) :
    ∃ g', K.bwConst op p m (x :: rx) (y :: ry) (gy :: rg) u (c :: f) g = ok g' ∧
      g'.Flat d s (fun k => fg k + op (fx k) (fy k) (fgy k) c) := by
  obtain ⟨lx, hpx, _, _, hrx⟩ := hx.ptr
  obtain ⟨ly, hpy, _, _, hry⟩ := hy.ptr
  obtain ⟨lgy, hpgy, _, _, hrg⟩ := hgy.ptr
  obtain ⟨lg, hpg, hbuf, hlg⟩ := hg.room.ptr
  have pw : PW lg.length (loop s.size fun i pg => (rd lx i >>= fun a => rd ly i >>= fun b => rd lgy i >>= fun g =>
        upd pg i (fun w => w + op a b g c)))
      (fun k => foldN s.size (fun i a => if k = i then a + op (fx i) (fy i) (fgy i) c else a)) :=
    PW.loop fun i hi => (PW.upd (f := fun w => w + op (fx i) (fy i) (fgy i) c) (by omega)).congr (fun t _ => by
      rw [hrx i hi, ok_bind, hry i hi, ok_bind, hrg i hi, ok_bind]) (fun _ _ _ => rfl)
  obtain ⟨l', e, hf⟩ := pw.result' hg hbuf
  refine ⟨_, ?_, hf.congr (fun k hk => (foldN_one k hk (fun i _ hne t => by
    rw [if_neg (fun e => hne e.symm)]) (by rw [if_pos rfl])).symm)⟩
  simp only [K.bwConst, ix_cons_zero, ok_bind, hgy.shape, Shape.sizeU_eq hgy.small, hpx, hpy, hpgy, hpg, e]

theorem powiBw_ok {x gy g : Tensor α} {s : Shape} {fx fgy fg : Nat → α} {n : Nat} {rx ys rg u f}
    (hn : powiFw.asI32 n ≠ -2147483648)
    (hx : x.Flat d s fx) (hgy : gy.Flat d s fgy) (hg : g.Flat d s fg) :
    ∃ g', K.powiBw p m (x :: rx) ys (gy :: rg) (n :: u) f g = ok g' ∧
      g'.Flat d s (fun k => fg k + fgy k * Flt.ofInt (powiFw.asI32 n) * Flt.powi (fx k) (powiFw.asI32 n - 1)) := by
  obtain ⟨lx, hpx, _, _, hrx⟩ := hx.ptr
  obtain ⟨lgy, hpgy, _, _, hrg⟩ := hgy.ptr
  obtain ⟨lg, hpg, hbuf, hlg⟩ := hg.room.ptr
  have hdec : decI32 p (powiFw.asI32 n) = ok (powiFw.asI32 n - 1) := by unfold decI32; rw [if_neg hn]
  have pw : PW lg.length (loop s.size fun i pg => (rd lgy i >>= fun g => rd lx i >>= fun a =>
        decI32 p (powiFw.asI32 n) >>= fun n1 => upd pg i (fun w => w + g * Flt.ofInt (powiFw.asI32 n) * Flt.powi a n1)))
      (fun k => foldN s.size (fun i a => if k = i then
        a + fgy i * Flt.ofInt (powiFw.asI32 n) * Flt.powi (fx i) (powiFw.asI32 n - 1) else a)) :=
    PW.loop fun i hi => (PW.upd (f := fun w => w + fgy i * Flt.ofInt (powiFw.asI32 n) * Flt.powi (fx i) (powiFw.asI32 n - 1))
      (by omega)).congr (fun t _ => by
      rw [hrg i hi, ok_bind, hrx i hi, ok_bind, hdec, ok_bind]) (fun _ _ _ => rfl)
  obtain ⟨l', e, hf⟩ := pw.result' hg hbuf
  refine ⟨_, ?_, hf.congr (fun k hk => (foldN_one k hk (fun i _ hne t => by
    rw [if_neg (fun e => hne e.symm)]) (by rw [if_pos rfl])).symm)⟩
  simp only [K.powiBw, ix_cons_zero, ok_bind, hgy.shape, Shape.sizeU_eq hgy.small, hpx, hpgy, hpg, e]

theorem bwLoop_ok {op : α → α → α → α → α} {g : Tensor α} {s : Shape} {fg : Nat → α} {bs V : Nat} {l p1 p2 p3 : List α}
    {s1 s2 s3 : Nat} {r1 r2 r3 : Nat → α} (hg : g.Flat d s fg) (hl : g.buf = some l) (hV : s.volume = V)
    (hb : s.batch = 1 ∨ s.batch = bs)
    (h1 : ∀ n i, n < bs → i < V → rd p1 (n * s1 + i) = ok (r1 (n * V + i)))
    (h2 : ∀ n i, n < bs → i < V → rd p2 (n * s2 + i) = ok (r2 (n * V + i)))
    (h3 : ∀ n i, n < bs → i < V → rd p3 (n * s3 + i) = ok (r3 (n * V + i))) :
    ∃ l', bwLoop bs V p1 s1 p2 s2 p3 s3 (if s.batch = 1 then 0 else V) op l = ok l' ∧
      ({ g with buf := some l' } : Tensor α).Flat d s
        (fun k => accB (s.batch = 1) bs V (fun j w => op (r1 j) (r2 j) (r3 j) w) k (fg k)) := by
  have hlen : s.size ≤ l.length := by
    obtain ⟨l0, e, h, _⟩ := hg.buf
    rw [hl] at e; cases e; exact h
  have hsz : s.size = s.batch * V := by unfold Shape.size; rw [hV]
  have pw : PW l.length (loop bs fun n => loop V fun i pg =>
        (rd p1 (n * s1 + i) >>= fun u => rd p2 (n * s2 + i) >>= fun v => rd p3 (n * s3 + i) >>= fun w =>
          upd pg (n * (if s.batch = 1 then 0 else V) + i) (fun acc => op u v w acc)))
      (fun k => foldN bs fun n => foldN V fun i a =>
        if k = n * (if s.batch = 1 then 0 else V) + i then
          (fun j w => op (r1 j) (r2 j) (r3 j) w) (n * V + i) a else a) := by
    refine PW.loop fun n hn => PW.loop fun i hi => ?_
    have hpos : n * (if s.batch = 1 then 0 else V) + i < s.size := by
      rw [hsz]
      by_cases h : s.batch = 1
      · simp [h]; omega
      · simp only [h, if_false]; exact nm_lt (by omega) hi
    refine (PW.upd (p := n * (if s.batch = 1 then 0 else V) + i)
      (f := fun acc => op (r1 (n * V + i)) (r2 (n * V + i)) (r3 (n * V + i)) acc) (by omega)).congr (fun t _ => ?_)
      (fun _ _ _ => rfl)
    rw [h1 n i hn hi, ok_bind, h2 n i hn hi, ok_bind, h3 n i hn hi, ok_bind]
  obtain ⟨l', e, hf⟩ := pw.result' hg hl
  refine ⟨l', ?_, hf.congr (fun k hk => ?_)⟩
  · unfold bwLoop
    simp only [iter]
    rw [loop_ghost (fun n => (n * s1, n * s2, n * s3, n * (if s.batch = 1 then 0 else V)))
      (fun n => loop V fun i pg =>
        (rd p1 (n * s1 + i) >>= fun u => rd p2 (n * s2 + i) >>= fun v => rd p3 (n * s3 + i) >>= fun w =>
          upd pg (n * (if s.batch = 1 then 0 else V) + i) (fun acc => op u v w acc)))
      (by simp) (fun n _ t => by simp only [Nat.add_mul, Nat.one_mul]), e]
    rfl
  · refine (foldN_acc (F := fun j w => op (r1 j) (r2 j) (r3 j) w) ?_).symm
    rw [hsz] at hk
    by_cases h : s.batch = 1
    · simp only [h, if_true] at hk ⊢; omega
    · simp only [h, if_false]
      calc k < s.batch * V := hk
        _ ≤ _ := Nat.mul_le_mul_right _ (by omega)

/-- Reads of an operand broadcast over the batches. -/
theorem flat_read {x : Tensor α} {sx sy : Shape} {f : Nat → α} {l : List α} (hx : x.Flat d sx f)
    (hr : ∀ k, k < sx.size → rd l k = ok (f k)) (hv : sx.volume = sy.volume) (hb : sx.batch = 1 ∨ sx.batch = sy.batch)
    (n i : Nat) (hn : n < sy.batch) (hi : i < sy.volume) :
    rd l (n * (if sx.batch = 1 then 0 else sy.volume) + i) = ok ((fun j => f (bidx sx j)) (n * sy.volume + i)) := by
  rw [bidx_flat hv hi]
  exact hr _ (bidx_lt hx.wf hv hb (nm_lt hn hi))

theorem flat_read' {sy : Shape} {f : Nat → α} {l : List α}
    (hr : ∀ k, k < sy.size → rd l k = ok (f k))
    (n i : Nat) (hn : n < sy.batch) (hi : i < sy.volume) :
    rd l (n * sy.volume + i) = ok (f (n * sy.volume + i)) := hr _ (nm_lt hn hi)

theorem addSubBw_ok (op : α → α → α) {gy g : Tensor α} {sy s : Shape} {fgy fg : Nat → α} {xs ys rg u f}
    (hgy : gy.Flat d sy fgy) (hg : g.Flat d s fg) (hv : s.volume = sy.volume) (hb : s.batch = 1 ∨ s.batch = sy.batch) :
    ∃ g', K.addSubBw op p m xs ys (gy :: rg) u f g = ok g' ∧
      g'.Flat d s (fun k => accB (s.batch = 1) sy.batch sy.volume (fun j w => op w (fgy j)) k (fg k)) := by
  obtain ⟨lgy, hpgy, _, _, hrg⟩ := hgy.ptr
  obtain ⟨lg, hpg, hbuf, _⟩ := hg.room.ptr
  have h1 := fun n i hn hi => flat_read' (sy := sy) (l := lgy) hrg n i hn hi
  obtain ⟨l', e, hf⟩ := bwLoop_ok (op := fun u _ _ acc => op acc u) hg hbuf hv hb h1 h1 h1
  refine ⟨_, ?_, hf⟩
  simp only [K.addSubBw, ix_cons_zero, ok_bind, hgy.shape, hg.shape, hpgy, hpg, e]

theorem mulDivBw_ok (o : Nat) (op : α → α → α) {x gy g : Tensor α} {sx sy s : Shape} {fx fgy fg : Nat → α} {xs ys rg u f}
    (hix : ix xs o = ok x)
    (hx : x.Flat d sx fx) (hgy : gy.Flat d sy fgy) (hg : g.Flat d s fg) (hv : s.volume = sy.volume)
    (hb : s.batch = 1 ∨ s.batch = sy.batch) (hvx : sx.volume = sy.volume) (hbx : sx.batch = 1 ∨ sx.batch = sy.batch) :
    ∃ g', K.mulDivBw o op p m xs ys (gy :: rg) u f g = ok g' ∧
      g'.Flat d s (fun k => accB (s.batch = 1) sy.batch sy.volume (fun j w => w + op (fx (bidx sx j)) (fgy j)) k (fg k)) := by
  obtain ⟨lx, hpx, _, _, hrx⟩ := hx.ptr
  obtain ⟨lgy, hpgy, _, _, hrg⟩ := hgy.ptr
  obtain ⟨lg, hpg, hbuf, _⟩ := hg.room.ptr
  have h1 := fun n i hn hi => flat_read' (sy := sy) (l := lgy) hrg n i hn hi
  obtain ⟨l', e, hf⟩ := bwLoop_ok (op := fun u v _ acc => acc + op u v) (r1 := fun j => fx (bidx sx j)) hg hbuf hv hb (flat_read hx hrx hvx hbx) h1 h1
  refine ⟨_, ?_, hf⟩
  simp only [K.mulDivBw, hix, ix_cons_zero, ok_bind, hgy.shape, hg.shape, hx.shape, hpgy, hpg, hpx, e]

theorem divBwB_ok {a b y gy g : Tensor α} {sy s : Shape} {fb fy fgy fg : Nat → α} {xs ry rg u f}
    (hxb : b.Flat d s fb) (hy : y.Flat d sy fy) (hgy : gy.Flat d sy fgy) (hg : g.Flat d s fg) (hv : s.volume = sy.volume)
    (hb : s.batch = 1 ∨ s.batch = sy.batch) :
    ∃ g', K.divBwB p m (a :: b :: xs) (y :: ry) (gy :: rg) u f g = ok g' ∧
      g'.Flat d s (fun k => accB (s.batch = 1) sy.batch sy.volume
        (fun j w => w - fgy j * fy j / fb (bidx s j)) k (fg k)) := by
  obtain ⟨lb, hpb, _, _, hrb⟩ := hxb.ptr
  obtain ⟨ly, hpy, _, _, hry⟩ := hy.ptr
  obtain ⟨lgy, hpgy, _, _, hrg⟩ := hgy.ptr
  obtain ⟨lg, hpg, hbuf, _⟩ := hg.room.ptr
  obtain ⟨l', e, hf⟩ := bwLoop_ok (op := fun b y g acc => acc - g * y / b) (r1 := fun j => fb (bidx s j)) hg hbuf hv hb (flat_read hxb hrb hv hb)
    (fun n i hn hi => flat_read' (sy := sy) (l := ly) hry n i hn hi)
    (fun n i hn hi => flat_read' (sy := sy) (l := lgy) hrg n i hn hi)
  refine ⟨_, ?_, hf⟩
  simp only [K.divBwB, ix_cons_zero, ix_cons_one, ok_bind, hgy.shape, hg.shape, hpgy, hpg, hpb, hpy, e]

theorem powfBwA_ok {a b gy g : Tensor α} {sy s sb : Shape} {fa fb fgy fg : Nat → α} {xs ys rg u f}
    (hxa : a.Flat d s fa) (hxb : b.Flat d sb fb) (hgy : gy.Flat d sy fgy) (hg : g.Flat d s fg) (hv : s.volume = sy.volume)
    (hb : s.batch = 1 ∨ s.batch = sy.batch) (hvb : sb.volume = sy.volume) (hbb : sb.batch = 1 ∨ sb.batch = sy.batch) :
    ∃ g', K.powfBwA p m (a :: b :: xs) ys (gy :: rg) u f g = ok g' ∧
      g'.Flat d s (fun k => accB (s.batch = 1) sy.batch sy.volume
        (fun j w => w + fgy j * fb (bidx sb j) * Flt.powf (fa (bidx s j)) (fb (bidx sb j) - 1)) k (fg k)) := by
  obtain ⟨la, hpa, _, _, hra⟩ := hxa.ptr
  obtain ⟨lb, hpb, _, _, hrb⟩ := hxb.ptr
  obtain ⟨lgy, hpgy, _, _, hrg⟩ := hgy.ptr
  obtain ⟨lg, hpg, hbuf, _⟩ := hg.room.ptr
  obtain ⟨l', e, hf⟩ := bwLoop_ok (op := fun a b g acc => acc + g * b * Flt.powf a (b - 1)) (r1 := fun j => fa (bidx s j)) (r2 := fun j => fb (bidx sb j)) hg hbuf hv hb
    (flat_read hxa hra hv hb) (flat_read hxb hrb hvb hbb)
    (fun n i hn hi => flat_read' (sy := sy) (l := lgy) hrg n i hn hi)
  refine ⟨_, ?_, hf⟩
  simp only [K.powfBwA, ix_cons_zero, ix_cons_one, ok_bind, hgy.shape, hxa.shape, hxb.shape, hpgy, hpg, hpb, hpa, e]

theorem powfBwB_ok {a b y gy g : Tensor α} {sy s sa : Shape} {fa fy fgy fg : Nat → α} {xs ry rg u f}
    (hxa : a.Flat d sa fa) (hy : y.Flat d sy fy) (hgy : gy.Flat d sy fgy) (hg : g.Flat d s fg) (hv : s.volume = sy.volume)
    (hb : s.batch = 1 ∨ s.batch = sy.batch) (hva : sa.volume = sy.volume) (hba : sa.batch = 1 ∨ sa.batch = sy.batch) :
    ∃ g', K.powfBwB p m (a :: b :: xs) (y :: ry) (gy :: rg) u f g = ok g' ∧
      g'.Flat d s (fun k => accB (s.batch = 1) sy.batch sy.volume
        (fun j w => w + fgy j * Flt.ln (fa (bidx sa j)) * fy j) k (fg k)) := by
  obtain ⟨la, hpa, _, _, hra⟩ := hxa.ptr
  obtain ⟨ly, hpy, _, _, hry⟩ := hy.ptr
  obtain ⟨lgy, hpgy, _, _, hrg⟩ := hgy.ptr
  obtain ⟨lg, hpg, hbuf, _⟩ := hg.room.ptr
  obtain ⟨l', e, hf⟩ := bwLoop_ok (op := fun a y g acc => acc + g * Flt.ln a * y) (r1 := fun j => fa (bidx sa j)) hg hbuf hv hb
    (flat_read hxa hra hva hba)
    (fun n i hn hi => flat_read' (sy := sy) (l := ly) hry n i hn hi)
    (fun n i hn hi => flat_read' (sy := sy) (l := lgy) hrg n i hn hi)
  refine ⟨_, ?_, hf⟩
  simp only [K.powfBwB, ix_cons_zero, ok_bind, hy.shape, hg.shape, hxa.shape, hpgy, hpg, hpa, hpy, e]

end K
end Verif
