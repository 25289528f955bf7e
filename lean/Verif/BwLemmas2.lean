import Verif.BwLemmas

/-!
# What the backward kernels compute: scatter kernels
-/

set_option linter.unusedSectionVars false

namespace Verif
open Res Shape ShapeOps
variable {α : Type} [Flt α] {d : Nat} {p : Profile} {m : Mem α}

theorem firstIdx_lt {n j : Nat} {P : Nat → Bool} (h : firstIdx n P = some j) : j < n ∧ P j = true := by
  unfold firstIdx at h
  exact ⟨List.mem_range.mp (List.mem_of_find?_eq_some h), List.find?_some h⟩

namespace K

theorem findEq_ok {px : List α} {val : α} {skip off : Nat} {r : Nat → α} {n s : Nat}
    (h : ∀ j, j < s + n → rd px (off + j * skip) = ok (r j)) :
    findEq px val skip n (off + s * skip) =
      ok (((List.range' s n).find? (fun j => Flt.feq (r j) val)).map (fun j => off + j * skip)) := by
  induction n generalizing s with
  | zero => simp [findEq]
  | succ n ih =>
    rw [findEq, h s (by omega), ok_bind, List.range'_succ, List.find?_cons]
    by_cases hq : Flt.feq (r s) val = true
    · simp [hq]
    · have : off + s * skip + skip = off + (s + 1) * skip := by rw [Nat.succ_mul]; omega
      rw [if_neg hq, this, ih (fun j hj => h j (by omega))]
      simp [hq]

theorem extBw_ok {x y gy g : Tensor α} {sx s : Shape} {fx fy fgy fg : Nat → α} {dim : Nat} {rx ry rg u f}
    (hx : x.Flat d sx fx) (hy : y.Flat d s fy) (hgy : gy.Flat d s fgy) (hg : g.Flat d sx fg)
    (hd : ∀ i, i ≠ dim → sx.get i = s.get i) (h1 : s.get dim = 1) (hb : sx.batch = s.batch) :
    ∃ g', K.extBw p m (x :: rx) (y :: ry) (gy :: rg) (dim :: u) f g = ok g' ∧
      g'.Flat d sx (fun k =>
        let lv := s.lowerVolume dim
        let n := sx.get dim
        let i := fibSrc lv n k
        if firstIdx n (fun j => Flt.feq (fx (fibPos lv n i j)) (fy i)) = some (k / lv % n) then fg k + fgy i else fg k) := by
  obtain ⟨lx, hpx, _, _, hrx⟩ := hx.ptr
  obtain ⟨ly, hpy, _, _, hry⟩ := hy.ptr
  obtain ⟨lgy, hpgy, _, _, hrg⟩ := hgy.ptr
  obtain ⟨lg, hpg, hbuf, hlg⟩ := hg.room.ptr
  have hlvu : s.lowerVolumeU p dim = ok (s.lowerVolume dim) := Shape.lowerVolumeU_eq hy.wf p dim
  have hlv0 : 0 < s.lowerVolume dim := hy.wf.lowerVolume_pos dim
  have hsx := size_axis hx.wf hy.wf hd hb
  have hsy : s.size = s.lowerVolume dim * (s.up dim * s.batch) := by
    have := size_axis hy.wf hy.wf (dim := dim) (fun _ _ => rfl) rfl
    rw [h1, Nat.mul_one] at this; exact this
  generalize hlv : s.lowerVolume dim = lv at *
  generalize hn : sx.get dim = n at *
  let P : Nat → Nat → Bool := fun i j => Flt.feq (fx (fibPos lv n i j)) (fy i)
  let body : Nat → List α → Res (List α) := fun i pgx => (do
    let maxval ← rd ly i
    let offset := i % lv + (i / lv) * (lv * n)
    let found ← findEq lx maxval lv n offset
    match found with
    | none => ok pgx
    | some off => do
      let g ← rd lgy i
      upd pgx off (fun w => w + g))
  have pw : PW lg.length (loop s.size body)
      (fun k => foldN s.size (fun i a =>
        if (firstIdx n (P i)).map (fun j => fibPos lv n i j) = some k then a + fgy i else a)) := by
    refine PW.loop fun i hi => ?_
    have hf : findEq lx (fy i) lv n (i % lv + (i / lv) * (lv * n)) =
        ok ((firstIdx n (P i)).map (fun j => fibPos lv n i j)) := by
      have := findEq_ok (px := lx) (val := fy i) (skip := lv) (off := i % lv + (i / lv) * (lv * n))
        (r := fun j => fx (fibPos lv n i j)) (n := n) (s := 0) (fun j hj => by
          have : fibPos lv n i j < lv * n * (s.up dim * s.batch) := fibPos_lt (by omega) (by omega)
          exact hrx (fibPos lv n i j) (by omega))
      rw [Nat.zero_mul, Nat.add_zero] at this
      rw [this, firstIdx, List.range_eq_range']
      rfl
    have hbody : ∀ t : List α, body i t = match (firstIdx n (P i)).map (fun j => fibPos lv n i j) with
        | none => ok t
        | some off => upd t off (fun w => w + fgy i) := by
      intro t
      show (rd ly i >>= fun maxval => findEq lx maxval lv n _ >>= _) = _
      rw [hry i hi, ok_bind, hf, ok_bind]
      cases (firstIdx n (P i)).map (fun j => fibPos lv n i j) with
      | none => rfl
      | some off => show (rd lgy i >>= _) = _; rw [hrg i hi, ok_bind]
    cases hc : firstIdx n (P i) with
    | none =>
      refine PW.id'.congr (fun t _ => by rw [hbody t, hc]; rfl) (fun k _ a => by simp)
    | some j =>
      have hj := (firstIdx_lt hc).1
      have hpos : fibPos lv n i j < lv * n * (s.up dim * s.batch) := fibPos_lt (by omega) hj
      refine (PW.upd (p := fibPos lv n i j) (f := fun w => w + fgy i) (by omega)).congr
        (fun t _ => by rw [hbody t, hc]; rfl) (fun k _ a => ?_)
      simp only [Option.map_some, Option.some.injEq]
      by_cases e : fibPos lv n i j = k
      · rw [if_pos e, if_pos e.symm]
      · rw [if_neg e, if_neg (fun h => e h.symm)]
  obtain ⟨l', e, hf⟩ := pw.result' hg hbuf
  refine ⟨_, ?_, hf.congr (fun k hk => ?_)⟩
  · simp only [K.extBw, ix_cons_zero, ok_bind, hx.shape, hy.shape, Shape.sizeU_eq hy.small, hlvu, hpx, hpy, hpgy, hpg, hn,
      check_true _ (Or.inr (Nat.ne_of_gt hlv0))]
    show (loop s.size body lg >>= _) = _
    rw [e]; rfl
  · rw [hsx] at hk
    have hsrc : fibSrc lv n k < s.size := by rw [hsy]; exact fibSrc_lt hk
    have hn0 : 0 < n := by
      rcases Nat.eq_zero_or_pos n with h | h
      · rw [h] at hk; simp at hk
      · exact h
    refine (foldN_one (fibSrc lv n k) hsrc (fun i hi hne t => ?_) ?_).symm
    · rw [if_neg]
      intro h
      rw [Option.map_eq_some_iff] at h
      obtain ⟨j, hj, rfl⟩ := h
      exact hne (fibSrc_fibPos hlv0 (firstIdx_lt hj).1).symm
    · show _ = if firstIdx n (P (fibSrc lv n k)) = some (k / lv % n) then _ else _
      by_cases h : firstIdx n (P (fibSrc lv n k)) = some (k / lv % n)
      · rw [if_pos h, h, Option.map_some, fibPos_self hlv0, if_pos rfl]
      · rw [if_neg h, if_neg]
        intro h'
        rw [Option.map_eq_some_iff] at h'
        obtain ⟨j, hj, hjk⟩ := h'
        apply h
        rw [hj]
        congr 1
        rw [← hjk] at hj ⊢
        rw [fibPos_idx hlv0 (firstIdx_lt hj).1]


/-! ## Scatter kernels -/

theorem foldN_mul {σ : Type} (b v : Nat) (f : Nat → σ → σ) (s : σ) :
    foldN (b * v) f s = foldN b (fun n a => foldN v (fun i a => f (n * v + i) a) a) s := by
  induction b with
  | zero => simp [foldN]
  | succ b ih =>
    have : ∀ w, foldN (b * v + w) f s = foldN w (fun i a => f (b * v + i) a) (foldN (b * v) f s) := by
      intro w
      induction w with
      | zero => rfl
      | succ w ihw => rw [← Nat.add_assoc, foldN_succ, foldN_succ, ihw]
    rw [Nat.succ_mul, this, foldN_succ, ih]

theorem sliceBw_ok {gy g : Tensor α} {sx s : Shape} {fgy fg : Nat → α} {dim off : Nat} {xs ys rg u f}
    (hgy : gy.Flat d s fgy) (hg : g.Flat d sx fg) (hd : ∀ i, i ≠ dim → sx.get i = s.get i)
    (ho : off + s.get dim ≤ sx.get dim) (hb : sx.batch = s.batch) :
    ∃ g', K.sliceBw p m xs ys (gy :: rg) (dim :: off :: u) f g = ok g' ∧
      g'.Flat d sx (fun k => foldN s.size (fun i a =>
        if s.lowerVolume dim * off + s.lowerVolume dim * sx.get dim * (i / (s.lowerVolume dim * s.get dim)) +
          i % (s.lowerVolume dim * s.get dim) = k then a + fgy i else a) (fg k)) := by
  obtain ⟨lgy, hpgy, _, hlgy, hrg⟩ := hgy.ptr
  obtain ⟨lg, hpg, hbuf, hlg⟩ := hg.room.ptr
  have hlv0 : 0 < s.lowerVolume dim := hgy.wf.lowerVolume_pos dim
  have hbase := lowerVolume_congr hg.wf hgy.wf hd
  have hsy := size_axis hgy.wf hgy.wf (dim := dim) (fun _ _ => rfl) rfl
  have hsx := size_axis hg.wf hgy.wf hd hb
  have hvx : sx.volume = s.lowerVolume dim * sx.get dim * s.up dim := by
    rw [hg.wf.volume_split dim, hbase, up_congr hd]
  have hvy := hgy.wf.volume_split dim
  have hxp : 0 < sx.get dim := hg.wf.get_pos dim
  have hyp : 0 < s.get dim := hgy.wf.get_pos dim
  generalize hlv : s.lowerVolume dim = lv at *
  generalize hn : sx.get dim = n at *
  generalize hm : s.get dim = w at *
  generalize hU : s.up dim = U at *
  have hpos : ∀ b i j, b < s.batch → i < U → j < lv * w → lv * off + (lv * n * U * b + lv * n * i + j) < lg.length := by
    intro b i j hb' hi hj
    have h1 : lv * off + j < lv * n := by
      have : lv * (off + w) ≤ lv * n := Nat.mul_le_mul_left _ ho
      rw [Nat.mul_add] at this; omega
    have h2 : lv * n * U * b + lv * n * i + lv * n ≤ lv * n * (U * s.batch) := by
      have : U * b + i + 1 ≤ U * s.batch := by
        have : U * (b + 1) ≤ U * s.batch := Nat.mul_le_mul_left _ hb'
        rw [Nat.mul_add] at this; omega
      calc _ = lv * n * (U * b + i + 1) := by ring
        _ ≤ _ := Nat.mul_le_mul_left _ this
    omega
  have pw : PW lg.length (loop s.batch fun b => loop U fun i => loop (lv * w) fun j t =>
        (rd lgy (b * (U * (lv * w)) + (i * (lv * w) + j)) >>= fun g =>
          upd t (lv * off + (lv * n * U * b + lv * n * i + j)) (fun a => a + g)))
      (fun k => foldN s.batch fun b => foldN U fun i => foldN (lv * w) fun j a =>
        if k = lv * off + (lv * n * U * b + lv * n * i + j) then
          a + fgy (b * (U * (lv * w)) + (i * (lv * w) + j)) else a) := by
    refine PW.loop fun b hb' => PW.loop fun i hi => PW.loop fun j hj => ?_
    refine (PW.upd (p := lv * off + (lv * n * U * b + lv * n * i + j))
      (f := fun a => a + fgy (b * (U * (lv * w)) + (i * (lv * w) + j))) (hpos b i j hb' hi hj)).congr (fun t _ => ?_)
      (fun _ _ _ => rfl)
    have : b * (U * (lv * w)) + (i * (lv * w) + j) < s.size := by
      rw [hsy]
      have h := nm_lt hb' (nm_lt hi hj)
      calc _ < s.batch * (U * (lv * w)) := h
        _ = _ := by ring
    rw [hrg _ this, ok_bind]
  obtain ⟨l', e, hf⟩ := pw.result' hg hbuf
  refine ⟨_, ?_, hf.congr (fun k hk => ?_)⟩
  · have hrep : sx.volume / (lv * n) = U := by
      rw [hvx, Nat.mul_div_cancel_left _ (Nat.mul_pos hlv0 hxp)]
    simp only [K.sliceBw, ix_cons_zero, ix_cons_one, ok_bind, hgy.shape, hg.shape, Shape.lowerVolumeU_eq hg.wf, hbase, hn, hm,
      check_true _ (Nat.ne_of_gt (Nat.mul_pos hlv0 hxp)), hrep, hpgy, hpg, hasBatch_if, hb, Nat.max_self]
    have hstep : ∀ b, b < s.batch → ∀ t : List α,
        (loop U (fun i (st : Nat × List α) =>
          loop (lv * w) (fun j (st : Nat × List α) => (rd lgy st.1 >>= fun g =>
            upd st.2 (lv * off + (if s.batch = 1 then 0 else sx.volume) * b + lv * n * i + j) (fun w => w + g) >>= fun dest =>
            ok (st.1 + 1, dest))) st) ((if s.batch = 1 then 0 else s.volume) * b, t) >>= fun st => ok st.2) =
        loop U (fun i => loop (lv * w) fun j t =>
          (rd lgy (b * (U * (lv * w)) + (i * (lv * w) + j)) >>= fun g =>
            upd t (lv * off + (lv * n * U * b + lv * n * i + j)) (fun a => a + g))) t := by
      intro b hb' t
      have e1 : (if s.batch = 1 then 0 else s.volume) * b = b * (U * (lv * w)) := by
        by_cases h : s.batch = 1
        · have : b = 0 := by omega
          subst this; simp
        · rw [if_neg h, hvy]; ring
      have e2 : (if s.batch = 1 then 0 else sx.volume) * b = lv * n * U * b := by
        by_cases h : s.batch = 1
        · have : b = 0 := by omega
          subst this; simp
        · rw [if_neg h, hvx]
      rw [e1]
      rw [loop_ghost (fun i => b * (U * (lv * w)) + i * (lv * w)) (fun i => loop (lv * w) fun j t =>
          (rd lgy (b * (U * (lv * w)) + (i * (lv * w) + j)) >>= fun g =>
            upd t (lv * off + (lv * n * U * b + lv * n * i + j)) (fun a => a + g))) (by simp) (fun i _ t => ?_)]
      · rw [Res.bind_assoc]
        simp only [ok_bind]
        exact Res.bind_ok _
      · rw [loop_ghost (fun j => b * (U * (lv * w)) + i * (lv * w) + j) (fun j t =>
          (rd lgy (b * (U * (lv * w)) + (i * (lv * w) + j)) >>= fun g =>
            upd t (lv * off + (lv * n * U * b + lv * n * i + j)) (fun a => a + g))) (by simp) (fun j _ t => ?_)]
        · rw [show b * (U * (lv * w)) + i * (lv * w) + lv * w = b * (U * (lv * w)) + (i + 1) * (lv * w) by
            rw [Nat.succ_mul]; omega]
        · simp only [Res.bind_assoc, e2, Nat.add_assoc]
    rw [loop_congr (fun b hb' t => hstep b hb' t), e]
    rfl
  · rw [hsy, show lv * w * (U * s.batch) = s.batch * (U * (lv * w)) by ring, foldN_mul]
    refine foldN_congr (fun b hb' a => ?_)
    rw [foldN_mul]
    refine foldN_congr (fun i hi a => foldN_congr (fun j hj a => ?_))
    have hq : (b * (U * (lv * w)) + (i * (lv * w) + j)) = j + lv * w * (U * b + i) := by ring
    obtain ⟨h1, h2⟩ := flat_div (base := lv * w) (q := U * b + i) hj
    have hp : lv * off + lv * n * ((b * (U * (lv * w)) + (i * (lv * w) + j)) / (lv * w)) +
        (b * (U * (lv * w)) + (i * (lv * w) + j)) % (lv * w) = lv * off + (lv * n * U * b + lv * n * i + j) := by
      rw [hq, h1, h2]; ring
    rw [hp]
    by_cases h : k = lv * off + (lv * n * U * b + lv * n * i + j)
    · rw [if_pos h, if_pos h.symm]
    · rw [if_neg h, if_neg (fun h' => h h'.symm)]

theorem pickBw_ok {gy g : Tensor α} {sx s : Shape} {fgy fg : Nat → α} {dim : Nat} {ids : List Nat} {id : Nat → Nat} {xs ys rg f}
    (hgy : gy.Flat d s fgy) (hg : g.Flat d sx fg) (hd : ∀ i, i ≠ dim → sx.get i = s.get i) (h1 : s.get dim = 1)
    (hb : sx.batch = 1 ∨ sx.batch = s.batch)
    (hids : ∀ b, b < s.batch → ids[b * (if 1 < ids.length then 1 else 0)]? = some (id b))
    (hlt : ∀ b, b < s.batch → id b < sx.get dim) :
    ∃ g', K.pickBw p m xs ys (gy :: rg) (dim :: ids) f g = ok g' ∧
      g'.Flat d sx (fun k => foldN s.batch (fun b => foldN (s.up dim) fun i => foldN (s.lowerVolume dim) fun j a =>
        if k = (if sx.batch = 1 then 0 else b) * sx.volume + s.lowerVolume dim * id b
            + (s.lowerVolume dim * sx.get dim * i + j) then
          a + fgy (b * s.volume + (i * s.lowerVolume dim + j)) else a) (fg k)) := by
  obtain ⟨lgy, hpgy, _, hlgy, hrg⟩ := hgy.ptr
  obtain ⟨lg, hpg, hbuf, hlg⟩ := hg.room.ptr
  have hlv0 : 0 < s.lowerVolume dim := hgy.wf.lowerVolume_pos dim
  have hbase := lowerVolume_congr hg.wf hgy.wf hd
  have hvx : sx.volume = s.lowerVolume dim * sx.get dim * s.up dim := by
    rw [hg.wf.volume_split dim, hbase, up_congr hd]
  have hvy : s.volume = s.up dim * s.lowerVolume dim := by
    rw [hgy.wf.volume_split dim, h1, Nat.mul_one, Nat.mul_comm]
  have hsy : s.size = s.batch * s.volume := rfl
  have hsx : sx.size = sx.batch * sx.volume := rfl
  generalize hlv : s.lowerVolume dim = lv at *
  generalize hn : sx.get dim = n at *
  generalize hU : s.up dim = U at *
  have hbb : ∀ b, b < s.batch → (if sx.batch = 1 then 0 else b) < sx.batch := by
    intro b hb'
    by_cases h : sx.batch = 1
    · rw [if_pos h]; omega
    · rw [if_neg h]; omega
  have hpos : ∀ b i j, b < s.batch → i < U → j < lv →
      (if sx.batch = 1 then 0 else b) * sx.volume + lv * id b + (lv * n * i + j) < lg.length := by
    intro b i j hb' hi hj
    have h2 : lv * id b + (lv * n * i + j) < sx.volume := by
      rw [hvx]
      have h3 : id b + n * i < n * U := flat_lt (hlt b hb') hi
      have h4 : j + lv * (id b + n * i) < lv * (n * U) := flat_lt hj h3
      calc _ = j + lv * (id b + n * i) := by ring
        _ < lv * (n * U) := h4
        _ = _ := by ring
    have := nm_lt (hbb b hb') h2
    omega
  have pw : PW lg.length (loop s.batch fun b => loop U fun i => loop lv fun j t =>
        (rd lgy (b * s.volume + (i * lv + j)) >>= fun g =>
          upd t ((if sx.batch = 1 then 0 else b) * sx.volume + lv * id b + (lv * n * i + j)) (fun a => a + g)))
      (fun k => foldN s.batch fun b => foldN U fun i => foldN lv fun j a =>
        if k = (if sx.batch = 1 then 0 else b) * sx.volume + lv * id b + (lv * n * i + j) then
          a + fgy (b * s.volume + (i * lv + j)) else a) := by
    refine PW.loop fun b hb' => PW.loop fun i hi => PW.loop fun j hj => ?_
    refine (PW.upd (p := (if sx.batch = 1 then 0 else b) * sx.volume + lv * id b + (lv * n * i + j))
      (f := fun a => a + fgy (b * s.volume + (i * lv + j))) (hpos b i j hb' hi hj)).congr (fun t _ => ?_)
      (fun _ _ _ => rfl)
    have : b * s.volume + (i * lv + j) < s.size := nm_lt hb' (by rw [hvy]; exact nm_lt hi hj)
    rw [hrg _ this, ok_bind]
  obtain ⟨l', e, hf⟩ := pw.result' hg hbuf
  refine ⟨_, ?_, hf⟩
  have hrep : s.volume / lv = U := by rw [hvy, Nat.mul_div_cancel _ hlv0]
  simp only [K.pickBw, ix_cons_zero, ok_bind, hgy.shape, hg.shape, Shape.lowerVolumeU_eq hgy.wf, hlv, hn,
    check_true _ (Nat.ne_of_gt hlv0), hrep, hpgy, hpg, hasBatch_if, List.drop_one, List.tail_cons]
  rw [loop_ghost (fun b => b * s.volume) (fun b => loop U fun i => loop lv fun j t =>
        (rd lgy (b * s.volume + (i * lv + j)) >>= fun g =>
          upd t ((if sx.batch = 1 then 0 else b) * sx.volume + lv * id b + (lv * n * i + j)) (fun a => a + g)))
      (by simp) (fun b hb' t => ?_), e]
  · rfl
  · rw [ix_some (hids b hb'), ok_bind]
    rw [loop_ghost (fun i => b * s.volume + i * lv) (fun i => loop lv fun j t =>
        (rd lgy (b * s.volume + (i * lv + j)) >>= fun g =>
          upd t ((if sx.batch = 1 then 0 else b) * sx.volume + lv * id b + (lv * n * i + j)) (fun a => a + g)))
      (by simp) (fun i hi t => ?_)]
    · rw [show b * s.volume + U * lv = (b + 1) * s.volume by rw [Nat.succ_mul, hvy]]
    · rw [loop_ghost (fun j => b * s.volume + i * lv + j) (fun j t =>
        (rd lgy (b * s.volume + (i * lv + j)) >>= fun g =>
          upd t ((if sx.batch = 1 then 0 else b) * sx.volume + lv * id b + (lv * n * i + j)) (fun a => a + g)))
        (by simp) (fun j hj t => ?_)]
      · rw [show b * s.volume + i * lv + lv = b * s.volume + (i + 1) * lv by rw [Nat.succ_mul]; omega]
      · have e1 : b * (if sx.batch = 1 then 0 else sx.volume) = (if sx.batch = 1 then 0 else b) * sx.volume := by
          by_cases h : sx.batch = 1
          · simp [h]
          · rw [if_neg h, if_neg h]
        simp only [Res.bind_assoc, Nat.add_assoc, e1]

theorem batchPickBw_ok {gy g : Tensor α} {sx s : Shape} {fgy fg : Nat → α} {ids : List Nat} {id : Nat → Nat} {xs ys rg f}
    (hgy : gy.Flat d s fgy) (hg : g.Flat d sx fg) (hv : sx.volume = s.volume)
    (hids : ∀ b, b < s.batch → ids[b]? = some (id b)) (hlt : ∀ b, b < s.batch → id b < sx.batch) :
    ∃ g', K.batchPickBw p m xs ys (gy :: rg) ids f g = ok g' ∧
      g'.Flat d sx (fun k => foldN s.batch (fun b a =>
        if k / s.volume = id b then a + fgy (b * s.volume + k % s.volume) else a) (fg k)) := by
  obtain ⟨lgy, hpgy, _, hlgy, hrg⟩ := hgy.ptr
  obtain ⟨lg, hpg, hbuf, hlg⟩ := hg.room.ptr
  have hsy : s.size = s.batch * s.volume := rfl
  have hsx : sx.size = sx.batch * s.volume := by unfold Shape.size; rw [hv]
  have hvp : 0 < s.volume := hgy.wf.volume_pos
  have pw : PW lg.length (loop s.batch fun b => fun t => (ix ids b >>= fun id => loop s.volume (fun i t =>
        (rd lgy (s.volume * b + i) >>= fun g => upd t (s.volume * id + i) (fun a => a + g))) t))
      (fun k => foldN s.batch fun b => foldN s.volume fun i a =>
        if k = s.volume * id b + i then a + fgy (b * s.volume + i) else a) := by
    refine PW.loop fun b hb' => ?_
    refine (PW.loop (n := s.volume) (φ := fun i k a => if k = s.volume * id b + i then a + fgy (b * s.volume + i) else a)
      (body := fun i t => (rd lgy (s.volume * b + i) >>= fun g => upd t (s.volume * id b + i) (fun a => a + g)))
      fun i hi => ?_).congr (fun t _ => by rw [ix_some (hids b hb'), ok_bind]) (fun _ _ _ => rfl)
    have hp : s.volume * id b + i < lg.length := by
      have := nm_lt (hlt b hb') hi
      rw [Nat.mul_comm (id b)] at this; omega
    refine (PW.upd (p := s.volume * id b + i) (f := fun a => a + fgy (b * s.volume + i)) hp).congr (fun t _ => ?_)
      (fun _ _ _ => rfl)
    rw [Nat.mul_comm s.volume b, hrg _ (nm_lt hb' hi), ok_bind]
  obtain ⟨l', e, hf⟩ := pw.result' hg hbuf
  refine ⟨_, ?_, hf.congr (fun k hk => ?_)⟩
  · simp only [K.batchPickBw, ix_cons_zero, ok_bind, hgy.shape, hg.shape, hpgy, hpg, hv, e]
  · refine foldN_congr (fun b hb' a => ?_)
    by_cases h : k / s.volume = id b
    · rw [if_pos h]
      have hk' : k = s.volume * id b + k % s.volume := by rw [← h]; exact (Nat.div_add_mod k _).symm
      exact (foldN_one (k % s.volume) (Nat.mod_lt _ hvp) (fun i _ hne t => by
        rw [if_neg (by omega)]) (by rw [if_pos hk'])).symm
    · rw [if_neg h]
      refine (foldN_id (fun i hi t => ?_)).symm
      rw [if_neg]
      intro e
      apply h
      rw [e, Nat.mul_comm, Nat.add_comm, Nat.add_mul_div_right _ _ hvp, Nat.div_eq_of_lt hi, Nat.zero_add]

theorem batchSliceBw_ok {gy g : Tensor α} {sx s : Shape} {fgy fg : Nat → α} {off : Nat} {xs ys rg u f}
    (hgy : gy.Flat d s fgy) (hg : g.Flat d sx fg) (hv : sx.volume = s.volume) (ho : off + s.batch ≤ sx.batch) :
    ∃ g', K.batchSliceBw p m xs ys (gy :: rg) (off :: u) f g = ok g' ∧
      g'.Flat d sx (fun k => if s.volume * off ≤ k ∧ k < s.volume * off + s.size then fg k + fgy (k - s.volume * off)
        else fg k) := by
  obtain ⟨lgy, hpgy, _, hlgy, hrg⟩ := hgy.ptr
  obtain ⟨lg, hpg, hbuf, hlg⟩ := hg.room.ptr
  have hsy : s.volume * s.batch = s.size := by unfold Shape.size; rw [Nat.mul_comm]
  have hsx : s.volume * off + s.size ≤ sx.size := by
    unfold Shape.size; rw [hv]
    calc _ = (off + s.batch) * s.volume := by ring
      _ ≤ _ := Nat.mul_le_mul_right _ ho
  have pw : PW lg.length (loop s.size fun i t => (rd lgy i >>= fun g => upd t (s.volume * off + i) (fun a => a + g)))
      (fun k => foldN s.size fun i a => if k = s.volume * off + i then a + fgy i else a) := by
    refine PW.loop fun i hi => ?_
    refine (PW.upd (p := s.volume * off + i) (f := fun a => a + fgy i) (by omega)).congr (fun t _ => ?_) (fun _ _ _ => rfl)
    rw [hrg _ hi, ok_bind]
  obtain ⟨l', e, hf⟩ := pw.result' hg hbuf
  refine ⟨_, ?_, hf.congr (fun k hk => ?_)⟩
  · simp only [K.batchSliceBw, ix_cons_zero, ok_bind, hgy.shape, hpgy, hpg, hsy, e]
  · by_cases h : s.volume * off ≤ k ∧ k < s.volume * off + s.size
    · rw [if_pos h]
      refine (foldN_one (k - s.volume * off) (by omega) (fun i _ hne t => by rw [if_neg (by omega)]) ?_).symm
      rw [if_pos (by omega)]
    · rw [if_neg h]
      refine (foldN_id (fun i hi t => by rw [if_neg (by omega)])).symm

theorem flipBw_ok {gy g : Tensor α} {s : Shape} {fgy fg : Nat → α} {dim : Nat} {xs ys rg u f}
    (hgy : gy.Flat d s fgy) (hg : g.Flat d s fg) :
    ∃ g', K.flipBw p m xs ys (gy :: rg) (dim :: u) f g = ok g' ∧
      g'.Flat d s (fun k => fg k + fgy (fibPos (s.lowerVolume dim) (s.get dim) (fibSrc (s.lowerVolume dim) (s.get dim) k)
        (s.get dim - k / s.lowerVolume dim % s.get dim - 1))) := by
  obtain ⟨lx, hpx, _, _, hr⟩ := hgy.ptr
  obtain ⟨ly, hpy, hbuf, hly⟩ := hg.room.ptr
  have hsz := size_axis hg.wf hg.wf (dim := dim) (fun _ _ => rfl) rfl
  have hlv := hg.wf.lowerVolume_pos dim
  have hn1 := hg.wf.get_pos dim
  generalize hH : s.up dim * s.batch = H at hsz
  generalize hbase : s.lowerVolume dim = lv at *
  generalize hn : s.get dim = n at *
  have hoff : ∀ i, i * n - i % lv * (n - 1) = i % lv + i / lv * (lv * n) := by
    intro i
    obtain ⟨n', rfl⟩ : ∃ n', n = n' + 1 := ⟨n - 1, by omega⟩
    have e : i * (n' + 1) = i % lv * n' + (i % lv + i / lv * (lv * (n' + 1))) := by
      have h : i = i % lv + i / lv * lv := (Nat.mod_add_div' i lv).symm
      calc i * (n' + 1) = (i % lv + i / lv * lv) * (n' + 1) := by rw [← h]
        _ = _ := by ring
    rw [e, Nat.add_sub_cancel, Nat.add_sub_cancel_left]
  have pw : PW ly.length (loop n fun j => loop (lv * H) fun i py =>
        (rd lx (i * n - i % lv * (n - 1) + (n - j - 1) * lv) >>= fun v =>
          upd py (i * n - i % lv * (n - 1) + j * lv) (fun w => w + v)))
      (fun k => foldN n fun j => foldN (lv * H) fun i a =>
        if k = fibPos lv n i j then a + fgy (fibPos lv n i (n - j - 1)) else a) := by
    refine PW.loop fun j hj => PW.loop fun i hi => ?_
    have h1 := fibPos_lt hi hj
    have h2 := fibPos_lt (n := n) hi (j := n - j - 1) (by omega)
    refine (PW.upd (p := fibPos lv n i j) (f := fun a => a + fgy (fibPos lv n i (n - j - 1))) (by omega)).congr
      (fun t _ => ?_) (fun _ _ _ => rfl)
    rw [hoff]
    show (rd lx (fibPos lv n i (n - j - 1)) >>= fun v => upd t (fibPos lv n i j) (fun w => w + v)) = _
    rw [hr _ (by omega), ok_bind]
  obtain ⟨l', e, hf⟩ := pw.result' hg hbuf
  refine ⟨_, ?_, hf.congr (fun k hk => ?_)⟩
  · have hr2 : s.size / n = lv * H := by
      rw [hsz, Nat.mul_right_comm, Nat.mul_div_cancel _ hn1]
    simp only [K.flipBw, ix_cons_zero, ok_bind, hg.shape, Shape.sizeU_eq hg.small, Shape.lowerVolumeU_eq hg.wf, check_true _ (Or.inr (Nat.ne_of_gt hlv)),
      hpx, hpy, hbase, hn, hr2, e]
  · refine (foldN_fib' (f := fun i j a => if k = fibPos lv n i j then a + fgy (fibPos lv n i (n - j - 1)) else a)
      (by rw [← hsz]; exact hk) (fun i j _ _ hne t => by rw [if_neg (fun e => hne e.symm)]) ?_).symm
    rw [fibPos_self hlv, if_pos rfl]

theorem permuteBw_ok {gy g : Tensor α} {sx s : Shape} {fgy fg : Nat → α} {perm : List Nat} {n : Nat} {π τ : Nat → Nat} {xs ys rg f}
    (h : IsPerm perm n π τ) (hgy : gy.Flat d s fgy) (hg : g.Flat d sx fg) (hb : sx.batch = s.batch)
    (hd : ∀ i, i < n → s.get i = sx.get (π i)) (hvx : volN sx.get n = sx.volume) (hvy : volN s.get n = s.volume)
    (hv : sx.volume = s.volume) :
    ∃ g', K.permuteBw p m xs ys (gy :: rg) perm f g = ok g' ∧
      g'.Flat d sx (fun k => fg k + fgy (k / sx.volume * sx.volume + offN s.get (fun i => sx.coord (k % sx.volume) (π i)) n)) := by
  obtain ⟨lx, hpx, _, _, hr⟩ := hgy.ptr
  obtain ⟨ly, hpy, hbuf, hly⟩ := hg.room.ptr
  obtain ⟨pxs, pys, e0, hl1, _, hxs, hys⟩ := permStrides_ok (sx := sx) (sy := s) h
  let P : Nat → Nat := fun i => offN s.get (fun m => sx.coord i (π m)) n
  have hPlt : ∀ i, P i < sx.volume := fun i => by
    rw [hv, ← hvy]; exact offN_lt (fun m hm => by rw [hd m hm]; exact Nat.mod_lt _ (hg.wf.get_pos _))
  have hvp := hg.wf.volume_pos
  have hsz : sx.size = sx.batch * sx.volume := rfl
  have pw : PW ly.length (loop sx.batch fun n => loop sx.volume fun i py => (permPos pxs pys i >>= fun j =>
        rd lx (n * sx.volume + j) >>= fun v => upd py (n * sx.volume + i) (fun w => w + v)))
      (fun k => foldN sx.batch fun n => foldN sx.volume fun i a =>
        if k = n * sx.volume + i then a + fgy (n * sx.volume + P i) else a) := by
    refine PW.loop fun b hb' => PW.loop fun i hi => ?_
    have h1 : b * sx.volume + i < sx.size := nm_lt hb' hi
    have h2 : b * sx.volume + P i < s.size := by
      have := nm_lt hb' (hPlt i)
      unfold Shape.size; rw [← hb, ← hv]; exact this
    refine (PW.upd (p := b * sx.volume + i) (f := fun a => a + fgy (b * sx.volume + P i)) (by omega)).congr (fun t _ => ?_)
      (fun _ _ _ => rfl)
    rw [permPos_ok hg.wf h hl1 hxs hys (by rw [hvx]; exact hi), ok_bind, hr _ h2, ok_bind]
  obtain ⟨l', e, hf⟩ := pw.result' hg hbuf
  refine ⟨_, ?_, hf.congr (fun k hk => ?_)⟩
  · simp only [K.permuteBw, ix_cons_zero, ok_bind, hg.shape, hgy.shape, hpx, hpy, iter, e0]
    rw [loop_ghost (fun n => (n * sx.volume, n * sx.volume)) (fun n => loop sx.volume fun i py => (permPos pxs pys i >>= fun j =>
          rd lx (n * sx.volume + j) >>= fun v => upd py (n * sx.volume + i) (fun w => w + v))) (by simp)
      (fun n _ t => by simp only [Nat.succ_mul n]), e]
    rfl
  · refine (foldN_rect (f := fun n i a => if k = n * sx.volume + i then a + fgy (n * sx.volume + P i) else a)
      hk (fun b i _ _ hne t => by rw [if_neg (fun e => hne e.symm)]) ?_).symm
    rw [if_pos (Nat.div_add_mod' k sx.volume).symm]

end K
end Verif
