import Verif.FwLemmas2

/-!
# What the forward kernels compute, on flat positions (3): transpose, triangular, pick, concat, matmul
-/

namespace Verif
open Res
variable {α : Type} {d : Nat} {p : Profile}

/-- Three nested store loops over a box. -/
theorem foldN_box {σ : Type} {b m v k : Nat} {f : Nat → Nat → Nat → σ → σ} {s r : σ} (hk : k < b * (m * v))
    (h : ∀ n i j, n < b → i < m → j < v → n * (m * v) + (i * v + j) ≠ k → ∀ t, f n i j t = t)
    (hr : f (k / (m * v)) (k % (m * v) / v) (k % v) s = r) :
    foldN b (fun n a => foldN m (fun i a => foldN v (fun j a => f n i j a) a) a) s = r := by
  have hmv : 0 < m * v := by
    rcases Nat.eq_zero_or_pos (m * v) with h0 | h0
    · rw [h0] at hk; simp at hk
    · exact h0
  have hv : 0 < v := Nat.pos_of_mul_pos_left hmv
  have hkd : k / (m * v) < b := (Nat.div_lt_iff_lt_mul hmv).mpr hk
  have hkk : k / (m * v) * (m * v) + k % (m * v) = k := Nat.div_add_mod' k (m * v)
  refine foldN_one (k / (m * v)) hkd (fun n hn hne t => foldN_id (fun i hi t => foldN_id fun j hj t =>
    h n i j hn hi hj (fun e => hne ?_) t)) ?_
  · have hlt : i * v + j < m * v := nm_lt hi hj
    rw [← e, Nat.add_comm, Nat.add_mul_div_right _ _ hmv, Nat.div_eq_of_lt hlt, Nat.zero_add]
  · refine foldN_rect (f := fun i j a => f (k / (m * v)) i j a) (k := k % (m * v)) (Nat.mod_lt _ hmv)
      (fun i j hi hj hne t => h _ i j hkd hi hj (fun e => hne (by omega)) t) ?_
    rw [Nat.mod_mul_left_mod]; exact hr

namespace K

theorem transposeFw_ok {x y : Tensor α} {sx s : Shape} {g : Nat → α} {rest u f}
    (hx : x.Flat d sx g) (hy : y.Room d s) (hsx : sx.size = s.size)
    (hvx : s.size = s.batch * (sx.get 0 * sx.get 1)) :
    ∃ y', K.transposeFw p (x :: rest) u f y = ok y' ∧
      y'.Flat d s (fun k => g (k / (sx.get 0 * sx.get 1) * (sx.get 0 * sx.get 1) +
        (k % sx.get 1 * sx.get 0 + k % (sx.get 0 * sx.get 1) / sx.get 1))) := by
  obtain ⟨lx, hpx, _, _, hr⟩ := hx.ptr
  obtain ⟨ly, hpy, _, hly⟩ := hy.ptr
  generalize hd1 : sx.get 0 = d1 at *
  generalize hd2 : sx.get 1 = d2 at *
  have pw : PW ly.length (loop s.batch fun n => loop d2 fun j => loop d1 fun i py =>
        (rd lx (n * (d1 * d2) + (j * d1 + i)) >>= fun v => wr py (n * (d1 * d2) + (i * d2 + j)) v))
      (fun k => foldN s.batch fun n => foldN d2 fun j => foldN d1 fun i a =>
        if k = n * (d1 * d2) + (i * d2 + j) then g (n * (d1 * d2) + (j * d1 + i)) else a) := by
    refine PW.loop fun n hn => PW.loop fun j hj => PW.loop fun i hi => ?_
    have h1 : n * (d1 * d2) + (i * d2 + j) < s.size := by
      rw [hvx]; exact nm_lt hn (nm_lt hi hj)
    have h2 : n * (d1 * d2) + (j * d1 + i) < sx.size := by
      rw [hsx, hvx]; exact nm_lt hn (by rw [Nat.mul_comm d1 d2]; exact nm_lt hj hi)
    exact (PW.wr (p := n * (d1 * d2) + (i * d2 + j)) (by omega)).congr (fun t _ => by rw [hr _ h2, ok_bind]) (fun _ _ _ => rfl)
  obtain ⟨l', e, hf⟩ := pw.result hy hly (g := fun k => g (k / (d1 * d2) * (d1 * d2) +
        (k % d2 * d1 + k % (d1 * d2) / d2))) (fun k hk a => by
    rw [hvx] at hk
    have hmv : 0 < d1 * d2 := by
      rcases Nat.eq_zero_or_pos (d1 * d2) with h0 | h0
      · rw [h0] at hk; simp at hk
      · exact h0
    have hv2 : 0 < d2 := Nat.pos_of_mul_pos_left hmv
    have hv1 : 0 < d1 := Nat.pos_of_mul_pos_right hmv
    have hkk := Nat.div_add_mod' k (d1 * d2)
    have hq := Nat.mod_lt k hmv
    have hqd : k % (d1 * d2) / d2 < d1 := (Nat.div_lt_iff_lt_mul hv2).mpr hq
    have hqm : k % (d1 * d2) % d2 = k % d2 := Nat.mod_mul_left_mod ..
    have hqq := Nat.div_add_mod' (k % (d1 * d2)) d2
    refine foldN_one (k / (d1 * d2)) ((Nat.div_lt_iff_lt_mul hmv).mpr hk)
      (fun n hn hne t => foldN_id (fun j hj t => foldN_id fun i hi t => ?_)) ?_
    · rw [if_neg]; intro e; apply hne
      have hlt : i * d2 + j < d1 * d2 := nm_lt hi hj
      rw [e, Nat.add_comm, Nat.add_mul_div_right _ _ hmv, Nat.div_eq_of_lt hlt, Nat.zero_add]
    · refine foldN_one (k % d2) (Nat.mod_lt _ hv2) (fun j hj hne t => foldN_id fun i hi t => ?_) ?_
      · rw [if_neg]; intro e; apply hne
        have e2 : k % (d1 * d2) = i * d2 + j := by omega
        rw [← hqm, e2, Nat.add_comm, Nat.add_mul_mod_self_right, Nat.mod_eq_of_lt hj]
      · refine foldN_one (k % (d1 * d2) / d2) hqd (fun i hi hne t => ?_) ?_
        · rw [if_neg]; intro e; apply hne
          have e2 : i * d2 = k % (d1 * d2) / d2 * d2 := by omega
          exact Nat.eq_of_mul_eq_mul_right hv2 e2
        · rw [if_pos (by omega)])
  refine ⟨_, ?_, hf⟩
  simp only [K.transposeFw, ix_cons_zero, ok_bind, hy.shape, hx.shape, hpx, hpy, iter, hd1, hd2]
  rw [loop_ghost (fun n => (n * (d1 * d2), n * (d1 * d2))) (fun n => loop d2 fun j => loop d1 fun i py =>
        (rd lx (n * (d1 * d2) + (j * d1 + i)) >>= fun v => wr py (n * (d1 * d2) + (i * d2 + j)) v)) (by simp)
    (fun n _ t => by
      rw [loop_ghost (fun j => (n * (d1 * d2) + j, n * (d1 * d2) + j * d1)) (fun j => loop d1 fun i py =>
        (rd lx (n * (d1 * d2) + (j * d1 + i)) >>= fun v => wr py (n * (d1 * d2) + (i * d2 + j)) v)) (by simp)
        (fun j _ t => by
          rw [loop_ghost (fun i => (n * (d1 * d2) + j + i * d2, n * (d1 * d2) + j * d1 + i)) (fun i py =>
            (rd lx (n * (d1 * d2) + (j * d1 + i)) >>= fun v => wr py (n * (d1 * d2) + (i * d2 + j)) v)) (by simp)
            (fun i _ t => by
              simp only [Res.bind_assoc]
              rw [show n * (d1 * d2) + j * d1 + i = n * (d1 * d2) + (j * d1 + i) by omega,
                show n * (d1 * d2) + j + i * d2 = n * (d1 * d2) + (i * d2 + j) by omega]
              refine Res.bind_congr fun v _ => Res.bind_congr fun w _ => ?_
              congr 3 <;> ring)]
          simp only [Res.bind_assoc, ok_bind]
          refine Res.bind_congr fun v _ => ?_
          congr 3
          ring)]
      simp only [Res.bind_assoc, ok_bind]
      refine Res.bind_congr fun v _ => ?_
      congr 3 <;> ring), e]
  rfl

theorem triangularFw_ok [Zero α] {lower : Bool} {x y : Tensor α} {s : Shape} {g : Nat → α} {c : Nat} {rest u f}
    (hx : x.Flat d s g) (hy : y.Room d s) (hsq : s.size = s.batch * (s.get 0 * s.get 0))
    (hc : ∀ j, j < s.get 0 → j + c < U32) :
    ∃ y', K.triangularFw lower p (x :: rest) (c :: u) f y = ok y' ∧
      y'.Flat d s (fun k =>
        let j := k % (s.get 0 * s.get 0) / s.get 0
        let i := k % s.get 0
        if (if lower then j + c ≤ i else i + c ≤ j) then g k else 0) := by
  obtain ⟨lx, hpx, _, _, hr⟩ := hx.ptr
  obtain ⟨ly, hpy, _, hly⟩ := hy.ptr
  generalize hm : s.get 0 = m at *
  have hstep : ∀ n j i, n < s.batch → j < m → i < m → ∀ t,
      ((if lower = true then (uadd p j c >>= fun t => ok (decide (t ≤ i))) else (uadd p i c >>= fun t => ok (decide (t ≤ j))))
        >>= fun keep => (if keep = true then rd lx (n * (m * m) + (j * m + i)) else ok 0) >>= fun v =>
          wr t (n * (m * m) + (j * m + i)) v) =
      wr t (n * (m * m) + (j * m + i)) (if (if lower then j + c ≤ i else i + c ≤ j) then g (n * (m * m) + (j * m + i)) else 0) := by
    intro n j i hn hj hi t
    have h2 : n * (m * m) + (j * m + i) < s.size := by rw [hsq]; exact nm_lt hn (nm_lt hj hi)
    cases lower
    · simp only [uadd, Shape.u32_ok (hc i hi), ok_bind, Bool.false_eq_true, if_false]
      by_cases h : i + c ≤ j
      · simp [h, hr _ h2]
      · simp [h]
    · simp only [uadd, Shape.u32_ok (hc j hj), ok_bind, if_true]
      by_cases h : j + c ≤ i
      · simp [h, hr _ h2]
      · simp [h]
  have pw : PW ly.length (loop s.batch fun n => loop m fun j => loop m fun i py =>
      wr py (n * (m * m) + (j * m + i)) (if (if lower then j + c ≤ i else i + c ≤ j) then g (n * (m * m) + (j * m + i)) else 0))
      (fun k => foldN s.batch fun n => foldN m fun j => foldN m fun i a => if k = n * (m * m) + (j * m + i) then
        (if (if lower then j + c ≤ i else i + c ≤ j) then g (n * (m * m) + (j * m + i)) else 0) else a) := by
    refine PW.loop fun n hn => PW.loop fun j hj => PW.loop fun i hi => PW.wr ?_
    have h2 : n * (m * m) + (j * m + i) < s.size := by rw [hsq]; exact nm_lt hn (nm_lt hj hi)
    omega
  obtain ⟨l', e, hf⟩ := pw.result hy hly (g := fun k =>
        let j := k % (m * m) / m
        let i := k % m
        if (if lower then j + c ≤ i else i + c ≤ j) then g k else 0) (fun k hk a => by
    rw [hsq] at hk
    refine foldN_box (f := fun n j i a => if k = n * (m * m) + (j * m + i) then
        (if (if lower then j + c ≤ i else i + c ≤ j) then g (n * (m * m) + (j * m + i)) else 0) else a)
      hk (fun n i j _ _ _ hne t => by rw [if_neg (fun e => hne e.symm)]) ?_
    have e1 : k % (m * m) / m * m + k % m = k % (m * m) := by
      rw [← Nat.mod_mul_left_mod k m m]; exact Nat.div_add_mod' _ _
    rw [e1, Nat.div_add_mod', if_pos rfl])
  refine ⟨_, ?_, hf⟩
  simp only [K.triangularFw, ix_cons_zero, ok_bind, hy.shape, hx.shape, hpx, hpy, iter, hm]
  rw [loop_ghost (fun n => n * (m * m)) (fun n => loop m fun j => loop m fun i py =>
      wr py (n * (m * m) + (j * m + i)) (if (if lower then j + c ≤ i else i + c ≤ j) then g (n * (m * m) + (j * m + i)) else 0))
    (by simp) (fun n hn t => by
      rw [loop_ghost (fun j => n * (m * m) + j * m) (fun j => loop m fun i py =>
        wr py (n * (m * m) + (j * m + i)) (if (if lower then j + c ≤ i else i + c ≤ j) then g (n * (m * m) + (j * m + i)) else 0))
        (by simp) (fun j hj t => by
          rw [loop_ghost (fun i => n * (m * m) + j * m + i) (fun i py =>
            wr py (n * (m * m) + (j * m + i)) (if (if lower then j + c ≤ i else i + c ≤ j) then g (n * (m * m) + (j * m + i)) else 0))
            (by simp) (fun i hi t => by
              rw [← hstep n j i hn hj hi t]
              simp only [Res.bind_assoc, Nat.add_assoc])]
          refine Res.bind_congr fun v _ => ?_
          congr 2; ring)]
      refine Res.bind_congr fun v _ => ?_
      congr 2; ring), e]
  rfl

theorem pickFw_ok {x y : Tensor α} {sx s : Shape} {g : Nat → α} {dim : Nat} {ids : List Nat} {id : Nat → Nat} {rest f}
    (hx : x.Flat d sx g) (hy : y.Room d s) (hd : ∀ i, i ≠ dim → sx.get i = s.get i) (h1 : s.get dim = 1)
    (hb : sx.batch = 1 ∨ sx.batch = s.batch)
    (hids : ∀ b, b < s.batch → ids[b * (if 1 < ids.length then 1 else 0)]? = some (id b))
    (hlt : ∀ b, b < s.batch → id b < sx.get dim) :
    ∃ y', K.pickFw p (x :: rest) (dim :: ids) f y = ok y' ∧
      y'.Flat d s (fun k => g ((if sx.batch = 1 then 0 else k / s.volume) * sx.volume +
        s.lowerVolume dim * id (k / s.volume) + s.lowerVolume dim * sx.get dim * (k % s.volume / s.lowerVolume dim)
          + k % s.lowerVolume dim)) := by
  obtain ⟨lx, hpx, _, _, hr⟩ := hx.ptr
  obtain ⟨ly, hpy, _, hly⟩ := hy.ptr
  have hvs : s.volume = s.up dim * s.lowerVolume dim := by
    rw [hy.wf.volume_split dim, h1]; ring
  have hvx : sx.volume = s.lowerVolume dim * sx.get dim * s.up dim := by
    rw [hx.wf.volume_split dim, Shape.lowerVolume_congr hx.wf hy.wf hd, Shape.up_congr hd]
  have hlv := hy.wf.lowerVolume_pos dim
  have hsz : s.size = s.batch * (s.up dim * s.lowerVolume dim) := by unfold Shape.size; rw [hvs]
  have hszx : sx.size = sx.batch * sx.volume := rfl
  generalize hU : s.up dim = U at *
  generalize hbase : s.lowerVolume dim = base at *
  generalize hn : sx.get dim = n at *
  generalize hsk : (if 1 < ids.length then 1 else 0) = skI at *
  have hrd : ∀ b i j, b < s.batch → i < U → j < base →
      rd lx (b * (if sx.batch = 1 then 0 else sx.volume) + base * id b + base * n * i + j) =
      ok (g ((if sx.batch = 1 then 0 else b) * sx.volume + base * id b + base * n * i + j)) := by
    intro b i j hb' hi hj
    have e1 : b * (if sx.batch = 1 then 0 else sx.volume) = (if sx.batch = 1 then 0 else b) * sx.volume := by
      by_cases h : sx.batch = 1 <;> simp [h]
    rw [e1]
    refine hr _ ?_
    have hbb : (if sx.batch = 1 then 0 else b) < sx.batch := by
      have := hx.wf.batch_pos
      by_cases h : sx.batch = 1
      · simp [h]
      · simp only [h, if_false]; omega
    have h2 : base * id b + base * n * i + j < sx.volume := by
      rw [hvx]
      calc base * id b + base * n * i + j < base * id b + base * n * i + base := by omega
        _ = base * (id b + 1) + base * n * i := by ring
        _ ≤ base * n + base * n * i := Nat.add_le_add_right (Nat.mul_le_mul_left _ (hlt b hb')) _
        _ = base * n * (i + 1) := by ring
        _ ≤ base * n * U := Nat.mul_le_mul_left _ hi
    have := nm_lt hbb h2
    rw [hszx]; omega
  have pw : PW ly.length (loop s.batch fun b py => (ix ids (b * skI) >>= fun id => loop U (fun i => loop base (fun j py =>
        (rd lx (b * (if sx.batch = 1 then 0 else sx.volume) + base * id + base * n * i + j) >>= fun v =>
          wr py (b * (U * base) + (i * base + j)) v))) py))
      (fun k => foldN s.batch fun b => foldN U fun i => foldN base fun j a =>
        if k = b * (U * base) + (i * base + j) then
          g ((if sx.batch = 1 then 0 else b) * sx.volume + base * id b + base * n * i + j) else a) := by
    refine PW.loop fun b hb => ?_
    refine (PW.loop (n := U) (body := fun i => loop base (fun j py =>
        (rd lx (b * (if sx.batch = 1 then 0 else sx.volume) + base * id b + base * n * i + j) >>= fun v =>
          wr py (b * (U * base) + (i * base + j)) v)))
      (φ := fun i k => foldN base fun j a =>
        if k = b * (U * base) + (i * base + j) then
          g ((if sx.batch = 1 then 0 else b) * sx.volume + base * id b + base * n * i + j) else a)
      fun i hi => PW.loop fun j hj => ?_).congr (fun t _ => by rw [ix_some (hids b hb), ok_bind]) (fun _ _ _ => rfl)
    have h2 : b * (U * base) + (i * base + j) < s.size := by rw [hsz]; exact nm_lt hb (nm_lt hi hj)
    exact (PW.wr (p := b * (U * base) + (i * base + j)) (by omega)).congr
      (fun t _ => by rw [hrd b i j hb hi hj, ok_bind]) (fun _ _ _ => rfl)
  obtain ⟨l', e, hf⟩ := pw.result hy hly (g := fun k => g ((if sx.batch = 1 then 0 else k / s.volume) * sx.volume +
        base * id (k / s.volume) + base * n * (k % s.volume / base) + k % base)) (fun k hk a => by
    rw [hsz] at hk
    rw [hvs]
    refine foldN_box (f := fun b i j a => if k = b * (U * base) + (i * base + j) then
          g ((if sx.batch = 1 then 0 else b) * sx.volume + base * id b + base * n * i + j) else a)
      hk (fun n i j _ _ _ hne t => by rw [if_neg (fun e => hne e.symm)]) ?_
    have e1 : k % (U * base) / base * base + k % base = k % (U * base) := by
      rw [← Nat.mod_mul_left_mod k U base]; exact Nat.div_add_mod' _ _
    rw [e1, Nat.div_add_mod', if_pos rfl])
  refine ⟨_, ?_, hf⟩
  simp only [K.pickFw, ix_cons_zero, ok_bind, hy.shape, hx.shape, hpx, hpy, hbase, hn, List.drop_succ_cons, List.drop_zero,
    Shape.lowerVolumeU_eq hy.wf, hasBatch_if, hsk, hvs, check_true _ (Nat.ne_of_gt hlv), Nat.mul_div_cancel _ hlv]
  rw [loop_ghost (fun b => b * (U * base)) (fun b py => (ix ids (b * skI) >>= fun id => loop U (fun i => loop base (fun j py =>
        (rd lx (b * (if sx.batch = 1 then 0 else sx.volume) + base * id + base * n * i + j) >>= fun v =>
          wr py (b * (U * base) + (i * base + j)) v))) py)) (by simp) (fun b hb t => by
      rw [Res.bind_assoc]
      refine Res.bind_congr fun id _ => ?_
      rw [loop_ghost (fun i => b * (U * base) + i * base) (fun i => loop base (fun j py =>
        (rd lx (b * (if sx.batch = 1 then 0 else sx.volume) + base * id + base * n * i + j) >>= fun v =>
          wr py (b * (U * base) + (i * base + j)) v))) (by simp) (fun i hi t => by
        rw [loop_ghost (fun j => b * (U * base) + i * base + j) (fun j py =>
          (rd lx (b * (if sx.batch = 1 then 0 else sx.volume) + base * id + base * n * i + j) >>= fun v =>
            wr py (b * (U * base) + (i * base + j)) v)) (by simp) (fun j hj t => by
            simp only [Res.bind_assoc, Nat.add_assoc])]
        refine Res.bind_congr fun v _ => ?_
        congr 2; ring)]
      refine Res.bind_congr fun v _ => ?_
      congr 2; ring), e]
  rfl

end K
end Verif
