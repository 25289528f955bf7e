import Verif.FwLemmas

/-!
# What the forward kernels compute, on flat positions (2): broadcast, matrices, slices, batches
-/

namespace Verif
open Res
variable {α : Type} {d : Nat} {p : Profile}

/-- The source position of position `k` of a broadcast result. -/
def fibSrc (lv n k : Nat) : Nat := k % lv + (k / (lv * n)) * lv

theorem fibPos_eq (lv n i j : Nat) : K.fibPos lv n i j = i % lv + lv * (j + n * (i / lv)) := by unfold K.fibPos; ring

theorem fibPos_mod {lv n i j : Nat} (hlv : 0 < lv) : K.fibPos lv n i j % lv = i % lv := by
  rw [fibPos_eq]; exact (flat_div (Nat.mod_lt _ hlv)).2

theorem fibPos_div {lv n i j : Nat} (hlv : 0 < lv) : K.fibPos lv n i j / lv = j + n * (i / lv) := by
  rw [fibPos_eq]; exact (flat_div (Nat.mod_lt _ hlv)).1

theorem fibSrc_fibPos {lv n i j : Nat} (hlv : 0 < lv) (hj : j < n) : fibSrc lv n (K.fibPos lv n i j) = i := by
  unfold fibSrc
  rw [fibPos_mod hlv, ← Nat.div_div_eq_div_mul, fibPos_div hlv, (flat_div hj).1, Nat.mod_add_div']

theorem fibPos_idx {lv n i j : Nat} (hlv : 0 < lv) (hj : j < n) : K.fibPos lv n i j / lv % n = j := by
  rw [fibPos_div hlv, (flat_div hj).2]

theorem fibSrc_mod {lv n k : Nat} (_ : 0 < lv) : fibSrc lv n k % lv = k % lv := by
  unfold fibSrc; rw [Nat.add_mul_mod_self_right, Nat.mod_mod]

theorem fibSrc_div {lv n k : Nat} (hlv : 0 < lv) : fibSrc lv n k / lv = k / (lv * n) := by
  unfold fibSrc; rw [Nat.add_mul_div_right _ _ hlv, Nat.div_eq_of_lt (Nat.mod_lt _ hlv), Nat.zero_add]

theorem fibPos_fibSrc {lv n k : Nat} (hlv : 0 < lv) (j : Nat) :
    K.fibPos lv n (fibSrc lv n k) j = k % lv + lv * (j + n * (k / (lv * n))) := by
  rw [fibPos_eq, fibSrc_mod hlv, fibSrc_div hlv]

theorem fibPos_self {lv n k : Nat} (hlv : 0 < lv) : K.fibPos lv n (fibSrc lv n k) (k / lv % n) = k := by
  rw [fibPos_fibSrc hlv, ← Nat.div_div_eq_div_mul, Nat.mod_add_div, Nat.mod_add_div]

theorem fibSrc_lt {lv n H k : Nat} (hk : k < lv * n * H) : fibSrc lv n k < lv * H := by
  have hln : 0 < lv * n := by
    rcases Nat.eq_zero_or_pos (lv * n) with h | h
    · rw [h] at hk; simp at hk
    · exact h
  have hlv : 0 < lv := Nat.pos_of_mul_pos_right hln
  unfold fibSrc
  rw [Nat.mul_comm (k / (lv * n)) lv]
  exact flat_lt (Nat.mod_lt _ hlv) (by rw [Nat.div_lt_iff_lt_mul hln, Nat.mul_comm]; exact hk)

/-- Store loops over all pairs (fibre, position in the fibre). -/
theorem foldN_fib {σ : Type} {lv n H k : Nat} {f : Nat → Nat → σ → σ} {s r : σ} (hk : k < lv * n * H)
    (h : ∀ i j, i < lv * H → j < n → K.fibPos lv n i j ≠ k → ∀ t, f i j t = t)
    (hr : f (fibSrc lv n k) (k / lv % n) s = r) :
    foldN (lv * H) (fun i a => foldN n (fun j a => f i j a) a) s = r := by
  have hln : 0 < lv * n := by
    rcases Nat.eq_zero_or_pos (lv * n) with h | h
    · rw [h] at hk; simp at hk
    · exact h
  have hlv : 0 < lv := Nat.pos_of_mul_pos_right hln
  have hn : 0 < n := Nat.pos_of_mul_pos_left hln
  refine foldN_one (fibSrc lv n k) (fibSrc_lt hk) (fun i hi hne t => foldN_id (fun j hj t => h i j hi hj (fun e => hne ?_) t)) ?_
  · rw [← e, fibSrc_fibPos hlv hj]
  · refine foldN_one (k / lv % n) (Nat.mod_lt _ hn) (fun j hj hne t => h _ j (fibSrc_lt hk) hj (fun e => hne ?_) t) hr
    rw [← e, fibPos_idx hlv hj]

/-- The same with the loops interchanged. -/
theorem foldN_fib' {σ : Type} {lv n H k : Nat} {f : Nat → Nat → σ → σ} {s r : σ} (hk : k < lv * n * H)
    (h : ∀ i j, i < lv * H → j < n → K.fibPos lv n i j ≠ k → ∀ t, f i j t = t)
    (hr : f (fibSrc lv n k) (k / lv % n) s = r) :
    foldN n (fun j a => foldN (lv * H) (fun i a => f i j a) a) s = r := by
  have hln : 0 < lv * n := by
    rcases Nat.eq_zero_or_pos (lv * n) with h | h
    · rw [h] at hk; simp at hk
    · exact h
  have hlv : 0 < lv := Nat.pos_of_mul_pos_right hln
  have hn : 0 < n := Nat.pos_of_mul_pos_left hln
  refine foldN_one (k / lv % n) (Nat.mod_lt _ hn) (fun j hj hne t => foldN_id (fun i hi t => h i j hi hj (fun e => hne ?_) t)) ?_
  · rw [← e, fibPos_idx hlv hj]
  · refine foldN_one (fibSrc lv n k) (fibSrc_lt hk) (fun i hi hne t => h i _ hi (Nat.mod_lt _ hn) (fun e => hne ?_) t) hr
    rw [← e, fibSrc_fibPos hlv (Nat.mod_lt _ hn)]

/-- Sizes of two shapes that differ in one axis only. -/
theorem size_axis {s t : Shape} (hs : s.WF) (ht : t.WF) {dim : Nat} (hd : ∀ i, i ≠ dim → s.get i = t.get i)
    (hb : s.batch = t.batch) : s.size = t.lowerVolume dim * s.get dim * (t.up dim * t.batch) := by
  unfold Shape.size; rw [hs.volume_split dim, Shape.lowerVolume_congr hs ht hd, Shape.up_congr hd, hb]; ring

namespace K

theorem broadcastFw_ok {x y : Tensor α} {sx s : Shape} {g : Nat → α} {dim n : Nat} {rest u f}
    (hx : x.Flat d sx g) (hy : y.Room d s) (hd : ∀ i, i ≠ dim → sx.get i = s.get i) (h1 : sx.get dim = 1)
    (hn : s.get dim = n) (hb : sx.batch = s.batch) :
    ∃ y', K.broadcastFw p (x :: rest) (dim :: n :: u) f y = ok y' ∧
      y'.Flat d s (fun k => g (fibSrc (s.lowerVolume dim) n k)) := by
  obtain ⟨lx, hpx, _, _, hr⟩ := hx.ptr
  obtain ⟨ly, hpy, _, hly⟩ := hy.ptr
  have hszx : sx.size = s.lowerVolume dim * (s.up dim * s.batch) := by
    rw [size_axis hx.wf hy.wf hd hb, h1, Nat.mul_one]
  have hszy : s.size = s.lowerVolume dim * n * (s.up dim * s.batch) := by
    rw [size_axis hy.wf hy.wf (fun _ _ => rfl) rfl, hn]
  have pw : PW ly.length (loop (s.lowerVolume dim * (s.up dim * s.batch)) fun i => loop n fun j py =>
        wr py (fibPos (s.lowerVolume dim) n i j) (g i))
      (fun k => foldN (s.lowerVolume dim * (s.up dim * s.batch)) fun i => foldN n fun j a =>
        if k = fibPos (s.lowerVolume dim) n i j then g i else a) := by
    refine PW.loop fun i hi => PW.loop fun j hj => PW.wr ?_
    have := fibPos_lt hi hj
    omega
  obtain ⟨l', e, hf⟩ := pw.result hy hly (g := fun k => g (fibSrc (s.lowerVolume dim) n k)) (fun k hk a => by
    refine foldN_fib (f := fun i j a => if k = fibPos (s.lowerVolume dim) n i j then g i else a)
      (by rw [← hszy]; exact hk) (fun i j _ _ hne t => by rw [if_neg (fun e => hne e.symm)]) ?_
    rw [fibPos_self (hy.wf.lowerVolume_pos dim), if_pos rfl])
  refine ⟨_, ?_, hf⟩
  simp only [K.broadcastFw, ix_cons_zero, ix_cons_one, ok_bind, hy.shape, hx.shape, Shape.sizeU_eq hx.small,
    Shape.lowerVolumeU_eq hy.wf, hpx, hpy, check_true _ (Or.inr (Nat.ne_of_gt (hy.wf.lowerVolume_pos dim))), iter, hszx]
  rw [loop_congr (g := fun i => loop n fun j py => wr py (fibPos (s.lowerVolume dim) n i j) (g i)) ?_, e]
  · rfl
  intro i hi t
  rw [hr i (by rw [hszx]; exact hi), ok_bind,
    loop_ghost (fun j => fibPos (s.lowerVolume dim) n i j) (fun j py => wr py (fibPos (s.lowerVolume dim) n i j) (g i))
    (by simp [fibPos]) (fun j _ t => Res.bind_congr fun a _ => by
      congr 2; unfold fibPos; ring)]
  simp only [Res.bind_assoc, ok_bind, bind_ok]

theorem sliceFw_ok {x y : Tensor α} {sx s : Shape} {g : Nat → α} {dim off : Nat} {rest u f}
    (hx : x.Flat d sx g) (hy : y.Room d s) (hd : ∀ i, i ≠ dim → sx.get i = s.get i)
    (ho : off + s.get dim ≤ sx.get dim) (hb : sx.batch = s.batch) :
    ∃ y', K.sliceFw p (x :: rest) (dim :: off :: u) f y = ok y' ∧
      y'.Flat d s (fun k => g (s.lowerVolume dim * off + s.lowerVolume dim * sx.get dim *
        (k / (s.lowerVolume dim * s.get dim)) + k % (s.lowerVolume dim * s.get dim))) := by
  obtain ⟨lx, hpx, _, _, hr⟩ := hx.ptr
  obtain ⟨ly, hpy, _, hly⟩ := hy.ptr
  have hszx := size_axis hx.wf hy.wf hd hb
  have hszy := size_axis hy.wf hy.wf (dim := dim) (fun _ _ => rfl) rfl
  have hlv := hy.wf.lowerVolume_pos dim
  have hsp : 0 < s.lowerVolume dim * s.get dim := Nat.mul_pos hlv (hy.wf.get_pos dim)
  generalize hH : s.up dim * s.batch = H at hszx hszy
  generalize hbase : s.lowerVolume dim = base at *
  generalize hm : s.get dim = m at *
  generalize hn : sx.get dim = n at *
  have hrd : ∀ i j, i < H → j < base * m → rd lx (base * off + base * n * i + j) =
      ok (g (base * off + base * n * i + j)) := by
    intro i j hi hj
    refine hr _ ?_
    rw [hszx]
    calc base * off + base * n * i + j < base * off + base * n * i + base * m := by omega
      _ = base * (off + m) + base * n * i := by ring
      _ ≤ base * n + base * n * i := Nat.add_le_add_right (Nat.mul_le_mul_left _ ho) _
      _ = base * n * (i + 1) := by ring
      _ ≤ base * n * H := Nat.mul_le_mul_left _ hi
  have pw : PW ly.length (loop H fun i => loop (base * m) fun j py =>
        (rd lx (base * off + base * n * i + j) >>= fun v => wr py (i * (base * m) + j) v))
      (fun k => foldN H fun i => foldN (base * m) fun j a =>
        if k = i * (base * m) + j then g (base * off + base * n * i + j) else a) := by
    refine PW.loop fun i hi => PW.loop fun j hj => ?_
    have hlt : i * (base * m) + j < s.size := by rw [hszy, Nat.mul_comm (base * m) H]; exact nm_lt hi hj
    exact (PW.wr (p := i * (base * m) + j) (by omega)).congr (fun t _ => by rw [hrd i j hi hj, ok_bind]) (fun _ _ _ => rfl)
  obtain ⟨l', e, hf⟩ := pw.result hy hly
    (g := fun k => g (base * off + base * n * (k / (base * m)) + k % (base * m))) (fun k hk a => by
    refine foldN_rect (f := fun i j a => if k = i * (base * m) + j then g (base * off + base * n * i + j) else a)
      (by rw [hszy, Nat.mul_comm] at hk; exact hk) (fun n i _ _ hne t => by rw [if_neg (fun e => hne e.symm)]) ?_
    rw [Nat.div_add_mod', if_pos rfl])
  refine ⟨_, ?_, hf⟩
  simp only [K.sliceFw, ix_cons_zero, ix_cons_one, ok_bind, hy.shape, hx.shape, Shape.sizeU_eq hy.small,
    Shape.lowerVolumeU_eq hy.wf, hpx, hpy, hszy, hbase, hm, hn]
  rw [check_true _ (Nat.ne_of_gt hsp), ok_bind, Nat.mul_div_cancel_left _ hsp, loop_ghost (fun i => i * (base * m)) (fun i => loop (base * m) fun j py =>
        (rd lx (base * off + base * n * i + j) >>= fun v => wr py (i * (base * m) + j) v)) (by simp)
    (fun i _ t => by
      rw [loop_ghost (fun j => i * (base * m) + j) (fun j py =>
        (rd lx (base * off + base * n * i + j) >>= fun v => wr py (i * (base * m) + j) v)) (by simp)
        (fun j _ t => by simp only [Res.bind_assoc, Nat.add_assoc])]
      simp only [Nat.add_mul, Nat.one_mul]), e]
  rfl

theorem batchPickFw_ok {x y : Tensor α} {sx s : Shape} {g : Nat → α} {ids : List Nat} {id : Nat → Nat} {rest f}
    (hx : x.Flat d sx g) (hy : y.Room d s) (hv : sx.volume = s.volume)
    (hids : ∀ b, b < s.batch → ids[b]? = some (id b)) (hlt : ∀ b, b < s.batch → id b < sx.batch) :
    ∃ y', K.batchPickFw p (x :: rest) ids f y = ok y' ∧
      y'.Flat d s (fun k => g (s.volume * id (k / s.volume) + k % s.volume)) := by
  obtain ⟨lx, hpx, _, _, hr⟩ := hx.ptr
  obtain ⟨ly, hpy, _, hly⟩ := hy.ptr
  have pw : PW ly.length (loop s.batch fun b py => (ix ids b >>= fun id => loop s.volume (fun i py =>
        (rd lx (s.volume * id + i) >>= fun v => wr py (s.volume * b + i) v)) py))
      (fun k => foldN s.batch fun b => foldN s.volume fun i a =>
        if k = s.volume * b + i then g (s.volume * id b + i) else a) := by
    refine PW.loop fun b hb => ?_
    refine (PW.loop (n := s.volume) (body := fun i py => (rd lx (s.volume * id b + i) >>= fun v => wr py (s.volume * b + i) v))
      (φ := fun i k a => if k = s.volume * b + i then g (s.volume * id b + i) else a)
      fun i hi => ?_).congr (fun t _ => by rw [ix_some (hids b hb), ok_bind]) (fun _ _ _ => rfl)
    have h1 : s.volume * b + i < s.size := by rw [Nat.mul_comm]; exact nm_lt hb hi
    have h2 : s.volume * id b + i < sx.size := by
      unfold Shape.size; rw [hv, Nat.mul_comm]; exact nm_lt (hlt b hb) hi
    exact (PW.wr (p := s.volume * b + i) (by omega)).congr (fun t _ => by rw [hr _ h2, ok_bind]) (fun _ _ _ => rfl)
  obtain ⟨l', e, hf⟩ := pw.result hy hly (g := fun k => g (s.volume * id (k / s.volume) + k % s.volume))
    (fun k hk a => by
    refine foldN_rect (f := fun b i a => if k = s.volume * b + i then g (s.volume * id b + i) else a)
      hk (fun n i _ _ hne t => by rw [if_neg (fun e => hne (by rw [Nat.mul_comm]; exact e.symm))]) ?_
    rw [Nat.div_add_mod, if_pos rfl])
  refine ⟨_, ?_, hf⟩
  simp only [K.batchPickFw, ix_cons_zero, ok_bind, hy.shape, hx.shape, hpx, hpy, hv, e]

theorem batchSliceFw_ok {x y : Tensor α} {sx s : Shape} {g : Nat → α} {off : Nat} {rest u f}
    (hx : x.Flat d sx g) (hy : y.Room d s) (hv : sx.volume = s.volume) (ho : off + s.batch ≤ sx.batch) :
    ∃ y', K.batchSliceFw p (x :: rest) (off :: u) f y = ok y' ∧ y'.Flat d s (fun k => g (s.volume * off + k)) := by
  obtain ⟨lx, hpx, _, _, hr⟩ := hx.ptr
  obtain ⟨ly, hpy, _, hly⟩ := hy.ptr
  have hsz : s.volume * s.batch = s.size := Nat.mul_comm _ _
  have pw : PW ly.length (loop s.size fun i py => (rd lx (s.volume * off + i) >>= fun a => wr py i a))
      (fun k => foldN s.size (fun i a => if k = i then g (s.volume * off + i) else a)) := by
    refine PW.loop fun i hi => (PW.wr (by omega)).congr (fun t _ => ?_) (fun _ _ _ => rfl)
    rw [hr _ ?_, ok_bind]
    calc s.volume * off + i < s.volume * off + s.size := by omega
      _ = (off + s.batch) * s.volume := by unfold Shape.size; ring
      _ ≤ sx.batch * s.volume := Nat.mul_le_mul_right _ ho
      _ = sx.size := by unfold Shape.size; rw [hv]
  obtain ⟨l', e, hf⟩ := pw.result hy hly (fun k hk a => foldN_one k hk (fun i _ hne t => by
    rw [if_neg (fun e => hne e.symm)]) (by rw [if_pos rfl]))
  refine ⟨_, ?_, hf⟩
  simp only [K.batchSliceFw, ix_cons_zero, ok_bind, hy.shape, hpx, hpy, hsz, e]

theorem batchSumFw_ok [Zero α] [Add α] {x y : Tensor α} {sx s : Shape} {g : Nat → α} {rest u f}
    (hx : x.Flat d sx g) (hy : y.Room d s) (hv : sx.volume = s.volume) (hb : s.batch = 1) :
    ∃ y', K.batchSumFw p (x :: rest) u f y = ok y' ∧
      y'.Flat d s (fun k => foldN sx.batch (fun b a => a + g (k + b * s.volume)) 0) := by
  obtain ⟨lx, hpx, _, _, hr⟩ := hx.ptr
  obtain ⟨ly, hpy, _, hly⟩ := hy.ptr
  have hsz : s.size = s.volume := by unfold Shape.size; rw [hb, Nat.one_mul]
  have hin : ∀ i, i < s.size → iter sx.batch (fun (st : Nat × α) => (rd lx st.1 >>= fun v =>
      ok (st.1 + s.size, st.2 + v))) (i, 0) = ok (i + sx.batch * s.size, foldN sx.batch (fun b a => a + g (i + b * s.volume)) 0) := by
    intro i hi
    unfold iter
    rw [loop_ghost (fun b => i + b * s.size) (fun b a => ok (a + g (i + b * s.volume))) (by simp) (fun b hb' t => by
      have : i + b * s.size < sx.size := by
        rw [Nat.add_comm, hsz]; unfold Shape.size; rw [hv]; exact nm_lt hb' (by omega)
      have h2 := hr _ this
      rw [hsz] at h2
      simp only [h2, ok_bind, Nat.add_mul, Nat.one_mul, Nat.add_assoc, hsz]), loop_pure]
    rfl
  have pw : PW ly.length (loop s.size fun i py => (iter sx.batch (fun (st : Nat × α) => (rd lx st.1 >>= fun v =>
      ok (st.1 + s.size, st.2 + v))) (i, 0) >>= fun st => wr py i st.2))
      (fun k => foldN s.size (fun i a => if k = i then foldN sx.batch (fun b a => a + g (i + b * s.volume)) 0 else a)) :=
    PW.loop fun i hi => (PW.wr (by omega)).congr (fun t _ => by rw [hin i hi, ok_bind]) (fun _ _ _ => rfl)
  obtain ⟨l', e, hf⟩ := pw.result hy hly (fun k hk a => foldN_one k hk (fun i _ hne t => by
    rw [if_neg (fun e => hne e.symm)]) (by rw [if_pos rfl]))
  refine ⟨_, ?_, hf⟩
  simp only [K.batchSumFw, ix_cons_zero, ok_bind, hy.shape, hx.shape, Shape.sizeU_eq hy.small, hpx, hpy, e]

theorem flipFw_ok {x y : Tensor α} {s : Shape} {g : Nat → α} {dim : Nat} {rest u f}
    (hx : x.Flat d s g) (hy : y.Room d s) :
    ∃ y', K.flipFw p (x :: rest) (dim :: u) f y = ok y' ∧
      y'.Flat d s (fun k => g (fibPos (s.lowerVolume dim) (s.get dim) (fibSrc (s.lowerVolume dim) (s.get dim) k)
        (s.get dim - k / s.lowerVolume dim % s.get dim - 1))) := by
  obtain ⟨lx, hpx, _, _, hr⟩ := hx.ptr
  obtain ⟨ly, hpy, _, hly⟩ := hy.ptr
  have hsz := size_axis hy.wf hy.wf (dim := dim) (fun _ _ => rfl) rfl
  have hlv := hy.wf.lowerVolume_pos dim
  have hn1 := hy.wf.get_pos dim
  generalize hH : s.up dim * s.batch = H at hsz
  generalize hbase : s.lowerVolume dim = lv at *
  generalize hn : s.get dim = n at *
  have hoff : ∀ i, i * n - i % lv * (n - 1) = i % lv + i / lv * (lv * n) := by
    intro i
    obtain ⟨n', rfl⟩ : ∃ n', n = n' + 1 := ⟨n - 1, by omega⟩
    have e : i * (n' + 1) = i % lv * n' + (i % lv + i / lv * (lv * (n' + 1))) := by
      have h : i = i % lv + i / lv * lv := (Nat.mod_add_div' i lv).symm
      calc i * (n' + 1) = (i % lv + i / lv * lv) * (n' + 1) := by rw [← h]
        _ = _ := by ring
    rw [e, Nat.add_sub_cancel, Nat.add_sub_cancel_left]
  have pw : PW ly.length (loop n fun j => loop (lv * H) fun i py =>
        (rd lx (i * n - i % lv * (n - 1) + (n - j - 1) * lv) >>= fun v => wr py (i * n - i % lv * (n - 1) + j * lv) v))
      (fun k => foldN n fun j => foldN (lv * H) fun i a => if k = fibPos lv n i j then g (fibPos lv n i (n - j - 1)) else a) := by
    refine PW.loop fun j hj => PW.loop fun i hi => ?_
    have h1 := fibPos_lt hi hj
    have h2 := fibPos_lt (n := n) hi (j := n - j - 1) (by omega)
    refine (PW.wr (p := fibPos lv n i j) (by omega)).congr (fun t _ => ?_) (fun _ _ _ => rfl)
    rw [hoff]
    show (rd lx (fibPos lv n i (n - j - 1)) >>= fun v => wr t (fibPos lv n i j) v) = _
    rw [hr _ (by omega), ok_bind]
  obtain ⟨l', e, hf⟩ := pw.result hy hly
    (g := fun k => g (fibPos lv n (fibSrc lv n k) (n - k / lv % n - 1))) (fun k hk a => by
    refine foldN_fib' (f := fun i j a => if k = fibPos lv n i j then g (fibPos lv n i (n - j - 1)) else a)
      (by rw [← hsz]; exact hk) (fun i j _ _ hne t => by rw [if_neg (fun e => hne e.symm)]) ?_
    rw [fibPos_self hlv, if_pos rfl])
  refine ⟨_, ?_, hf⟩
  have hr2 : s.size / n = lv * H := by
    rw [hsz, Nat.mul_right_comm, Nat.mul_div_cancel _ hn1]
  simp only [K.flipFw, ix_cons_zero, ok_bind, hx.shape, Shape.sizeU_eq hy.small, Shape.lowerVolumeU_eq hy.wf,
    hpx, hpy, hbase, hn, hr2, check_true _ (Or.inr (Nat.ne_of_gt hlv)), e]

theorem identity_ok [Zero α] [One α] {y : Tensor α} {s : Shape} {xs u f} (hy : y.Room d s)
    (hsq : s.get 0 * s.get 0 ≤ s.size) :
    ∃ y', K.identity p xs u f y = ok y' ∧
      y'.Flat d s (fun k => if k < s.get 0 * s.get 0 ∧ k % (s.get 0 + 1) = 0 then (1 : α) else 0) := by
  obtain ⟨y1, e1, hy1⟩ := resetTensor_ok (p := p) (xs := []) (u := []) (f := []) (c := (0 : α)) hy
  obtain ⟨ly, hpy, hbuf, hly⟩ := hy1.room.ptr
  generalize hn : s.get 0 = n at *
  have pw : PW ly.length (loop n fun i py => wr py (i * (n + 1)) 1)
      (fun k => foldN n (fun i a => if k = i * (n + 1) then (1 : α) else a)) := by
    refine PW.loop fun i hi => PW.wr ?_
    have : i * (n + 1) ≤ (n - 1) * (n + 1) := Nat.mul_le_mul_right _ (by omega)
    obtain ⟨m, rfl⟩ : ∃ m, n = m + 1 := ⟨n - 1, by omega⟩
    have h2 : (m + 1 - 1) * (m + 1 + 1) + 1 = (m + 1) * (m + 1) := by simp; ring
    omega
  obtain ⟨l', e, hf⟩ := pw.result' hy1 hbuf
  refine ⟨_, ?_, hf.congr (fun k hk => ?_)⟩
  · simp only [K.identity, Tensor.dev, hy.device, unwrap, ok_bind, e1, hy1.shape, hn, hpy, e]
  · have hdm := Nat.div_add_mod' k (n + 1)
    by_cases h : k < n * n ∧ k % (n + 1) = 0
    · rw [if_pos h]
      have hkn : k / (n + 1) < n := by
        rw [Nat.div_lt_iff_lt_mul (by omega)]
        calc k < n * n := h.1
          _ ≤ n * (n + 1) := Nat.mul_le_mul_left _ (by omega)
      refine (foldN_one (k / (n + 1)) hkn (fun i _ hne t => ?_) ?_).symm
      · rw [if_neg]; intro e; apply hne; rw [e, Nat.mul_div_cancel _ (by omega)]
      · rw [if_pos (by omega)]
    · rw [if_neg h]
      refine (foldN_id (fun i hi t => ?_)).symm
      rw [if_neg]
      intro e
      apply h
      refine ⟨?_, by rw [e, Nat.mul_mod_left]⟩
      have : i * (n + 1) ≤ (n - 1) * (n + 1) := Nat.mul_le_mul_right _ (by omega)
      obtain ⟨m, rfl⟩ : ∃ m, n = m + 1 := ⟨n - 1, by omega⟩
      have h2 : (m + 1 - 1) * (m + 1 + 1) + 1 = (m + 1) * (m + 1) := by simp; ring
      omega

end K
end Verif
