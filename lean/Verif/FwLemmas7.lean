import Verif.FwLemmas6
import Mathlib.Algebra.BigOperators.Intervals

/-!
# What the forward kernels compute, on flat positions (7): permute_dims
-/

namespace Verif
open Res
variable {α : Type} {d : Nat} {p : Profile}

theorem offN_sum (f c : Nat → Nat) (n : Nat) : offN f c n = ∑ i ∈ Finset.range n, c i * volN f i := by
  induction n with
  | zero => rfl
  | succ n ih => rw [Finset.sum_range_succ, offN, ih]

/-- `perm` lists `0, …, n-1` in some order; `π i` is its `i`-th entry and `τ` the inverse. -/
structure IsPerm (perm : List Nat) (n : Nat) (π τ : Nat → Nat) : Prop where
  len : perm.length = n
  get : ∀ i, i < n → perm[i]? = some (π i)
  lt : ∀ i, i < n → π i < n
  lt' : ∀ a, a < n → τ a < n
  left : ∀ i, i < n → τ (π i) = i
  right : ∀ a, a < n → π (τ a) = a

theorem IsPerm.of_perm {perm : List Nat} {n : Nat} (h : perm.Perm (List.range n)) :
    IsPerm perm n (fun i => perm.getD i 0) (fun a => perm.idxOf a) := by
  have hl : perm.length = n := by rw [h.length_eq, List.length_range]
  have hm : ∀ a, a ∈ perm ↔ a < n := fun a => by rw [h.mem_iff, List.mem_range]
  have hnd : perm.Nodup := h.nodup_iff.mpr List.nodup_range
  have hg : ∀ i (hi : i < perm.length), perm.getD i 0 = perm[i] := fun i hi => by
    simp [List.getD_eq_getElem?_getD, hi]
  refine ⟨hl, fun i hi => ?_, fun i hi => ?_, fun a ha => ?_, fun i hi => ?_, fun a ha => ?_⟩
  · rw [hg i (by omega), List.getElem?_eq_getElem]
  · simp only [hg i (by omega)]; exact (hm _).mp (List.getElem_mem _)
  · rw [← hl]; exact List.idxOf_lt_length_iff.mpr ((hm a).mpr ha)
  · simp only [hg i (by omega)]; exact hnd.idxOf_getElem i (by omega)
  · have := List.idxOf_lt_length_iff.mpr ((hm a).mpr ha)
    simp only [hg _ this]; exact List.getElem_idxOf this

theorem perm_sum {perm : List Nat} {n : Nat} {π τ : Nat → Nat} (h : IsPerm perm n π τ) (F : Nat → Nat → Nat) :
    ∑ a ∈ Finset.range n, F a (τ a) = ∑ i ∈ Finset.range n, F (π i) i := by
  refine Finset.sum_bij' (fun a _ => τ a) (fun i _ => π i) ?_ ?_ ?_ ?_ ?_
  · intro a ha; exact Finset.mem_range.mpr (h.lt' a (Finset.mem_range.mp ha))
  · intro i hi; exact Finset.mem_range.mpr (h.lt i (Finset.mem_range.mp hi))
  · intro a ha; exact h.right a (Finset.mem_range.mp ha)
  · intro i hi; exact h.left i (Finset.mem_range.mp hi)
  · intro a ha; simp only [h.right a (Finset.mem_range.mp ha)]

theorem wx_ok {β : Type} {t : List β} {i : Nat} {v : β} (h : i < t.length) : wx t i v = ok (t.set i v) := by simp [wx, h]

namespace K

theorem permStrides_ok {sx sy : Shape} {perm : List Nat} {n : Nat} {π τ : Nat → Nat} (h : IsPerm perm n π τ) :
    ∃ xs ys, permStrides sx sy perm = ok (xs, ys) ∧ xs.length = n ∧ ys.length = n ∧
      (∀ a, a < n → xs[n - a - 1]? = some (volN sx.get a)) ∧ (∀ i, i < n → ys[n - π i - 1]? = some (volN sy.get i)) := by
  unfold permStrides
  simp only [h.len]
  obtain ⟨st, e, hi1, hi2, hx, hy, h3, h4⟩ := loop_inv (n := n) (s := (List.replicate n 0, List.replicate n 0, 1, 1))
    (f := fun i (st : List Nat × List Nat × Nat × Nat) => (wx st.1 (n - i - 1) st.2.2.1 >>= fun xs =>
      ix perm i >>= fun pi => check (pi + 1 ≤ n) >>= fun _ => wx st.2.1 (n - pi - 1) st.2.2.2 >>= fun ys =>
      ok (xs, ys, st.2.2.1 * sx.get i, st.2.2.2 * sy.get i)))
    (fun m st => st.1.length = n ∧ st.2.1.length = n ∧ (∀ a, a < m → st.1[n - a - 1]? = some (volN sx.get a)) ∧
      (∀ i, i < m → st.2.1[n - π i - 1]? = some (volN sy.get i)) ∧ st.2.2.1 = volN sx.get m ∧ st.2.2.2 = volN sy.get m)
    ⟨by simp, by simp, by omega, by omega, rfl, rfl⟩ (by
      rintro m ⟨xs, ys, tx, ty⟩ hm ⟨h1, h2, h3, h4, h5, h6⟩
      simp only at h1 h2 h3 h4 h5 h6
      have hpm := h.lt m hm
      refine ⟨(xs.set (n - m - 1) tx, ys.set (n - π m - 1) ty, tx * sx.get m, ty * sy.get m), ?_, by simpa using h1,
        by simpa using h2, ?_, ?_, by simp [h5, volN], by simp [h6, volN]⟩
      · simp only
        rw [wx_ok (by omega), ok_bind, ix_some (h.get m hm), ok_bind, check_true _ (by omega), ok_bind, wx_ok (by omega), ok_bind]
      · intro a ha
        simp only [List.getElem?_set]
        by_cases e : n - m - 1 = n - a - 1
        · have : a = m := by omega
          subst this
          simp [show n - a - 1 < xs.length by omega, h5]
        · rw [if_neg e]; exact h3 a (by omega)
      · intro i hi
        simp only [List.getElem?_set]
        by_cases e : n - π m - 1 = n - π i - 1
        · have hpi := h.lt i (by omega)
          have e1 : π m = π i := by omega
          have : m = i := by rw [← h.left m hm, ← h.left i (by omega), e1]
          subst this
          simp [show n - π m - 1 < ys.length by omega, h6]
        · rw [if_neg e]
          exact h4 i (by
            by_contra hc
            have : i = m := by omega
            subst this; exact e rfl))
  refine ⟨st.1, st.2.1, ?_, hi1, hi2, hx, hy⟩
  rw [e, ok_bind]

theorem permPos_ok {sx sy : Shape} (hsx : sx.WF) {perm : List Nat} {n : Nat} {π τ : Nat → Nat} (h : IsPerm perm n π τ)
    {xs ys : List Nat} (hxl : xs.length = n)
    (hxs : ∀ a, a < n → xs[n - a - 1]? = some (volN sx.get a)) (hys : ∀ i, i < n → ys[n - π i - 1]? = some (volN sy.get i))
    {i : Nat} (hi : i < volN sx.get n) :
    permPos xs ys i = ok (offN sy.get (fun m => sx.coord i (π m)) n) := by
  unfold permPos
  have hpos : ∀ a, 0 < volN sx.get a := fun a => volN_pos (fun _ _ => hsx.get_pos _)
  obtain ⟨st, e, h1, h2⟩ := loop_inv (n := xs.length) (s := (i, 0))
    (f := fun d (st : Nat × Nat) => (ix xs d >>= fun sx => ix ys d >>= fun sy => check (sx ≠ 0) >>= fun _ =>
      ok (st.1 - st.1 / sx * sx, st.2 + st.1 / sx * sy)))
    (fun m st => st.1 = i % volN sx.get (n - m) ∧
      st.2 = ∑ d ∈ Finset.range m, sx.coord i (n - 1 - d) * volN sy.get (τ (n - 1 - d)))
    ⟨by simp [Nat.mod_eq_of_lt hi], by simp⟩ (by
      rintro m ⟨t, j⟩ hm ⟨h1, h2⟩
      rw [hxl] at hm
      simp only at h1 h2
      have ha : n - m - 1 < n := by omega
      have hx := hxs (n - m - 1) ha
      have hy := hys (τ (n - m - 1)) (h.lt' _ ha)
      rw [h.right _ ha] at hy
      rw [show n - (n - m - 1) - 1 = m by omega] at hx hy
      have hp := hpos (n - m - 1)
      refine ⟨_, by rw [ix_some hx, ok_bind, ix_some hy, ok_bind, check_true _ (by omega), ok_bind], ?_, ?_⟩
      · have e1 : n - m = n - m - 1 + 1 := by omega
        rw [show n - (m + 1) = n - m - 1 by omega]
        rw [e1, volN] at h1
        simp only
        have hmm : t % volN sx.get (n - m - 1) = i % volN sx.get (n - m - 1) := by rw [h1, Nat.mod_mul_right_mod]
        rw [← hmm]
        have := Nat.div_add_mod' t (volN sx.get (n - m - 1))
        omega
      · rw [Finset.sum_range_succ, ← h2]
        simp only
        rw [show n - 1 - m = n - m - 1 by omega]
        congr 2
        have e1 : n - m = n - m - 1 + 1 := by omega
        rw [e1, volN] at h1
        rw [h1]
        unfold Shape.coord
        rw [Nat.mod_mul_right_div_self])
  rw [e, ok_bind, h2, hxl]
  congr 1
  rw [Finset.sum_range_reflect (fun a => sx.coord i a * volN sy.get (τ a)) n,
    perm_sum h (fun a m => sx.coord i a * volN sy.get m), offN_sum]

theorem permuteFw_ok {x y : Tensor α} {sx s : Shape} {g : Nat → α} {perm : List Nat} {n : Nat} {π τ : Nat → Nat} {rest f}
    (h : IsPerm perm n π τ) (hx : x.Flat d sx g) (hy : y.Room d s) (hb : sx.batch = s.batch)
    (hd : ∀ i, i < n → s.get i = sx.get (π i)) (hvx : volN sx.get n = sx.volume) (hvy : volN s.get n = s.volume)
    (hv : sx.volume = s.volume) :
    ∃ y', K.permuteFw p (x :: rest) perm f y = ok y' ∧
      y'.Flat d s (fun k => g (k / s.volume * s.volume + offN sx.get (fun a => s.coord (k % s.volume) (τ a)) n)) := by
  obtain ⟨lx, hpx, _, _, hr⟩ := hx.ptr
  obtain ⟨ly, hpy, _, hly⟩ := hy.ptr
  obtain ⟨xs, ys, e0, hl1, _, hxs, hys⟩ := permStrides_ok (sx := sx) (sy := s) h
  let P : Nat → Nat := fun i => offN s.get (fun m => sx.coord i (π m)) n
  let Q : Nat → Nat := fun k => offN sx.get (fun a => s.coord k (τ a)) n
  have hPc : ∀ i m, m < n → sx.coord i (π m) < s.get m := fun i m hm => by
    rw [hd m hm]; exact Nat.mod_lt _ (hx.wf.get_pos _)
  have hQc : ∀ k a, a < n → s.coord k (τ a) < sx.get a := fun k a ha => by
    have := hd (τ a) (h.lt' a ha)
    rw [h.right a ha] at this
    rw [← this]; exact Nat.mod_lt _ (hy.wf.get_pos _)
  have hPlt : ∀ i, P i < s.volume := fun i => by
    rw [← hvy]; exact offN_lt (fun m hm => hPc i m hm)
  have hQlt : ∀ k, Q k < s.volume := fun k => by
    rw [← hv, ← hvx]; exact offN_lt (fun m hm => hQc k m hm)
  have hPQ : ∀ k, k < s.volume → P (Q k) = k := by
    intro k hk
    show offN s.get (fun m => sx.coord (Q k) (π m)) n = k
    have : offN s.get (fun m => sx.coord (Q k) (π m)) n = offN s.get (fun d => k / volN s.get d % s.get d) n := by
      refine offN_congr (fun _ _ => rfl) (fun m hm => ?_)
      have := offN_coord (fun a ha => hQc k a ha) (h.lt m hm)
      show sx.coord (Q k) (π m) = _
      unfold Shape.coord
      rw [this, h.left m hm]; rfl
    rw [this, offN_of_flat, hvy, Nat.mod_eq_of_lt hk]
  have hQP : ∀ i, i < s.volume → Q (P i) = i := by
    intro i hi
    show offN sx.get (fun a => s.coord (P i) (τ a)) n = i
    have : offN sx.get (fun a => s.coord (P i) (τ a)) n = offN sx.get (fun d => i / volN sx.get d % sx.get d) n := by
      refine offN_congr (fun _ _ => rfl) (fun a ha => ?_)
      have := offN_coord (fun m hm => hPc i m hm) (h.lt' a ha)
      show s.coord (P i) (τ a) = _
      unfold Shape.coord
      rw [this, h.right a ha]; rfl
    rw [this, offN_of_flat, hvx, hv, Nat.mod_eq_of_lt hi]
  have hvp := hy.wf.volume_pos
  have pw : PW ly.length (loop s.batch fun n => loop s.volume fun i py => (permPos xs ys i >>= fun j =>
        rd lx (n * s.volume + i) >>= fun v => wr py (n * s.volume + j) v))
      (fun k => foldN s.batch fun n => foldN s.volume fun i a =>
        if k = n * s.volume + P i then g (n * s.volume + i) else a) := by
    refine PW.loop fun b hb' => PW.loop fun i hi => ?_
    have h1 : b * s.volume + P i < s.size := nm_lt hb' (hPlt i)
    have h2 : b * s.volume + i < sx.size := by unfold Shape.size; rw [hb, hv]; exact nm_lt hb' hi
    refine (PW.wr (p := b * s.volume + P i) (by omega)).congr (fun t _ => ?_) (fun _ _ _ => rfl)
    rw [permPos_ok hx.wf h hl1 hxs hys (by rw [hvx, hv]; exact hi), ok_bind, hr _ h2, ok_bind]
  obtain ⟨l', e, hf⟩ := pw.result hy hly (g := fun k => g (k / s.volume * s.volume + Q (k % s.volume))) (fun k hk a => by
    have hkk := Nat.div_add_mod' k s.volume
    have hkm := Nat.mod_lt k hvp
    refine foldN_one (k / s.volume) ((Nat.div_lt_iff_lt_mul hvp).mpr hk) (fun b hb' hne t => foldN_id fun i hi t => ?_)
      (foldN_one (Q (k % s.volume)) (hQlt _) (fun i hi hne t => ?_) ?_)
    · rw [if_neg]; intro e; apply hne
      rw [e, Nat.add_comm, Nat.add_mul_div_right _ _ hvp, Nat.div_eq_of_lt (hPlt i), Nat.zero_add]
    · rw [if_neg]; intro e; apply hne
      have : k % s.volume = P i := by omega
      rw [this, hQP i hi]
    · rw [if_pos]; rw [hPQ _ hkm, hkk])
  refine ⟨_, ?_, hf⟩
  simp only [K.permuteFw, ix_cons_zero, ok_bind, hy.shape, hx.shape, hpx, hpy, iter, e0, hb, hv]
  rw [loop_ghost (fun n => (n * s.volume, n * s.volume)) (fun n => loop s.volume fun i py => (permPos xs ys i >>= fun j =>
        rd lx (n * s.volume + i) >>= fun v => wr py (n * s.volume + j) v)) (by simp)
    (fun n _ t => by simp only [Nat.succ_mul n]), e]
  rfl

end K
end Verif
