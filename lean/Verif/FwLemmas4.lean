import Verif.FwLemmas3
import Verif.ShapeOpsLemmas
import Mathlib.Algebra.Group.Defs

/-!
# What the forward kernels compute, on flat positions (4): concat, batch concat, matmul
-/

namespace Verif
open Res
variable {α : Type} {d : Nat} {p : Profile}

/-- Loops whose states are images of the states of a simpler loop. -/
theorem loop_sim {σ τ : Type} {n : Nat} {body : Nat → τ → Res τ} {s : σ} {t0 : τ}
    (F : Nat → σ → τ) (f : Nat → σ → Res σ) (h0 : F 0 s = t0)
    (hb : ∀ i, i < n → ∀ s, body i (F i s) = (f i s >>= fun t => ok (F (i + 1) t))) :
    loop n body t0 = (loop n f s >>= fun t => ok (F n t)) := by
  subst h0
  induction n with
  | zero => rfl
  | succ n ih =>
    rw [loop_succ, loop_succ, ih (fun i hi => hb i (by omega)), Res.bind_assoc, Res.bind_assoc]
    apply Res.bind_congr
    intro t _
    rw [ok_bind, hb n (by omega)]

theorem sumN_locate {f : Nat → Nat} {N k : Nat} (h : k < sumN f N) : ∃ n i, n < N ∧ i < f n ∧ k = sumN f n + i := by
  induction N with
  | zero => simp [sumN] at h
  | succ N ih =>
    by_cases hk : k < sumN f N
    · obtain ⟨n, i, h1, h2, h3⟩ := ih hk
      exact ⟨n, i, by omega, h2, h3⟩
    · refine ⟨N, k - sumN f N, by omega, ?_, by omega⟩
      rw [sumN] at h; omega

theorem sumN_add_lt {f : Nat → Nat} {N n i : Nat} (hn : n < N) (hi : i < f n) : sumN f n + i < sumN f N := by
  have : sumN f (n + 1) ≤ sumN f N := Shape.sumN_mono hn
  rw [sumN] at this; omega

theorem sumN_uniq {f : Nat → Nat} {n m i j : Nat} (hi : i < f n) (hj : j < f m) (h : sumN f n + i = sumN f m + j) : n = m := by
  rcases Nat.lt_trichotomy n m with h1 | h1 | h1
  · have := sumN_add_lt h1 hi; omega
  · exact h1
  · have := sumN_add_lt h1 hj; omega

theorem sumN_mul (c : Nat) (f : Nat → Nat) (n : Nat) : sumN (fun i => c * f i) n = c * sumN f n := by
  induction n with
  | zero => rfl
  | succ n ih => simp only [sumN, ih]; ring

namespace K

theorem batchConcatFw_ok {xs : List (Tensor α)} {y : Tensor α} {sh : Nat → Shape} {s : Shape} {g : Nat → Nat → α}
    {G : Nat → α} {u f}
    (hx : ∀ n, n < xs.length → ∃ x, xs[n]? = some x ∧ x.Flat d (sh n) (g n)) (hy : y.Room d s)
    (hsz : s.size = sumN (fun n => (sh n).size) xs.length)
    (hG : ∀ n i, n < xs.length → i < (sh n).size → G (sumN (fun n => (sh n).size) n + i) = g n i) :
    ∃ y', K.batchConcatFw p xs u f y = ok y' ∧ y'.Flat d s G := by
  obtain ⟨ly, hpy, _, hly⟩ := hy.ptr
  set S := sumN (fun n => (sh n).size) with hS
  have pw : PW ly.length (loop xs.length fun n py => (ix xs n >>= fun x => x.ptr >>= fun px => x.shape.sizeU p >>= fun span =>
        loop span (fun i py => (rd px i >>= fun v => wr py (S n + i) v)) py))
      (fun k => foldN xs.length fun n => foldN (sh n).size fun i a => if k = S n + i then g n i else a) := by
    refine PW.loop fun n hn => ?_
    obtain ⟨x, e1, hf⟩ := hx n hn
    obtain ⟨lx, hpx, _, _, hr⟩ := hf.ptr
    refine (PW.loop (n := (sh n).size) (body := fun i py => (rd lx i >>= fun v => wr py (S n + i) v))
      (φ := fun i k a => if k = S n + i then g n i else a) fun i hi => ?_).congr (fun t _ => ?_) (fun _ _ _ => rfl)
    · have h1 : S n + i < S xs.length := sumN_add_lt hn hi
      exact (PW.wr (p := S n + i) (by omega)).congr (fun t _ => by rw [hr i hi, ok_bind]) (fun _ _ _ => rfl)
    · rw [ix_some e1, ok_bind, hpx, ok_bind, hf.shape, Shape.sizeU_eq hf.small, ok_bind]
  obtain ⟨l', e, hf⟩ := pw.result hy hly (g := G) (fun k hk a => by
    rw [hsz] at hk
    obtain ⟨n, i, hn, hi, rfl⟩ := sumN_locate hk
    refine foldN_one n hn (fun m hm hne t => foldN_id fun j hj t => ?_) (foldN_one i hi (fun j hj hne t => ?_) ?_)
    · rw [if_neg]; intro e; exact hne (sumN_uniq hj hi e.symm)
    · rw [if_neg]; exact fun e => hne (Nat.add_left_cancel e).symm
    · exact if_pos rfl |>.trans (hG n i hn hi).symm)
  refine ⟨_, ?_, hf⟩
  simp only [K.batchConcatFw, hpy, ok_bind]
  rw [loop_ghost S (fun n py => (ix xs n >>= fun x => x.ptr >>= fun px => x.shape.sizeU p >>= fun span =>
        loop span (fun i py => (rd px i >>= fun v => wr py (S n + i) v)) py)) (q := 0) rfl (fun n hn t => by
      obtain ⟨x, e1, hf⟩ := hx n hn
      simp only [Res.bind_assoc]
      refine Res.bind_congr fun x' ex => Res.bind_congr fun px _ => Res.bind_congr fun span es => Res.bind_congr fun v _ => ?_
      rw [ix_some e1] at ex; cases ex
      rw [hf.shape, Shape.sizeU_eq hf.small] at es; cases es
      rfl), e]
  rfl

theorem concatFw_ok {xs : List (Tensor α)} {y : Tensor α} {sh : Nat → Shape} {s : Shape} {g : Nat → Nat → α}
    {G : Nat → α} {dim : Nat} {u f}
    (hx : ∀ n, n < xs.length → ∃ x, xs[n]? = some x ∧ x.Flat d (sh n) (g n)) (hy : y.Room d s)
    (hd : ∀ n, n < xs.length → ∀ i, i ≠ dim → (sh n).get i = s.get i)
    (hdim : s.get dim = sumN (fun n => (sh n).get dim) xs.length)
    (hb : ∀ n, n < xs.length → (sh n).batch = 1 ∨ (sh n).batch = s.batch)
    (hG : ∀ n b r j, n < xs.length → b < s.batch → r < s.up dim → j < s.lowerVolume dim * (sh n).get dim →
      G (s.lowerVolume dim * sumN (fun n => (sh n).get dim) n + (b * s.up dim + r) * (s.lowerVolume dim * s.get dim) + j) =
      g n ((if (sh n).batch = 1 then 0 else b) * (sh n).volume + (r * (s.lowerVolume dim * (sh n).get dim) + j))) :
    ∃ y', K.concatFw p xs (dim :: u) f y = ok y' ∧ y'.Flat d s G := by
  obtain ⟨ly, hpy, hbuf, hly⟩ := hy.ptr
  have hlv := hy.wf.lowerVolume_pos dim
  have hsz : s.size = s.batch * s.up dim * (s.lowerVolume dim * s.get dim) := by
    unfold Shape.size; rw [hy.wf.volume_split dim]; ring
  have hrep : s.volume / (s.lowerVolume dim * s.get dim) = s.up dim := by
    rw [hy.wf.volume_split dim, Nat.mul_div_cancel_left _ (Nat.mul_pos hlv (hy.wf.get_pos dim))]
  have hne0 : s.lowerVolume dim * s.get dim ≠ 0 := Nat.ne_of_gt (Nat.mul_pos hlv (hy.wf.get_pos dim))
  have hvn : ∀ n, n < xs.length → (sh n).volume = s.up dim * (s.lowerVolume dim * (sh n).get dim) := by
    intro n hn
    obtain ⟨x, _, hf⟩ := hx n hn
    rw [hf.wf.volume_split dim, Shape.lowerVolume_congr hf.wf hy.wf (hd n hn), Shape.up_congr (hd n hn)]; ring
  generalize hbase : s.lowerVolume dim = base at *
  generalize hR : s.up dim = R at *
  set D := fun n => (sh n).get dim with hD
  set S := sumN D with hS
  have hSm : ∀ n, sumN (fun n => base * D n) n = base * S n := fun n => sumN_mul _ _ _
  generalize hB : s.batch = B at *
  generalize hDD : s.get dim = DD at *
  -- the body on the buffer
  let body : Nat → List α → Res (List α) := fun n py => (ix xs n >>= fun x => x.ptr >>= fun px =>
    loop B (fun b => loop R fun r => loop (base * x.shape.get dim) fun j py =>
      (rd px ((if x.shape.batch = 1 then 0 else b) * x.shape.volume + (r * (base * x.shape.get dim) + j)) >>= fun v =>
        wr py (base * S n + (b * R + r) * (base * DD) + j) v)) py)
  have hpos : ∀ n b r j, n < xs.length → b < B → r < R → j < base * D n →
      base * S n + j < base * DD ∧ base * S n + (b * R + r) * (base * DD) + j < s.size := by
    intro n b r j hn hb hr hj
    have h1 : base * S n + j < base * DD := by
      have := sumN_add_lt (f := fun n => base * D n) hn hj
      rw [hSm, hSm] at this; rw [hdim]; exact this
    refine ⟨h1, ?_⟩
    have h2 : b * R + r < B * R := nm_lt hb hr
    have := nm_lt h2 h1
    rw [hsz]; omega
  have pw : PW ly.length (loop xs.length body)
      (fun k => foldN xs.length fun n => foldN B fun b => foldN R fun r => foldN (base * D n) fun j a =>
        if k = base * S n + (b * R + r) * (base * DD) + j then
          g n ((if (sh n).batch = 1 then 0 else b) * (sh n).volume + (r * (base * D n) + j)) else a) := by
    refine PW.loop fun n hn => ?_
    obtain ⟨x, e1, hf⟩ := hx n hn
    obtain ⟨lx, hpx, _, _, hr⟩ := hf.ptr
    refine (PW.loop (n := B) (body := fun b => loop R fun r => loop (base * D n) fun j py =>
      (rd lx ((if (sh n).batch = 1 then 0 else b) * (sh n).volume + (r * (base * D n) + j)) >>= fun v =>
        wr py (base * S n + (b * R + r) * (base * DD) + j) v))
      (φ := fun b k => foldN R fun r => foldN (base * D n) fun j a =>
        if k = base * S n + (b * R + r) * (base * DD) + j then
          g n ((if (sh n).batch = 1 then 0 else b) * (sh n).volume + (r * (base * D n) + j)) else a)
      fun b hb' => PW.loop fun r hr' => PW.loop fun j hj => ?_).congr (fun t _ => ?_) (fun _ _ _ => rfl)
    · have h1 := (hpos n b r j hn hb' hr' hj).2
      have h2 : (if (sh n).batch = 1 then 0 else b) * (sh n).volume + (r * (base * D n) + j) < (sh n).size := by
        unfold Shape.size
        refine nm_lt ?_ ?_
        · have := hf.wf.batch_pos
          have h3 := hb n hn
          by_cases h : (sh n).batch = 1
          · simp [h]
          · simp only [h, if_false]; omega
        · rw [hvn n hn]; exact nm_lt hr' hj
      exact (PW.wr (p := base * S n + (b * R + r) * (base * DD) + j) (by omega)).congr
        (fun t _ => by rw [hr _ h2, ok_bind]) (fun _ _ _ => rfl)
    · simp only [body]
      rw [ix_some e1, ok_bind, hpx, ok_bind, hf.shape]
  obtain ⟨l', e, hf⟩ := pw.result hy hly (g := G) (fun k hk a => by
    rw [hsz] at hk
    have hbd : 0 < base * DD := by
      rcases Nat.eq_zero_or_pos (base * DD) with h0 | h0
      · rw [h0] at hk; simp at hk
      · exact h0
    have hR0 : 0 < R := by
      rcases Nat.eq_zero_or_pos R with h0 | h0
      · subst h0; simp at hk
      · exact h0
    have hq : k / (base * DD) < B * R := (Nat.div_lt_iff_lt_mul hbd).mpr hk
    have hm : k % (base * DD) < sumN (fun n => base * D n) xs.length := by
      rw [hSm, ← hdim]; exact Nat.mod_lt _ hbd
    obtain ⟨n, j, hn, hj, hmod⟩ := sumN_locate hm
    rw [hSm] at hmod
    set q := k / (base * DD) with hqd
    have hb' : q / R < B := (Nat.div_lt_iff_lt_mul hR0).mpr hq
    have hr' : q % R < R := Nat.mod_lt _ hR0
    have hk2 : k = base * S n + (q / R * R + q % R) * (base * DD) + j := by
      rw [Nat.div_add_mod']; have := Nat.div_add_mod' k (base * DD); rw [← hqd] at this; omega
    have huq : ∀ n' b r j', n' < xs.length → b < B → r < R → j' < base * D n' →
        k = base * S n' + (b * R + r) * (base * DD) + j' → n' = n ∧ b = q / R ∧ r = q % R ∧ j' = j := by
      intro n' b r j' hn' hb hr hj' e
      have h1 := (hpos n' b r j' hn' hb hr hj').1
      have e1 : k = (base * S n' + j') + (base * DD) * (b * R + r) := by rw [e]; ring
      have e2 := flat_div (q := b * R + r) h1
      rw [← e1] at e2
      have e3 : n' = n := by
        refine sumN_uniq (f := fun n => base * D n) hj' hj ?_
        rw [hSm, hSm, ← hmod, e2.2]
      subst e3
      refine ⟨rfl, ?_, ?_, by omega⟩
      · rw [hqd, e2.1, Nat.add_comm, Nat.add_mul_div_right _ _ hR0, Nat.div_eq_of_lt hr, Nat.zero_add]
      · rw [hqd, e2.1, Nat.add_comm, Nat.add_mul_mod_self_right, Nat.mod_eq_of_lt hr]
    refine foldN_one n hn (fun m hm hne t => foldN_id fun b hb t => foldN_id fun r hr t => foldN_id fun j' hj' t => ?_)
      (foldN_one (q / R) hb' (fun b hb hne t => foldN_id fun r hr t => foldN_id fun j' hj' t => ?_)
        (foldN_one (q % R) hr' (fun r hr hne t => foldN_id fun j' hj' t => ?_)
          (foldN_one j hj (fun j' hj' hne t => ?_) ?_)))
    · rw [if_neg]; intro e; exact hne (huq _ _ _ _ hm hb hr hj' e).1
    · rw [if_neg]; intro e; exact hne (huq _ _ _ _ hn hb hr hj' e).2.1
    · rw [if_neg]; intro e; exact hne (huq _ _ _ _ hn hb' hr hj' e).2.2.1
    · rw [if_neg]; intro e; exact hne (huq _ _ _ _ hn hb' hr' hj' e).2.2.2
    · rw [if_pos hk2, ← hG n (q / R) (q % R) j hn hb' hr' hj, ← hk2])
  refine ⟨_, ?_, hf⟩
  simp only [K.concatFw, ix_cons_zero, ok_bind, hy.shape, Shape.lowerVolumeU_eq hy.wf, hbase, hDD, check_true _ hne0, hrep, hB]
  rw [loop_sim (fun n l => (base * S n, { y with buf := some l })) body (s := ly) (by
      simp only [hS, sumN, Nat.mul_zero, ← hbuf]) (fun n hn t => by
    obtain ⟨x, e1, hf⟩ := hx n hn
    simp only [body]
    rw [ix_some e1, ok_bind, ok_bind]
    simp only [Res.bind_assoc]
    refine Res.bind_congr fun px _ => ?_
    have hvx : x.shape.volume = R * (base * x.shape.get dim) := by rw [hf.shape]; exact hvn n hn
    simp only [Tensor.ptr, unwrap, ok_bind, hasBatch_if]
    rw [loop_ghost (fun b => base * S n + (b * R) * (base * DD)) (fun b => loop R fun r => loop (base * x.shape.get dim) fun j py =>
      (rd px ((if x.shape.batch = 1 then 0 else b) * x.shape.volume + (r * (base * x.shape.get dim) + j)) >>= fun v =>
        wr py (base * S n + (b * R + r) * (base * DD) + j) v)) (by simp) (fun b hb' t => by
        simp only [iter]
        rw [loop_ghost (fun r => ((if x.shape.batch = 1 then 0 else b) * x.shape.volume + r * (base * x.shape.get dim),
            base * S n + (b * R + r) * (base * DD))) (fun r => loop (base * x.shape.get dim) fun j py =>
          (rd px ((if x.shape.batch = 1 then 0 else b) * x.shape.volume + (r * (base * x.shape.get dim) + j)) >>= fun v =>
            wr py (base * S n + (b * R + r) * (base * DD) + j) v)) (by
              rw [hvx]
              by_cases h : x.shape.batch = 1 <;> simp [h]; ring) (fun r hr' t => by
            rw [loop_ghost (fun j => (if x.shape.batch = 1 then 0 else b) * x.shape.volume +
                (r * (base * x.shape.get dim) + j)) (fun j py =>
              (rd px ((if x.shape.batch = 1 then 0 else b) * x.shape.volume + (r * (base * x.shape.get dim) + j)) >>= fun v =>
                wr py (base * S n + (b * R + r) * (base * DD) + j) v)) (by simp) (fun j _ t => by
              simp only [Res.bind_assoc, Nat.add_assoc])]
            simp only [Res.bind_assoc, ok_bind]
            refine Res.bind_congr fun v _ => ?_
            congr 3 <;> ring)]
        simp only [Res.bind_assoc, ok_bind]
        refine Res.bind_congr fun v _ => ?_
        congr 2; ring)]
    simp only [Res.bind_assoc, ok_bind]
    refine Res.bind_congr fun v _ => ?_
    congr 2
    simp only [hS, sumN, hf.shape, hD]; ring), e]
  simp only [ok_bind, hy.shape]

end K
end Verif
