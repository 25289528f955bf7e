import Verif.FwLemmas4

/-!
# What the forward kernels compute, on flat positions (5): matmul, argmax/argmin
-/

namespace Verif
open Res
variable {α : Type} {d : Nat} {p : Profile}

/-- Accumulation of the blocked matrix product: blocks of 8 are summed up from zero, then added. -/
def blockSum [Zero α] [Add α] (n : Nat) (t : Nat → α) : α :=
  foldN ((n + 7) / 8) (fun j8 w => w + foldN (min (j8 * 8 + 8) n - j8 * 8) (fun tj a => a + t (j8 * 8 + tj)) 0) 0

theorem foldN_add_init [AddMonoid α] (n : Nat) (t : Nat → α) (s : α) :
    foldN n (fun j a => a + t j) s = s + foldN n (fun j a => a + t j) 0 := by
  induction n with
  | zero => simp
  | succ n ih => rw [foldN_succ, foldN_succ, ih, add_assoc]

/-- In any additive monoid the blocked sum is the plain sum. -/
theorem blockSum_eq [AddMonoid α] (n : Nat) (t : Nat → α) : blockSum n t = foldN n (fun j a => a + t j) 0 := by
  unfold blockSum
  have key : ∀ m, m ≤ (n + 7) / 8 →
      foldN m (fun j8 w => w + foldN (min (j8 * 8 + 8) n - j8 * 8) (fun tj a => a + t (j8 * 8 + tj)) 0) 0 =
      foldN (min (m * 8) n) (fun j a => a + t j) 0 := by
    intro m
    induction m with
    | zero => intro _; simp
    | succ m ih =>
      intro hm
      rw [foldN_succ, ih (by omega), ← foldN_add_init]
      have e1 : min (m * 8) n = m * 8 := by omega
      have e2 : min ((m + 1) * 8) n = m * 8 + (min (m * 8 + 8) n - m * 8) := by omega
      rw [e1, e2, foldN_add]
  rw [key _ (Nat.le_refl _)]
  congr 1
  omega

namespace K

theorem matmulFw_ok [Zero α] [Add α] [Mul α] {a b y : Tensor α} {sa sb s : Shape} {ga gb : Nat → α} {rest u f}
    (ha : a.Flat d sa ga) (hb : b.Flat d sb gb) (hy : y.Room d s)
    (hva : sa.volume = sa.get 0 * sa.get 1) (hvb : sb.volume = sa.get 1 * sb.get 1)
    (hvy : s.volume = sa.get 0 * sb.get 1)
    (hba : sa.batch = 1 ∨ sa.batch = s.batch) (hbb : sb.batch = 1 ∨ sb.batch = s.batch) :
    ∃ y', K.matmulFw p (a :: b :: rest) u f y = ok y' ∧
      y'.Flat d s (fun k =>
        let n := k / s.volume
        let i := k % sa.get 0
        let c := k % s.volume / sa.get 0
        blockSum (sa.get 1) (fun j => ga ((if sa.batch = 1 then 0 else n) * sa.volume + (i + j * sa.get 0)) *
          gb ((if sb.batch = 1 then 0 else n) * sb.volume + (j + c * sa.get 1)))) := by
  obtain ⟨la, hpa, _, _, hra⟩ := ha.ptr
  obtain ⟨lb, hpb, _, _, hrb⟩ := hb.ptr
  obtain ⟨ly, hpy, _, hly⟩ := hy.ptr
  have hsz : s.size = s.batch * s.volume := rfl
  have hd1p := ha.wf.get_pos 0
  generalize hd1 : sa.get 0 = d1 at *
  generalize hd2 : sa.get 1 = d2 at *
  generalize hd3 : sb.get 1 = d3 at *
  rw [hvy] at hsz
  -- the value read
  let T : Nat → Nat → Nat → Nat → α := fun n i c j =>
    ga ((if sa.batch = 1 then 0 else n) * sa.volume + (i + j * d1)) *
          gb ((if sb.batch = 1 then 0 else n) * sb.volume + (j + c * d2))
  have hinA : ∀ n i j, n < s.batch → i < d1 → j < d2 →
      rd la (n * (if sa.batch = 1 then 0 else d1 * d2) + (i + j * d1)) =
        ok (ga ((if sa.batch = 1 then 0 else n) * sa.volume + (i + j * d1))) := by
    intro n i j hn hi hj
    have e : n * (if sa.batch = 1 then 0 else d1 * d2) = (if sa.batch = 1 then 0 else n) * sa.volume := by
      rw [hva]; by_cases h : sa.batch = 1 <;> simp [h]
    rw [e]
    refine hra _ (nm_lt ?_ ?_)
    · have := ha.wf.batch_pos
      by_cases h : sa.batch = 1
      · simp [h]
      · simp only [h, if_false]; omega
    · rw [hva, Nat.mul_comm d1 d2, Nat.add_comm]; exact nm_lt hj hi
  have hinB : ∀ n j c, n < s.batch → j < d2 → c < d3 →
      rd lb (n * (if sb.batch = 1 then 0 else d2 * d3) + (j + c * d2)) =
        ok (gb ((if sb.batch = 1 then 0 else n) * sb.volume + (j + c * d2))) := by
    intro n j c hn hj hc
    have e : n * (if sb.batch = 1 then 0 else d2 * d3) = (if sb.batch = 1 then 0 else n) * sb.volume := by
      rw [hvb]; by_cases h : sb.batch = 1 <;> simp [h]
    rw [e]
    refine hrb _ (nm_lt ?_ ?_)
    · have := hb.wf.batch_pos
      by_cases h : sb.batch = 1
      · simp [h]
      · simp only [h, if_false]; omega
    · rw [hvb, Nat.mul_comm d2 d3, Nat.add_comm]; exact nm_lt hc hj
  have hpos : ∀ n i c, n < s.batch → i < d1 → c < d3 → n * (d1 * d3) + (i + c * d1) < ly.length := by
    intro n i c hn hi hc
    have : i + c * d1 < d1 * d3 := by rw [Nat.add_comm, Nat.mul_comm d1 d3]; exact nm_lt hc hi
    have := nm_lt hn this
    omega
  -- innermost sum
  have hsum : ∀ n i c j m, n < s.batch → i < d1 → c < d3 → j + m ≤ d2 →
      loop m (fun tj (tmp : α) => (rd la (n * (if sa.batch = 1 then 0 else d1 * d2) + (i + (j + tj) * d1)) >>= fun u =>
        rd lb (n * (if sb.batch = 1 then 0 else d2 * d3) + ((j + tj) + c * d2)) >>= fun v => ok (tmp + u * v))) 0 =
      ok (foldN m (fun tj a => a + T n i c (j + tj)) 0) := by
    intro n i c j m hn hi hc hm
    refine loop_eq_foldN fun tj htj t => ?_
    rw [hinA n i (j + tj) hn hi (by omega), ok_bind, hinB n (j + tj) c hn (by omega) hc, ok_bind]
  let blk : Nat → Nat → List α → Res (List α) := fun n k8 => fun py =>
      loop ((d1 + 7) / 8) (fun i8 py =>
        loop ((d2 + 7) / 8) (fun j8 py =>
          loop (min (k8 * 8 + 8) d3 - k8 * 8) (fun tk py =>
            loop (min (i8 * 8 + 8) d1 - i8 * 8) (fun ti py =>
              loop (min (j8 * 8 + 8) d2 - j8 * 8) (fun tj (tmp : α) =>
                (rd la (n * (if sa.batch = 1 then 0 else d1 * d2) + ((i8 * 8 + ti) + (j8 * 8 + tj) * d1)) >>= fun u =>
                rd lb (n * (if sb.batch = 1 then 0 else d2 * d3) + ((j8 * 8 + tj) + (k8 * 8 + tk) * d2)) >>= fun v =>
                ok (tmp + u * v))) 0 >>= fun tmp =>
              upd py (n * (d1 * d3) + ((i8 * 8 + ti) + (k8 * 8 + tk) * d1)) (fun w => w + tmp)) py) py) py) py
  let part : Nat → Nat → Nat → Nat → α := fun n i c j8 =>
    foldN (min (j8 * 8 + 8) d2 - j8 * 8) (fun tj a => a + T n i c (j8 * 8 + tj)) 0
  have pw : PW ly.length (loop s.batch fun n py => (loop (d1 * d3) (fun m py => wr py (n * (d1 * d3) + m) 0) py >>=
        loop ((d3 + 7) / 8) (blk n)))
      (fun k => foldN s.batch fun n w => foldN ((d3 + 7) / 8) (fun k8 => foldN ((d1 + 7) / 8) fun i8 =>
          foldN ((d2 + 7) / 8) fun j8 => foldN (min (k8 * 8 + 8) d3 - k8 * 8) fun tk => foldN (min (i8 * 8 + 8) d1 - i8 * 8) fun ti w =>
            if k = n * (d1 * d3) + ((i8 * 8 + ti) + (k8 * 8 + tk) * d1) then w + part n (i8 * 8 + ti) (k8 * 8 + tk) j8 else w)
        (foldN (d1 * d3) (fun m w => if k = n * (d1 * d3) + m then 0 else w) w)) := by
    refine PW.loop fun n hn => PW.bind (PW.loop fun m hm => PW.wr ?_) (PW.loop fun k8 hk8 => PW.loop fun i8 hi8 =>
      PW.loop fun j8 hj8 => PW.loop fun tk htk => PW.loop fun ti hti => ?_)
    · have := nm_lt hn hm; omega
    · refine (PW.upd (p := n * (d1 * d3) + ((i8 * 8 + ti) + (k8 * 8 + tk) * d1))
        (f := fun w => w + part n (i8 * 8 + ti) (k8 * 8 + tk) j8)
        (hpos n (i8 * 8 + ti) (k8 * 8 + tk) hn (by omega) (by omega))).congr
        (fun t _ => ?_) (fun _ _ _ => rfl)
      rw [hsum n (i8 * 8 + ti) (k8 * 8 + tk) (j8 * 8) _ hn (by omega) (by omega) (by omega), ok_bind]
  obtain ⟨l', e, hf⟩ := pw.result hy hly (g := fun k => blockSum d2 (T (k / s.volume) (k % d1) (k % s.volume / d1)))
    (fun k hk w0 => by
      rw [hsz] at hk
      have hv : 0 < d1 * d3 := by
        rcases Nat.eq_zero_or_pos (d1 * d3) with h0 | h0
        · rw [h0] at hk; simp at hk
        · exact h0
      have hn : k / (d1 * d3) < s.batch := (Nat.div_lt_iff_lt_mul hv).mpr hk
      have hm : k % (d1 * d3) < d1 * d3 := Nat.mod_lt _ hv
      have hkk := Nat.div_add_mod' k (d1 * d3)
      have hi : k % d1 < d1 := Nat.mod_lt _ hd1p
      have hc : k % (d1 * d3) / d1 < d3 := by
        rw [Nat.div_lt_iff_lt_mul (by omega), Nat.mul_comm d3 d1]; exact hm
      have hmm : k % (d1 * d3) % d1 = k % d1 := Nat.mod_mul_right_mod ..
      have hmk : k % d1 + k % (d1 * d3) / d1 * d1 = k % (d1 * d3) := by
        rw [← hmm]; exact Nat.mod_add_div' _ _
      rw [hvy]
      set n := k / (d1 * d3) with hnd
      set i := k % d1 with hid
      set c := k % (d1 * d3) / d1 with hcd
      have hkeq : k = n * (d1 * d3) + (i + c * d1) := by omega
      have huq : ∀ i' c', i' < d1 → c' < d3 → k = n * (d1 * d3) + (i' + c' * d1) → i' = i ∧ c' = c := by
        intro i' c' hi' hc' e
        have e1 : k % (d1 * d3) = i' + c' * d1 := by omega
        constructor
        · rw [← hmm, e1, Nat.add_mul_mod_self_right, Nat.mod_eq_of_lt hi']
        · rw [hcd, e1, Nat.add_mul_div_right _ _ (by omega), Nat.div_eq_of_lt hi', Nat.zero_add]
      have hun : ∀ n' m, m < d1 * d3 → k = n' * (d1 * d3) + m → n' = n := by
        intro n' m hm e
        rw [hnd, e, Nat.add_comm, Nat.add_mul_div_right _ _ hv, Nat.div_eq_of_lt hm, Nat.zero_add]
      refine foldN_one n hn (fun n' hn' hne t => ?_) ?_
      · refine (foldN_id fun k8 hk8 t => ?_).trans (foldN_id fun m hm t => ?_)
        rotate_left
        · rw [if_neg]; exact fun e => hne (hun _ _ hm e)
        · refine foldN_id fun i8 hi8 t => foldN_id fun j8 hj8 t => foldN_id fun tk htk t => foldN_id fun ti hti t => ?_
          rw [if_neg]; intro e; refine hne (hun _ _ ?_ e)
          rw [Nat.add_comm, Nat.mul_comm d1 d3]; exact nm_lt (by omega) (by omega)
      · have hz : foldN (d1 * d3) (fun m w => if k = n * (d1 * d3) + m then 0 else w) w0 = 0 :=
          foldN_one (i + c * d1) (by omega) (fun m hm hne t => by rw [if_neg]; omega) (by rw [if_pos hkeq])
        rw [hz]
        have hblk : ∀ m j M, j < M → (min (j / 8 * 8 + 8) M - j / 8 * 8 = m) → j % 8 < m := by omega
        refine foldN_one (c / 8) (by omega) (fun k8 hk8 hne t => ?_) (foldN_one (i / 8) (by omega) (fun i8 hi8 hne t => ?_) ?_)
        · refine foldN_id fun i8 hi8 t => foldN_id fun j8 hj8 t => foldN_id fun tk htk t => foldN_id fun ti hti t => ?_
          rw [if_neg]; intro e
          have := (huq _ _ (by omega) (by omega) e).2
          omega
        · refine foldN_id fun j8 hj8 t => foldN_id fun tk htk t => foldN_id fun ti hti t => ?_
          rw [if_neg]; intro e
          have := (huq _ _ (by omega) (by omega) e).1
          omega
        · unfold blockSum
          refine foldN_congr fun j8 hj8 w => ?_
          refine foldN_one (c % 8) (hblk _ _ _ hc rfl) (fun tk htk hne t => foldN_id fun ti hti t => ?_)
            (foldN_one (i % 8) (hblk _ _ _ hi rfl) (fun ti hti hne t => ?_) ?_)
          · rw [if_neg]; intro e
            have := (huq _ _ (by omega) (by omega) e).2
            omega
          · rw [if_neg]; intro e
            have h3 := hblk _ _ _ hc rfl
            have := (huq _ _ (by omega) (by omega) e).1
            omega
          · have e1 : i / 8 * 8 + i % 8 = i := Nat.div_add_mod' i 8
            have e2 : c / 8 * 8 + c % 8 = c := Nat.div_add_mod' c 8
            rw [e1, e2, if_pos hkeq])
  refine ⟨_, ?_, hf⟩
  simp only [K.matmulFw, ix_cons_zero, ix_cons_one, ok_bind, hy.shape, ha.shape, hb.shape, hpa, hpb, hpy, iter, hd1, hd2, hd3,
    hasBatch_if]
  rw [loop_ghost (fun n => (n * (if sa.batch = 1 then 0 else d1 * d2), n * (if sb.batch = 1 then 0 else d2 * d3), n * (d1 * d3)))
    (fun n py => (loop (d1 * d3) (fun m py => wr py (n * (d1 * d3) + m) 0) py >>= loop ((d3 + 7) / 8) (blk n))) (by simp)
    (fun n _ t => by
      simp only [Res.bind_assoc, Nat.succ_mul n]
      rfl), e]
  rfl

/-- State of the argmax/argmin scan after `j` comparisons. -/
def argScan (better : α → α → Bool) (r : Nat → α) (m : Nat) : α × Nat :=
  foldN m (fun j st => if better (r (j + 1)) st.1 then (r (j + 1), j + 1) else st) (r 0, 0)

theorem argext_ok (better : α → α → Bool) {x : Tensor α} {s : Shape} {g : Nat → α} {dim : Nat} {rest u} {ys : List Nat}
    (hx : x.Flat d s g) (hys : ys.length = s.size / s.get dim) :
    K.argext better p (x :: rest) (dim :: u) ys = ok ((List.range (s.size / s.get dim)).map fun k =>
      (argScan better (fun j => g (fibPos (s.lowerVolume dim) (s.get dim) k j)) (s.get dim - 1)).2) := by
  obtain ⟨lx, hpx, _, _, hr⟩ := hx.ptr
  have hsz := size_axis hx.wf hx.wf (dim := dim) (fun _ _ => rfl) rfl
  have hlv := hx.wf.lowerVolume_pos dim
  have hn1 := hx.wf.get_pos dim
  generalize hH : s.up dim * s.batch = H at hsz
  generalize hbase : s.lowerVolume dim = lv at *
  generalize hn : s.get dim = n at *
  have hr2 : s.size / n = lv * H := by rw [hsz, Nat.mul_right_comm, Nat.mul_div_cancel _ hn1]
  have hin : ∀ i, i < lv * H → ∀ t,
      (rd lx (i % lv + (i / lv) * (lv * n)) >>= fun v => loop (n - 1) (fun j (st : Nat × α × Nat) => (rd lx (st.1 + lv) >>= fun v =>
        ok (st.1 + lv, if better v st.2.1 then (v, j + 1) else st.2))) (i % lv + (i / lv) * (lv * n), v, 0) >>= fun st =>
        wx t i st.2.2) = wx t i (argScan better (fun j => g (fibPos lv n i j)) (n - 1)).2 := by
    intro i hi t
    have h0 : rd lx (i % lv + (i / lv) * (lv * n)) = ok (g (fibPos lv n i 0)) := by
      have := hr (fibPos lv n i 0) (by rw [hsz]; exact fibPos_lt hi hn1)
      unfold fibPos at this ⊢
      simpa using this
    rw [h0, ok_bind, loop_ghost (fun j => fibPos lv n i j) (fun j (st : α × Nat) =>
      ok (if better (g (fibPos lv n i (j + 1))) st.1 then (g (fibPos lv n i (j + 1)), j + 1) else st)) (by simp [fibPos])
      (fun j hj t => by
        have e : fibPos lv n i j + lv = fibPos lv n i (j + 1) := by unfold fibPos; ring
        simp only [e, hr (fibPos lv n i (j + 1)) (by rw [hsz]; exact fibPos_lt hi (by omega)), ok_bind]), loop_pure]
    rfl
  have pw : PW ys.length (loop (s.size / n) fun i ys => (rd lx (i % lv + (i / lv) * (lv * n)) >>= fun v =>
        loop (n - 1) (fun j (st : Nat × α × Nat) => (rd lx (st.1 + lv) >>= fun v =>
        ok (st.1 + lv, if better v st.2.1 then (v, j + 1) else st.2))) (i % lv + (i / lv) * (lv * n), v, 0) >>= fun st =>
        wx ys i st.2.2))
      (fun k => foldN (s.size / n) (fun i a => if k = i then
        (argScan better (fun j => g (fibPos lv n i j)) (n - 1)).2 else a)) := by
    refine PW.loop fun i hi => (PW.wr (v := (argScan better (fun j => g (fibPos lv n i j)) (n - 1)).2)
      (p := i) (by omega)).congr (fun t ht => ?_) (fun _ _ _ => rfl)
    rw [hin i (by omega)]; simp [wx, wr, show i < t.length by omega]
  obtain ⟨l', e, h2, h3⟩ := pw ys rfl
  simp only [K.argext, ix_cons_zero, ok_bind, hx.shape, Shape.sizeU_eq hx.small, Shape.lowerVolumeU_eq hx.wf, hpx, hbase, hn,
    check_true _ (Or.inr (Nat.ne_of_gt hlv))]
  rw [e]
  congr 1
  apply List.ext_getElem?
  intro k
  rw [h3]
  by_cases hk : k < s.size / n
  · rw [List.getElem?_eq_getElem (by omega), Option.map_some]
    have := foldN_one (f := fun i a => if k = i then (argScan better (fun j => g (fibPos lv n i j)) (n - 1)).2 else a)
      (s := ys[k]) k hk (fun i _ hne t => by rw [if_neg (fun e => hne e.symm)]) rfl
    simp [hk, this]
  · rw [List.getElem?_eq_none (by omega), List.getElem?_eq_none (by simp; omega)]; rfl

end K
end Verif
