import Verif.FwLemmas5

/-!
# What the forward kernels compute, on flat positions (6): argsort
-/

namespace Verif
open Res
variable {α : Type} {d : Nat} {p : Profile}

/-- Contract of `slice::sort_unstable_by` of the standard library: the result is a permutation of the slice, sorted if the
comparison is a total preorder on the elements of the slice. -/
def SortSpec (srt : (Nat → Nat → Bool) → List Nat → List Nat) : Prop :=
  ∀ le l, (srt le l).Perm l ∧
    ((∀ a, a ∈ l → ∀ b, b ∈ l → ∀ c, c ∈ l → le a b = true → le b c = true → le a c = true) →
      (∀ a, a ∈ l → ∀ b, b ∈ l → le a b = true ∨ le b a = true) → (srt le l).Pairwise (fun a b => le a b = true))

/-- The contract is satisfiable: merge sort meets it. -/
theorem sortSpec_mergeSort : SortSpec (fun le l => l.mergeSort le) := by
  intro le l
  refine ⟨List.mergeSort_perm l le, fun htr hto => ?_⟩
  have e : l.mergeSort le = (l.attach.mergeSort (fun a b => le a.1 b.1)).map Subtype.val := by
    rw [List.map_mergeSort (s := le) (fun a _ b _ => rfl), List.attach_map_subtype_val]
  show (l.mergeSort le).Pairwise _
  rw [e, List.pairwise_map]
  exact List.pairwise_mergeSort (le := fun a b : { x // x ∈ l } => le a.1 b.1)
    (fun a b c => htr a.1 a.2 b.1 b.2 c.1 c.2)
    (fun a b => by have := hto a.1 a.2 b.1 b.2; simpa using this) l.attach

theorem wx_eq_wr {β : Type} {t : List β} {i : Nat} {v : β} (h : i < t.length) : wx t i v = wr t i v := by
  simp [wx, wr, h]

namespace K

/-- The positions of fibre `q`. -/
def fibre (lv n q : Nat) : List Nat := (List.range n).map (fun i => fibPos lv n q i)

theorem sortBlock_vals {src : List α} {l : List Nat} {g : Nat → α} (hr : ∀ k, k ∈ l → rd src k = ok (g k)) :
    loop l.length (fun i (acc : List α) => (ix l i >>= fun k => rd src k >>= fun v => ok (acc ++ [v]))) [] = ok (l.map g) := by
    have key : ∀ m, m ≤ l.length → loop m (fun i (acc : List α) => (ix l i >>= fun k => rd src k >>= fun v => ok (acc ++ [v]))) []
        = ok ((l.take m).map g) := by
      intro m
      induction m with
      | zero => intro _; rfl
      | succ m ih =>
        intro hm
        rw [loop_succ, ih (by omega), ok_bind, ix_eq (show m < l.length by omega), ok_bind,
          hr _ (List.getElem_mem _), ok_bind, List.take_succ_eq_append_getElem (by omega), List.map_append]
        rfl
    have := key _ (Nat.le_refl _)
    rwa [List.take_length] at this

theorem sortBlock_ok [Flt α] {srt : (Nat → Nat → Bool) → List Nat → List Nat} {src : List α} {l : List Nat} {g : Nat → α}
    (hr : ∀ k, k ∈ l → rd src k = ok (g k))
    (hc : 1 < l.length → ∀ a, a ∈ l → ∀ b, b ∈ l → Flt.gt (g a) (g b) = true ∨ Flt.gt (g b) (g a) = true ∨ Flt.feq (g a) (g b) = true) :
    sortBlock srt src l = ok (srt (cmpAt src) l) := by
  unfold sortBlock
  rw [sortBlock_vals hr, ok_bind, check_true, ok_bind]
  by_cases h1 : 1 < l.length
  · right
    intro a ha b hb
    obtain ⟨i, hi, rfl⟩ := List.mem_map.mp ha
    obtain ⟨j, hj, rfl⟩ := List.mem_map.mp hb
    exact hc h1 i hi j hj
  · left; omega

/-- Two values that cannot be compared make the sort panic. -/
theorem sortBlock_panic [Flt α] {srt : (Nat → Nat → Bool) → List Nat → List Nat} {src : List α} {l : List Nat} {g : Nat → α}
    (hr : ∀ k, k ∈ l → rd src k = ok (g k)) (h1 : 1 < l.length) {a b : Nat} (ha : a ∈ l) (hb : b ∈ l)
    (hc : ¬ (Flt.gt (g a) (g b) = true ∨ Flt.gt (g b) (g a) = true ∨ Flt.feq (g a) (g b) = true)) :
    sortBlock srt src l = panic := by
  unfold sortBlock
  rw [sortBlock_vals hr, ok_bind, check_false]
  · rfl
  · rintro (h | h)
    · omega
    · exact hc (h _ (List.mem_map_of_mem ha) _ (List.mem_map_of_mem hb))

/-- The first loop of argsort: the positions of the fibres one after the other. -/
theorem argsort_phase1 {lv n H sz : Nat} (hlv : 0 < lv) (hn1 : 0 < n) (hsz : sz = lv * n * H) :
    ∃ ind : List Nat, loop H (fun o ind => loop lv (fun j ind => loop n (fun i ind =>
        wx ind (o * (lv * n) + j * n + i) (o * (lv * n) + j + lv * i)) ind) ind) (List.replicate sz 0) = ok ind ∧ ind.length = sz ∧
      ∀ q i, q < lv * H → i < n → ind[q * n + i]? = some (fibPos lv n q i) := by
  have hln : 0 < lv * n := Nat.mul_pos hlv hn1
  -- blocks o, j ↔ q
  have hfp : ∀ o j i, j < lv → o * (lv * n) + j + lv * i = fibPos lv n (o * lv + j) i := by
    intro o j i hj
    rw [fibPos_eq, Nat.add_comm (o * lv) j, Nat.add_mul_mod_self_right, Nat.mod_eq_of_lt hj,
      Nat.add_mul_div_right _ _ hlv, Nat.div_eq_of_lt hj]
    ring
  -- phase 1
  have pw1 : PW sz (loop H (fun o ind => loop lv (fun j ind => loop n (fun i ind =>
      wx ind (o * (lv * n) + j * n + i) (o * (lv * n) + j + lv * i)) ind) ind))
      (fun k => foldN H fun o => foldN lv fun j => foldN n fun i a =>
        if k = o * (lv * n) + (j * n + i) then fibPos lv n (o * lv + j) i else a) := by
    refine PW.loop fun o ho => PW.loop fun j hj => PW.loop fun i hi => ?_
    have hlt : o * (lv * n) + (j * n + i) < sz := by
      rw [hsz, Nat.mul_comm (lv * n) H]; exact nm_lt ho (nm_lt hj hi)
    refine (PW.wr (p := o * (lv * n) + (j * n + i)) hlt).congr (fun t ht => ?_) (fun _ _ _ => rfl)
    rw [hfp o j i hj, Nat.add_assoc, wx_eq_wr (by omega)]
  obtain ⟨ind, e1, hl1, hv1⟩ := pw1 (List.replicate sz 0) (by simp)
  have hind : ∀ q i, q < lv * H → i < n → ind[q * n + i]? = some (fibPos lv n q i) := by
    intro q i hq hi
    have hlt : q * n + i < sz := by
      rw [hsz, show lv * n * H = lv * H * n by ring]; exact nm_lt hq hi
    have h1 : q / lv < H := by rw [Nat.div_lt_iff_lt_mul hlv, Nat.mul_comm]; exact hq
    have hqq := Nat.div_add_mod' q lv
    have hk : q * n + i = q / lv * (lv * n) + (q % lv * n + i) := by
      rw [← Nat.add_assoc]; congr 1
      calc q * n = (q / lv * lv + q % lv) * n := by rw [hqq]
        _ = _ := by ring
    rw [hv1, List.getElem?_replicate, if_pos hlt, Option.map_some]
    congr 1
    have hki : (q / lv * (lv * n) + (q % lv * n + i)) = q * n + i := hk.symm
    have hbx : q * n + i < H * (lv * n) := by rw [Nat.mul_comm H (lv * n), ← hsz]; exact hlt
    refine foldN_box (f := fun o j i' a => if q * n + i = o * (lv * n) + (j * n + i') then fibPos lv n (o * lv + j) i' else a)
      hbx (fun o j i' _ _ _ hne t => by rw [if_neg (fun e => hne e.symm)]) ?_
    have m1 : q % lv * n + i < lv * n := nm_lt (Nat.mod_lt _ hlv) hi
    have a1 : (q * n + i) / (lv * n) = q / lv := by
      rw [hk, Nat.add_comm, Nat.add_mul_div_right _ _ hln, Nat.div_eq_of_lt m1, Nat.zero_add]
    have a2 : (q * n + i) % (lv * n) = q % lv * n + i := by
      rw [hk, Nat.add_comm, Nat.add_mul_mod_self_right, Nat.mod_eq_of_lt m1]
    have a3 : (q % lv * n + i) / n = q % lv := by
      rw [Nat.add_comm, Nat.add_mul_div_right _ _ hn1, Nat.div_eq_of_lt hi, Nat.zero_add]
    have a4 : (q * n + i) % n = i := by rw [Nat.add_comm, Nat.add_mul_mod_self_right, Nat.mod_eq_of_lt hi]
    rw [a1, a2, a3, a4, if_pos hk, hqq]
  exact ⟨ind, e1, hl1, hind⟩

theorem fibre_length (lv n q : Nat) : (fibre lv n q).length = n := by simp [fibre]

/-- The second loop of argsort on its first `Q` blocks. -/
theorem argsort_phase2 [Flt α] {srt : (Nat → Nat → Bool) → List Nat → List Nat} (hs : SortSpec srt) {lv n H sz Q : Nat} {lx : List α} {g : Nat → α}
    {ind : List Nat} (hn1 : 0 < n) (hsz : sz = lv * n * H) (hr : ∀ k, k < sz → rd lx k = ok (g k)) (hQ : Q ≤ lv * H)
    (hl1 : ind.length = sz) (hind : ∀ q i, q < lv * H → i < n → ind[q * n + i]? = some (fibPos lv n q i))
    (hc : ∀ q, q < Q → ∀ i j, i < n → j < n → 1 < n →
      Flt.gt (g (fibPos lv n q i)) (g (fibPos lv n q j)) = true ∨ Flt.gt (g (fibPos lv n q j)) (g (fibPos lv n q i)) = true ∨
        Flt.feq (g (fibPos lv n q i)) (g (fibPos lv n q j)) = true) :
    ∃ ind2 : List Nat, loop Q (fun o (ind : List Nat) => (check (o * n + n ≤ ind.length) >>= fun _ =>
        sortBlock srt lx ((ind.drop (o * n)).take n) >>= fun blk =>
        ok (ind.take (o * n) ++ blk ++ ind.drop (o * n + n)))) ind = ok ind2 ∧ ind2.length = sz ∧
      (∀ q i, q < Q → i < n → ind2[q * n + i]? = (srt (cmpAt lx) (fibre lv n q))[i]?) ∧
      ∀ q i, Q ≤ q → q < lv * H → i < n → ind2[q * n + i]? = some (fibPos lv n q i) := by
  -- phase 2
  have hblk : ∀ q, (fibre lv n q).length = n := by intro q; simp [fibre]
  have hsrtl : ∀ q, (srt (cmpAt lx) (fibre lv n q)).length = n := fun q => by
    rw [(hs (cmpAt lx) (fibre lv n q)).1.length_eq, hblk]
  obtain ⟨ind2, e2, hl2, hdone, hrest⟩ := loop_inv (n := Q)
    (f := fun o (ind : List Nat) => (check (o * n + n ≤ ind.length) >>= fun _ =>
      sortBlock srt lx ((ind.drop (o * n)).take n) >>= fun blk =>
      ok (ind.take (o * n) ++ blk ++ ind.drop (o * n + n)))) (s := ind)
    (fun o t => t.length = sz ∧ (∀ q i, q < o → i < n → t[q * n + i]? = (srt (cmpAt lx) (fibre lv n q))[i]?) ∧
      (∀ q i, o ≤ q → q < lv * H → i < n → t[q * n + i]? = some (fibPos lv n q i)))
    ⟨hl1, fun q i hq => by omega, fun q i _ hq hi => hind q i hq hi⟩
    (by
      rintro o t hoQ ⟨hl, h1, h2⟩
      have ho : o < lv * H := lt_of_lt_of_le hoQ hQ
      have hle : o * n + n ≤ t.length := by
        rw [hl, hsz, show lv * n * H = lv * H * n by ring]
        calc o * n + n = (o + 1) * n := by ring
          _ ≤ lv * H * n := Nat.mul_le_mul_right _ ho
      have hb : (t.drop (o * n)).take n = fibre lv n o := by
        apply List.ext_getElem?
        intro i
        by_cases hi : i < n
        · rw [List.getElem?_take_of_lt hi, List.getElem?_drop, h2 o i (Nat.le_refl _) ho hi]
          simp [fibre, hi]
        · rw [List.getElem?_eq_none (by simp; omega), List.getElem?_eq_none (by rw [hblk]; omega)]
      refine ⟨t.take (o * n) ++ srt (cmpAt lx) (fibre lv n o) ++ t.drop (o * n + n), ?_, ?_, ?_, ?_⟩
      · rw [check_true _ hle, ok_bind, hb, sortBlock_ok (g := g), ok_bind]
        · intro k hk
          obtain ⟨i, hi, rfl⟩ := List.mem_map.mp hk
          exact hr _ (by rw [hsz]; exact fibPos_lt ho (List.mem_range.mp hi))
        · intro h1l a ha b hb
          obtain ⟨i, hi, rfl⟩ := List.mem_map.mp ha
          obtain ⟨j, hj, rfl⟩ := List.mem_map.mp hb
          exact hc o hoQ i j (List.mem_range.mp hi) (List.mem_range.mp hj) (by rw [hblk] at h1l; exact h1l)
      · simp only [List.length_append, List.length_take, List.length_drop, hsrtl]; omega
      · intro q i hq hi
        have hlt : (t.take (o * n)).length = o * n := by rw [List.length_take]; omega
        by_cases hqo : q = o
        · subst hqo
          rw [List.append_assoc, List.getElem?_append_right (by omega), hlt,
            List.getElem?_append_left (by rw [hsrtl]; omega)]
          congr 1; omega
        · have hq' : q < o := by omega
          have : q * n + i < o * n := nm_lt hq' hi
          rw [List.append_assoc, List.getElem?_append_left (by omega), List.getElem?_take_of_lt this, h1 q i hq' hi]
      · intro q i hq hq2 hi
        have hlt : (t.take (o * n)).length = o * n := by rw [List.length_take]; omega
        have : (o + 1) * n ≤ q * n := Nat.mul_le_mul_right _ hq
        have e : (o + 1) * n = o * n + n := by ring
        rw [List.getElem?_append_right (by rw [List.length_append, hlt, hsrtl]; omega), List.length_append, hlt, hsrtl,
          List.getElem?_drop, show o * n + n + (q * n + i - (o * n + n)) = q * n + i by omega]
        exact h2 q i (by omega) hq2 hi)
  exact ⟨ind2, e2, hl2, hdone, hrest⟩

theorem argsort_ok [Flt α] {srt : (Nat → Nat → Bool) → List Nat → List Nat} (hs : SortSpec srt)
    {x : Tensor α} {s : Shape} {g : Nat → α} {dim : Nat} {rest u} {ys : List Nat}
    (hx : x.Flat d s g) (hys : ys.length = s.size)
    (hc : ∀ q, q < s.size / s.get dim → ∀ i j, i < s.get dim → j < s.get dim → 1 < s.get dim →
      let a := g (fibPos (s.lowerVolume dim) (s.get dim) q i)
      let b := g (fibPos (s.lowerVolume dim) (s.get dim) q j)
      Flt.gt a b = true ∨ Flt.gt b a = true ∨ Flt.feq a b = true) :
    ∃ r lx, K.argsort srt p (x :: rest) (dim :: u) ys = ok r ∧ x.buf = some lx ∧ r.length = s.size ∧
      ∀ q, q < s.size / s.get dim → ∀ i, i < s.get dim →
        r[fibPos (s.lowerVolume dim) (s.get dim) q i]? =
          (srt (cmpAt lx) (fibre (s.lowerVolume dim) (s.get dim) q))[i]? := by
  obtain ⟨lx, hpx, hbuf, _, hr⟩ := hx.ptr
  have hsz := size_axis hx.wf hx.wf (dim := dim) (fun _ _ => rfl) rfl
  have hlv := hx.wf.lowerVolume_pos dim
  have hn1 := hx.wf.get_pos dim
  generalize hH : s.up dim * s.batch = H at hsz
  generalize hbase : s.lowerVolume dim = lv at *
  generalize hn : s.get dim = n at *
  have hln : 0 < lv * n := Nat.mul_pos hlv hn1
  have hr2 : s.size / n = lv * H := by rw [hsz, Nat.mul_right_comm, Nat.mul_div_cancel _ hn1]
  have hnb : (s.size + lv * n - 1) / (lv * n) = H := by
    rw [hsz]
    have : lv * n * H + lv * n - 1 = (lv * n - 1) + lv * n * H := by omega
    rw [this, (flat_div (by omega)).1]
  have hnb2 : (s.size + n - 1) / n = lv * H := by
    rw [hsz]
    have : lv * n * H + n - 1 = (n - 1) + n * (lv * H) := by
      have : lv * n * H = n * (lv * H) := by ring
      omega
    rw [this, (flat_div (by omega)).1]
  rw [hr2] at hc
  -- blocks o, j ↔ q
  have hfp : ∀ o j i, j < lv → o * (lv * n) + j + lv * i = fibPos lv n (o * lv + j) i := by
    intro o j i hj
    rw [fibPos_eq, Nat.add_comm (o * lv) j, Nat.add_mul_mod_self_right, Nat.mod_eq_of_lt hj,
      Nat.add_mul_div_right _ _ hlv, Nat.div_eq_of_lt hj]
    ring
  obtain ⟨ind, e1, hl1, hind⟩ := argsort_phase1 (H := H) hlv hn1 hsz
  have hsrtl : ∀ q, (srt (cmpAt lx) (fibre lv n q)).length = n := fun q => by
    rw [(hs (cmpAt lx) (fibre lv n q)).1.length_eq, fibre_length]
  obtain ⟨ind2, e2, hl2, hdone, -⟩ := argsort_phase2 hs hn1 hsz hr (Nat.le_refl _) hl1 hind hc
  -- phase 3
  let V : Nat → Nat → Nat := fun q i => ((srt (cmpAt lx) (fibre lv n q))[i]?).getD 0
  have hV : ∀ q i, i < n → (srt (cmpAt lx) (fibre lv n q))[i]? = some (V q i) := by
    intro q i hi
    simp only [V]
    rw [List.getElem?_eq_getElem (by rw [hsrtl]; exact hi)]; rfl
  have pw3 : PW ys.length (loop H (fun o ys => loop lv (fun j ys => loop n (fun i ys =>
      (ix ind2 (o * (lv * n) + j * n + i) >>= fun v => wx ys (o * (lv * n) + j + lv * i) v)) ys) ys))
      (fun k => foldN H fun o => foldN lv fun j => foldN n fun i a =>
        if k = fibPos lv n (o * lv + j) i then V (o * lv + j) i else a) := by
    refine PW.loop fun o ho => PW.loop fun j hj => PW.loop fun i hi => ?_
    have hq : o * lv + j < lv * H := by rw [Nat.mul_comm lv H]; exact nm_lt ho hj
    have hlt : fibPos lv n (o * lv + j) i < s.size := by rw [hsz]; exact fibPos_lt hq hi
    refine (PW.wr (p := fibPos lv n (o * lv + j) i) (by omega)).congr (fun t ht => ?_) (fun _ _ _ => rfl)
    rw [hfp o j i hj, show o * (lv * n) + j * n + i = (o * lv + j) * n + i by ring,
      ix_some ((hdone _ _ hq hi).trans (hV _ _ hi)), ok_bind, wx_eq_wr (by omega)]
  obtain ⟨r, e3, hl3, hv3⟩ := pw3 ys rfl
  refine ⟨r, lx, ?_, hbuf, by omega, ?_⟩
  · simp only [K.argsort, ix_cons_zero, ok_bind, hx.shape, Shape.sizeU_eq hx.small, Shape.lowerVolumeU_eq hx.wf, hpx, hbase, hn,
      hnb, hnb2, check_true (lv * n ≠ 0) (by omega), e1]
    rw [e2, ok_bind, e3]
  · intro q hq i hi
    rw [hr2] at hq
    have hlt : fibPos lv n q i < s.size := by rw [hsz]; exact fibPos_lt hq hi
    rw [hv3, List.getElem?_eq_getElem (by omega), Option.map_some, hV q i hi]
    congr 1
    have hqq := Nat.div_add_mod' q lv
    have h1 : q / lv < H := by rw [Nat.div_lt_iff_lt_mul hlv, Nat.mul_comm]; exact hq
    have huq : ∀ o j i', j < lv → i' < n → fibPos lv n q i = fibPos lv n (o * lv + j) i' → o * lv + j = q ∧ i' = i := by
      intro o j i' hj hi' e
      constructor
      · rw [← fibSrc_fibPos hlv hi' (i := o * lv + j), ← e, fibSrc_fibPos hlv hi]
      · rw [← fibPos_idx hlv hi' (i := o * lv + j), ← e, fibPos_idx hlv hi]
    refine foldN_one (q / lv) h1 (fun o ho hne t => foldN_id fun j hj t => foldN_id fun i' hi' t => ?_)
      (foldN_one (q % lv) (Nat.mod_lt _ hlv) (fun j hj hne t => foldN_id fun i' hi' t => ?_)
        (foldN_one i hi (fun i' hi' hne t => ?_) ?_))
    · rw [if_neg]; intro e; apply hne
      rw [← (huq o j i' hj hi' e).1, Nat.add_comm, Nat.add_mul_div_right _ _ hlv, Nat.div_eq_of_lt hj, Nat.zero_add]
    · rw [if_neg]; intro e; apply hne
      have := (huq _ j i' hj hi' e).1; omega
    · rw [if_neg]; intro e; apply hne
      exact (huq _ _ i' (Nat.mod_lt _ hlv) hi' e).2
    · rw [hqq, if_pos rfl]

/-- The loop panics when one of its steps does. -/
theorem loop_panic {σ : Type} {f : Nat → σ → Res σ} {s t : σ} {q : Nat} (h : loop q f s = ok t) (hp : f q t = panic) :
    ∀ N, q < N → loop N f s = panic := by
  intro N hq
  induction N with
  | zero => omega
  | succ N ih =>
    rw [loop_succ]
    rcases Nat.lt_succ_iff_lt_or_eq.mp hq with h1 | rfl
    · rw [ih h1]; rfl
    · rw [h]; exact hp

/-- Two values of a fibre that cannot be compared make argsort panic. -/
theorem argsort_panics [Flt α] {srt : (Nat → Nat → Bool) → List Nat → List Nat} (hs : SortSpec srt)
    {x : Tensor α} {s : Shape} {g : Nat → α} {dim : Nat} {rest u} {ys : List Nat} (hx : x.Flat d s g) (h1 : 1 < s.get dim)
    {q i j : Nat} (hq : q < s.size / s.get dim) (hi : i < s.get dim) (hj : j < s.get dim)
    (hc : ¬ (Flt.gt (g (fibPos (s.lowerVolume dim) (s.get dim) q i)) (g (fibPos (s.lowerVolume dim) (s.get dim) q j)) = true ∨
      Flt.gt (g (fibPos (s.lowerVolume dim) (s.get dim) q j)) (g (fibPos (s.lowerVolume dim) (s.get dim) q i)) = true ∨
      Flt.feq (g (fibPos (s.lowerVolume dim) (s.get dim) q i)) (g (fibPos (s.lowerVolume dim) (s.get dim) q j)) = true)) :
    K.argsort srt p (x :: rest) (dim :: u) ys = panic := by
  classical
  obtain ⟨lx, hpx, hbuf, _, hr⟩ := hx.ptr
  have hsz := size_axis hx.wf hx.wf (dim := dim) (fun _ _ => rfl) rfl
  have hlv := hx.wf.lowerVolume_pos dim
  have hn1 := hx.wf.get_pos dim
  generalize hH : s.up dim * s.batch = H at hsz
  generalize hbase : s.lowerVolume dim = lv at *
  generalize hn : s.get dim = n at *
  have hln : 0 < lv * n := Nat.mul_pos hlv hn1
  have hr2 : s.size / n = lv * H := by rw [hsz, Nat.mul_right_comm, Nat.mul_div_cancel _ hn1]
  have hnb : (s.size + lv * n - 1) / (lv * n) = H := by
    rw [hsz]
    have : lv * n * H + lv * n - 1 = (lv * n - 1) + lv * n * H := by omega
    rw [this, (flat_div (by omega)).1]
  have hnb2 : (s.size + n - 1) / n = lv * H := by
    rw [hsz]
    have : lv * n * H + n - 1 = (n - 1) + n * (lv * H) := by
      have : lv * n * H = n * (lv * H) := by ring
      omega
    rw [this, (flat_div (by omega)).1]
  rw [hr2] at hq
  -- the first fibre with such values
  have hex : ∃ q, q < lv * H ∧ ∃ i j, i < n ∧ j < n ∧ ¬ (Flt.gt (g (fibPos lv n q i)) (g (fibPos lv n q j)) = true ∨
      Flt.gt (g (fibPos lv n q j)) (g (fibPos lv n q i)) = true ∨ Flt.feq (g (fibPos lv n q i)) (g (fibPos lv n q j)) = true) :=
    ⟨q, hq, i, j, hi, hj, hc⟩
  obtain ⟨hQ, i', j', hi', hj', hc'⟩ := Nat.find_spec hex
  have hmin : ∀ q, q < Nat.find hex → ∀ i j, i < n → j < n → 1 < n → Flt.gt (g (fibPos lv n q i)) (g (fibPos lv n q j)) = true ∨
      Flt.gt (g (fibPos lv n q j)) (g (fibPos lv n q i)) = true ∨ Flt.feq (g (fibPos lv n q i)) (g (fibPos lv n q j)) = true := by
    intro q' hq' i j hi hj _
    by_contra hn
    exact Nat.find_min hex hq' ⟨hq'.trans hQ, i, j, hi, hj, hn⟩
  generalize Nat.find hex = Q at *
  obtain ⟨ind, e1, hl1, hind⟩ := argsort_phase1 (H := H) hlv hn1 hsz
  obtain ⟨ind2, e2, hl2, -, hrest⟩ := argsort_phase2 hs hn1 hsz hr hQ.le hl1 hind hmin
  have hle : Q * n + n ≤ ind2.length := by
    rw [hl2, hsz, show lv * n * H = lv * H * n by ring]
    calc Q * n + n = (Q + 1) * n := by ring
      _ ≤ lv * H * n := Nat.mul_le_mul_right _ hQ
  have hb : (ind2.drop (Q * n)).take n = fibre lv n Q := by
    apply List.ext_getElem?
    intro i
    by_cases hi : i < n
    · rw [List.getElem?_take_of_lt hi, List.getElem?_drop, hrest Q i (Nat.le_refl _) hQ hi]
      simp [fibre, hi]
    · rw [List.getElem?_eq_none (by simp; omega), List.getElem?_eq_none (by rw [fibre_length]; omega)]
  have hbad := loop_panic e2 (by
    show (check (Q * n + n ≤ ind2.length) >>= fun _ => sortBlock srt lx ((ind2.drop (Q * n)).take n) >>= fun blk =>
      ok (ind2.take (Q * n) ++ blk ++ ind2.drop (Q * n + n))) = panic
    rw [check_true _ hle, ok_bind, hb, sortBlock_panic (l := fibre lv n Q) (g := g) (fun k hk => by
      obtain ⟨i, hi, rfl⟩ := List.mem_map.mp hk
      exact hr _ (by rw [hsz]; exact fibPos_lt hQ (List.mem_range.mp hi))) (by rw [fibre_length]; exact h1)
      (List.mem_map_of_mem (List.mem_range.mpr hi')) (List.mem_map_of_mem (List.mem_range.mpr hj')) hc']
    rfl) (lv * H) hQ
  simp only [K.argsort, ix_cons_zero, ok_bind, hx.shape, Shape.sizeU_eq hx.small, Shape.lowerVolumeU_eq hx.wf, hpx, hbase, hn,
    hnb, hnb2, check_true (lv * n ≠ 0) (by omega), e1]
  rw [hbad]; rfl

end K
end Verif
