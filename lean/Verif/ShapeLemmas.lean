import Verif.Spec

namespace Verif
open Res

/-! ## Products and offsets -/

theorem volN_eq_foldN (f : Nat → Nat) (n : Nat) : foldN n (fun i r => r * f i) 1 = volN f n := by
  induction n with
  | zero => rfl
  | succ n ih => rw [foldN_succ, ih]; rfl

theorem volN_congr {f g : Nat → Nat} {n : Nat} (h : ∀ i, i < n → f i = g i) : volN f n = volN g n := by
  induction n with
  | zero => rfl
  | succ n ih => rw [volN, volN, ih (fun i hi => h i (by omega)), h n (by omega)]

theorem volN_pos {f : Nat → Nat} {n : Nat} (h : ∀ i, i < n → 1 ≤ f i) : 1 ≤ volN f n := by
  induction n with
  | zero => simp [volN]
  | succ n ih => rw [volN]; exact Nat.mul_pos (ih (fun i hi => h i (by omega))) (h n (by omega))

theorem volN_add (f : Nat → Nat) (m n : Nat) :
    volN f (m + n) = volN f m * volN (fun i => f (m + i)) n := by
  induction n with
  | zero => simp [volN]
  | succ n ih => rw [← Nat.add_assoc, volN, ih, volN, Nat.mul_assoc]

theorem volN_ones {f : Nat → Nat} {n : Nat} (h : ∀ i, i < n → f i = 1) : volN f n = 1 := by
  induction n with
  | zero => rfl
  | succ n ih => rw [volN, ih (fun i hi => h i (by omega)), h n (by omega)]

theorem volN_mono {f : Nat → Nat} {m n : Nat} (hmn : m ≤ n) (h : ∀ i, i < n → 1 ≤ f i) :
    volN f m ≤ volN f n := by
  obtain ⟨k, rfl⟩ := Nat.exists_eq_add_of_le hmn
  rw [volN_add]
  exact Nat.le_mul_of_pos_right _ (volN_pos (fun i hi => h (m + i) (by omega)))

theorem volN_zero_of {f : Nat → Nat} {n i : Nat} (hi : i < n) (h : f i = 0) : volN f n = 0 := by
  induction n with
  | zero => omega
  | succ n ih =>
    rw [volN]
    by_cases e : i = n
    · subst e; rw [h, Nat.mul_zero]
    · rw [ih (by omega), Nat.zero_mul]

theorem offN_congr {f g c e : Nat → Nat} {n : Nat} (h : ∀ i, i < n → f i = g i) (hc : ∀ i, i < n → c i = e i) :
    offN f c n = offN g e n := by
  induction n with
  | zero => rfl
  | succ n ih =>
    rw [offN, offN, ih (fun i hi => h i (by omega)) (fun i hi => hc i (by omega)), hc n (by omega),
      volN_congr (fun i hi => h i (by omega))]

theorem offN_add (f c : Nat → Nat) (m n : Nat) :
    offN f c (m + n) = offN f c m + volN f m * offN (fun i => f (m + i)) (fun i => c (m + i)) n := by
  induction n with
  | zero => simp [offN]
  | succ n ih => rw [← Nat.add_assoc, offN, ih, offN, volN_add]; ring

theorem offN_lt {f c : Nat → Nat} {n : Nat} (h : ∀ i, i < n → c i < f i) : offN f c n < volN f n := by
  induction n with
  | zero => simp [offN, volN]
  | succ n ih =>
    rw [offN, volN]
    have h1 := ih (fun i hi => h i (by omega))
    have h2 : c n + 1 ≤ f n := h n (by omega)
    calc offN f c n + c n * volN f n < volN f n + c n * volN f n := by omega
      _ = volN f n * (c n + 1) := by ring
      _ ≤ volN f n * f n := Nat.mul_le_mul_left _ h2

theorem offN_zero {f c : Nat → Nat} {n : Nat} (h : ∀ i, i < n → c i = 0) : offN f c n = 0 := by
  induction n with
  | zero => rfl
  | succ n ih => rw [offN, ih (fun i hi => h i (by omega)), h n (by omega), Nat.zero_mul]

/-! ## Loops -/

theorem loop_trace {n : Nat} {f : Nat → σ → Res σ} {s t : σ} (h : loop n f s = ok t) :
    ∃ tr : Nat → σ, tr 0 = s ∧ tr n = t ∧ ∀ i, i < n → f i (tr i) = ok (tr (i + 1)) := by
  induction n generalizing t with
  | zero =>
    simp only [loop_zero, Res.ok.injEq] at h
    exact ⟨fun _ => s, rfl, h, fun i hi => by omega⟩
  | succ n ih =>
    rw [loop_succ, Res.bind_eq_ok] at h
    obtain ⟨a, ha, hb⟩ := h
    obtain ⟨tr, h0, hn, hs⟩ := ih ha
    refine ⟨fun i => if i ≤ n then tr i else t, by simp [h0], by simp, fun i hi => ?_⟩
    by_cases e : i = n
    · subst e; simp only [Nat.le_refl, if_true, hn, hb]; simp
    · have : i < n := by omega
      simp only [show i ≤ n by omega, if_true, show i + 1 ≤ n by omega]
      exact hs i this

namespace Shape

theorem raw_set (l : List Nat) (i j v : Nat) :
    raw (l.set i v) j = if i = j ∧ i < l.length then v else raw l j := by
  unfold raw
  rw [List.getD_eq_getElem?_getD, List.getElem?_set, List.getD_eq_getElem?_getD]
  by_cases h : i = j
  · subst h
    by_cases h2 : i < l.length
    · simp [h2]
    · simp [h2]
  · simp [h]

theorem raw_replicate (n i : Nat) : raw (List.replicate n 1) i = 1 := by
  unfold raw
  rw [List.getD_eq_getElem?_getD, List.getElem?_replicate]
  split <;> rfl

theorem raw_of_length_le {l : List Nat} {i : Nat} (h : l.length ≤ i) : raw l i = 1 := by
  unfold raw
  rw [List.getD_eq_getElem?_getD, List.getElem?_eq_none h]; rfl

theorem list_ext_raw {l m : List Nat} (hlen : l.length = m.length) (h : ∀ i, raw l i = raw m i) : l = m := by
  apply List.ext_getElem hlen
  intro i h1 h2
  have := h i
  unfold raw at this
  simpa [List.getD_eq_getElem?_getD, h1, h2] using this

/-! ### trim -/

theorem trim_le (l : List Nat) (n : Nat) : trim l n ≤ n := by
  induction n with
  | zero => simp [trim]
  | succ n ih => rw [trim]; split <;> omega

theorem trim_tail (l : List Nat) (n i : Nat) (h1 : trim l n ≤ i) (h2 : i < n) : raw l i = 1 := by
  induction n with
  | zero => omega
  | succ n ih =>
    rw [trim] at h1
    split at h1
    · by_cases e : i = n
      · subst e; assumption
      · exact ih h1 (by omega)
    · omega

theorem trim_last (l : List Nat) (n d : Nat) (h : trim l n = d + 1) : raw l d ≠ 1 := by
  induction n with
  | zero => simp [trim] at h
  | succ n ih =>
    rw [trim] at h
    split at h
    · exact ih h
    · have : n = d := by omega
      subst this; assumption

theorem trim_congr {l m : List Nat} {n : Nat} (h : ∀ i, i < n → raw l i = raw m i) : trim l n = trim m n := by
  induction n with
  | zero => rfl
  | succ n ih => rw [trim, trim, h n (by omega), ih (fun i hi => h i (by omega))]

/-- The depth determined by the dims: least `d` after which everything is 1. -/
def IsDepth (f : Nat → Nat) (d : Nat) : Prop := (∀ i, d ≤ i → f i = 1) ∧ (∀ e, d = e + 1 → f e ≠ 1)

theorem IsDepth.unique {f : Nat → Nat} {d e : Nat} (h1 : IsDepth f d) (h2 : IsDepth f e) : d = e := by
  rcases Nat.lt_trichotomy d e with h | h | h
  · obtain ⟨k, rfl⟩ : ∃ k, e = k + 1 := ⟨e - 1, by omega⟩
    exact absurd (h1.1 k (by omega)) (h2.2 k rfl)
  · exact h
  · obtain ⟨k, rfl⟩ : ∃ k, d = k + 1 := ⟨d - 1, by omega⟩
    exact absurd (h2.1 k (by omega)) (h1.2 k rfl)

theorem isDepth_trim {l : List Nat} {n : Nat} (h : ∀ i, n ≤ i → raw l i = 1) : IsDepth (raw l) (trim l n) :=
  ⟨fun i hi => if h2 : i < n then trim_tail l n i hi h2 else h i (by omega), fun _ he => trim_last l n _ he⟩

/-! ### Well-formed shapes -/

theorem WF.get_eq_raw {s : Shape} (h : s.WF) (i : Nat) : s.get i = raw s.dims i := by
  unfold get
  split
  · rfl
  · exact (h.tail i (by omega)).symm

theorem WF.isDepth {s : Shape} (h : s.WF) : IsDepth (raw s.dims) s.depth := ⟨h.tail, h.last⟩

theorem WF.get_pos {s : Shape} (h : s.WF) (i : Nat) : 1 ≤ s.get i := by
  rw [h.get_eq_raw]; exact h.pos i

theorem WF.get_big {s : Shape} (h : s.WF) {i : Nat} (hi : 8 ≤ i) : s.get i = 1 := by
  rw [h.get_eq_raw]; exact h.tail i (by have := h.depth_le; omega)

theorem WF.ext {s t : Shape} (hs : s.WF) (ht : t.WF) (hb : s.batch = t.batch) (hg : ∀ i, s.get i = t.get i) :
    s = t := by
  have hraw : ∀ i, raw s.dims i = raw t.dims i := fun i => by rw [← hs.get_eq_raw, ← ht.get_eq_raw, hg]
  have hd : s.dims = t.dims := list_ext_raw (by rw [hs.len, ht.len]) hraw
  have hdep : s.depth = t.depth := by
    apply hs.isDepth.unique
    have h1 : (raw s.dims) = raw t.dims := funext hraw
    rw [h1]; exact ht.isDepth
  have hv : s.volume = t.volume := by rw [hs.vol, ht.vol]; exact volN_congr (fun i _ => hg i)
  cases s; cases t; simp_all

theorem WF.volN_get_eq {s : Shape} (h : s.WF) {n : Nat} (hn : s.depth ≤ n) : volN s.get n = s.volume := by
  have key : ∀ m, s.depth ≤ m → volN s.get m = volN s.get s.depth := by
    intro m hm
    obtain ⟨k, rfl⟩ := Nat.exists_eq_add_of_le hm
    rw [volN_add, volN_ones (n := k) (fun i _ => by rw [h.get_eq_raw]; exact h.tail _ (by omega)), Nat.mul_one]
  rw [h.vol, key n hn, key 8 h.depth_le]

theorem WF.volume_pos {s : Shape} (h : s.WF) : 1 ≤ s.volume := by
  rw [h.vol]; exact volN_pos (fun i _ => h.get_pos i)

theorem WF.size_pos {s : Shape} (h : s.WF) : 1 ≤ s.size := Nat.mul_pos h.batch_pos h.volume_pos

theorem WF.lowerVolume_eq {s : Shape} (h : s.WF) (dim : Nat) : s.lowerVolume dim = volN s.get dim := by
  unfold lowerVolume
  rw [volN_eq_foldN, volN_congr (g := s.get) (fun i _ => (h.get_eq_raw i).symm)]
  by_cases hd : dim ≤ s.depth
  · rw [Nat.min_eq_left hd]
  · rw [Nat.min_eq_right (by omega), h.volN_get_eq (n := dim) (by omega), h.volN_get_eq (le_refl _)]

theorem WF.lowerVolume_pos {s : Shape} (h : s.WF) (dim : Nat) : 1 ≤ s.lowerVolume dim := by
  rw [h.lowerVolume_eq]; exact volN_pos (fun i _ => h.get_pos i)

theorem WF.lowerVolume_le {s : Shape} (h : s.WF) (dim : Nat) : s.lowerVolume dim ≤ s.volume := by
  rw [h.lowerVolume_eq, ← h.volN_get_eq (n := dim + 8) (by have := h.depth_le; omega)]
  exact volN_mono (by omega) (fun i _ => h.get_pos i)

theorem lowerVolumeU_eq {s : Shape} (h : s.WF) (p : Profile) (dim : Nat) :
    s.lowerVolumeU p dim = ok (s.lowerVolume dim) := by
  unfold lowerVolumeU
  obtain ⟨t, ht, he⟩ := loop_inv (n := min dim s.depth) (f := fun i r => umul p r (raw s.dims i)) (s := 1)
    (P := fun i r => r = volN s.get i) rfl (by
      intro i r hi hr
      refine ⟨volN s.get (i + 1), ?_, rfl⟩
      subst hr
      have hle : volN s.get (i + 1) ≤ s.volume := by
        rw [← h.volN_get_eq (le_refl _)]
        exact volN_mono (by omega) (fun i _ => h.get_pos i)
      have hlt : volN s.get i * raw s.dims i < U32 := by
        rw [← h.get_eq_raw]
        exact Nat.lt_of_le_of_lt hle h.vol_lt
      simp only [umul, u32, hlt, if_true]
      rw [← h.get_eq_raw]; rfl)
  rw [ht, he]
  unfold lowerVolume
  rw [volN_eq_foldN, volN_congr (g := s.get) (fun i _ => (h.get_eq_raw i).symm)]

/-! ### Shape::new -/

theorem ix_eq_raw {l : List Nat} {i : Nat} (h : i < l.length) : ix l i = ok (raw l i) := by
  rw [ix_eq h]; simp [raw, List.getD_eq_getElem?_getD, h]

/-- The conditions under which `Shape::new` succeeds. -/
def NewOk (dims : List Nat) (b : Nat) : Prop :=
  dims.length ≤ 8 ∧ 1 ≤ b ∧ (∀ i, i < dims.length → raw dims i ≠ 0) ∧ volN (raw dims) dims.length < U32

theorem u32_debug_ok {x y : Nat} : u32 .debug x = ok y ↔ x < U32 ∧ y = x := by
  unfold u32
  split
  · simp_all [eq_comm]
  · simp_all

theorem u32_ok {p : Profile} {x : Nat} (h : x < U32) : u32 p x = ok x := by simp [u32, h]
theorem u32_safe (p : Profile) (x : Nat) : (u32 p x).Safe := by unfold u32; split <;> cases p <;> simp
theorem u32_debug_panic {x : Nat} (h : U32 ≤ x) : u32 .debug x = panic := by
  simp [u32, Nat.not_lt.mpr h]

theorem new_of {dims : List Nat} {b : Nat} (p : Profile) (h : NewOk dims b) :
    ∃ s, Shape.new p dims b = ok s ∧ s.WF ∧ s.batch = b ∧ ∀ i, s.get i = raw dims i := by
  obtain ⟨h8, hb, hnz, hv⟩ := h
  have hpos : ∀ i, i < dims.length → 1 ≤ raw dims i := fun i hi => Nat.one_le_iff_ne_zero.mpr (hnz i hi)
  unfold Shape.new
  rw [check_true _ h8, ok_bind, check_true _ hb, ok_bind]
  obtain ⟨st, hst, hlen, hraw, hdep, hvol⟩ := loop_inv (n := dims.length)
    (f := fun i (st : List Nat × Nat × Nat) => do
      let d ← ix dims i
      check (d ≠ 0)
      let v ← umul p st.2.2 d
      ok (st.1.set i d, if d ≠ 1 then i + 1 else st.2.1, v))
    (s := (List.replicate 8 1, 0, 1))
    (P := fun i st => st.1.length = 8 ∧ (∀ j, raw st.1 j = if j < i then raw dims j else 1) ∧
      (st.2.1 ≤ i ∧ IsDepth (fun j => if j < i then raw dims j else 1) st.2.1) ∧ st.2.2 = volN (raw dims) i)
    ⟨by simp, fun j => by rw [raw_replicate]; simp, ⟨by simp, fun i _ => by simp, fun e he => by simp at he⟩, rfl⟩
    (by
      rintro i ⟨l, dep, v⟩ hi ⟨h1, h2, ⟨h3a, h3b, h3c⟩, h4⟩
      simp only at h1 h2 h3a h3b h3c h4
      have hlt : v * raw dims i < U32 := by
        rw [h4]
        exact Nat.lt_of_le_of_lt (volN_mono (m := i + 1) (by omega) hpos) hv
      refine ⟨(l.set i (raw dims i), if raw dims i ≠ 1 then i + 1 else dep, v * raw dims i), ?_, ?_⟩
      · rw [ix_eq_raw hi, ok_bind, check_true _ (hnz i hi), ok_bind, umul, u32_ok hlt, ok_bind]
      · refine ⟨by simp [h1], ?_, ?_, by simp [h4, volN]⟩
        · intro j
          simp only [raw_set, h1, h2]
          by_cases e : i = j
          · subst e; simp [show i < 8 by omega]
          · simp only [e, false_and, if_false]
            by_cases e2 : j < i
            · simp [e2, show j < i + 1 by omega]
            · simp [e2, show ¬ j < i + 1 by omega]
        · by_cases e1 : raw dims i = 1
          · simp only [e1, ne_eq, not_true, if_false]
            refine ⟨by omega, ?_, ?_⟩
            · intro j hj
              have := h3b j hj
              by_cases e2 : j = i
              · subst e2; simp [e1]
              · by_cases e3 : j < i
                · simp [e3] at this; simp [this]
                · simp [show ¬ j < i + 1 by omega]
            · intro e he
              have := h3c e he
              have hei : e < i := by omega
              simp only [hei, if_true] at this
              simp [show e < i + 1 by omega, this]
          · simp only [ne_eq, e1, not_false_eq_true, if_true]
            refine ⟨by omega, ?_, ?_⟩
            · intro j hj
              simp [show ¬ j < i + 1 by omega]
            · intro e he
              have : e = i := by omega
              subst this
              simp [e1])
  rw [hst, ok_bind]
  have hraw' : ∀ j, raw st.1 j = raw dims j := by
    intro j
    rw [hraw]
    split
    · rfl
    · exact (raw_of_length_le (by omega)).symm
  have hfun : (fun j => if j < dims.length then raw dims j else 1) = raw st.1 := by
    funext j; rw [hraw]
  rw [hfun] at hdep
  have hposall : ∀ i, 1 ≤ raw dims i := by
    intro i
    by_cases hi : i < dims.length
    · exact hpos i hi
    · rw [raw_of_length_le (by omega)]
  have hget : ∀ i, get ⟨st.1, b, st.2.1, st.2.2⟩ i = raw dims i := by
    intro i
    unfold get
    simp only
    split
    · exact hraw' i
    · rw [← hraw' i]; exact (hdep.2.1 i (by omega)).symm
  have hv8 : st.2.2 = volN (raw dims) 8 := by
    rw [hvol]
    obtain ⟨k, hk⟩ := Nat.exists_eq_add_of_le h8
    rw [hk, volN_add, volN_ones (n := k) (fun i _ => raw_of_length_le (by omega)), Nat.mul_one]
  refine ⟨_, rfl, ?_, rfl, hget⟩
  exact {
    len := hlen
    pos := fun i => by rw [hraw']; exact hposall i
    depth_le := by show st.2.1 ≤ 8; omega
    tail := hdep.2.1
    last := hdep.2.2
    vol := by
      show st.2.2 = _
      rw [hv8]
      exact volN_congr (fun i _ => (hget i).symm)
    vol_lt := by show st.2.2 < _; rw [hvol]; exact hv
    batch_pos := hb }

theorem new_ok_imp {dims : List Nat} {b : Nat} {s : Shape} (h : Shape.new .debug dims b = ok s) :
    NewOk dims b := by
  unfold Shape.new at h
  rw [check_bind_ok] at h
  obtain ⟨h8, h⟩ := h
  rw [check_bind_ok] at h
  obtain ⟨hb, h⟩ := h
  rw [Res.bind_eq_ok] at h
  obtain ⟨st, hst, _⟩ := h
  obtain ⟨tr, h0, hn, hs⟩ := loop_trace hst
  have step : ∀ i, i < dims.length → raw dims i ≠ 0 ∧ (tr i).2.2 * raw dims i < U32 ∧
      (tr (i + 1)).2.2 = (tr i).2.2 * raw dims i := by
    intro i hi
    have := hs i hi
    simp only [ix_eq_raw hi, ok_bind, check_eq_ok, exists_and_left, exists_const, Res.bind_eq_ok, umul, u32_debug_ok] at this
    obtain ⟨hnz, v, ⟨hlt, rfl⟩, he⟩ := this
    refine ⟨hnz, hlt, ?_⟩
    rw [Res.ok.injEq] at he
    rw [← he]
  have hvol : ∀ i, i ≤ dims.length → (tr i).2.2 = volN (raw dims) i := by
    intro i
    induction i with
    | zero => intro _; rw [h0]; rfl
    | succ i ih => intro hi; rw [(step i (by omega)).2.2, ih (by omega), volN]
  refine ⟨h8, hb, fun i hi => (step i hi).1, ?_⟩
  cases hl : dims.length with
  | zero => simp [volN, U32]
  | succ n =>
    rw [volN, ← hvol n (by omega)]
    exact (step n (by omega)).2.1

theorem new_safe (p : Profile) (dims : List Nat) (b : Nat) : (Shape.new p dims b).Safe := by
  unfold Shape.new
  refine Res.Safe.bind (check_safe _) fun _ _ => Res.Safe.bind (check_safe _) fun _ _ =>
    Res.Safe.bind (loop_ne_ub ?_) fun _ _ => by simp
  intro i t _
  exact Res.Safe.bind (ix_safe _ _) fun _ _ => Res.Safe.bind (check_safe _) fun _ _ =>
    Res.Safe.bind (u32_safe _ _) fun _ _ => by simp

theorem new_ok_iff {dims : List Nat} {b : Nat} :
    (∃ s, Shape.new .debug dims b = ok s) ↔ NewOk dims b :=
  ⟨fun ⟨_, h⟩ => new_ok_imp h, fun h => let ⟨s, hs, _⟩ := new_of .debug h; ⟨s, hs⟩⟩

theorem new_ok {dims : List Nat} {b : Nat} {s : Shape} (h : Shape.new .debug dims b = ok s) :
    s.WF ∧ s.batch = b ∧ ∀ i, s.get i = raw dims i := by
  obtain ⟨s', h', hw⟩ := new_of .debug (new_ok_imp h)
  rw [h] at h'
  cases h'
  exact hw

theorem panic_iff_of_safe {x : Res α} (h : x.Safe) : x = panic ↔ ¬ ∃ a, x = ok a := by
  cases x with
  | ok a => simp
  | panic => simp
  | ub => exact absurd rfl h

/-! ### update_dim / update_batch -/

theorem foldN_set_one {l : List Nat} (d k : Nat) (h : ∀ i, d ≤ i → raw l i = 1) :
    (foldN k (fun i t => t.set (d + i) 1) l).length = l.length ∧
      ∀ j, raw (foldN k (fun i t => t.set (d + i) 1) l) j = raw l j := by
  induction k with
  | zero => exact ⟨rfl, fun _ => rfl⟩
  | succ k ih =>
    refine ⟨by rw [foldN_succ]; simp [ih.1], fun j => ?_⟩
    rw [foldN_succ, raw_set, ih.2]
    split
    · rename_i hh; rw [← hh.1, h _ (by omega)]
    · rfl

/-- Exact product of the dims when dimension `dim` is replaced by `m`. -/
theorem WF.volN_update {s : Shape} (h : s.WF) {dim m : Nat} (hd : dim < 8) :
    volN (fun i => if i = dim then m else s.get i) 8 * s.get dim = s.volume * m := by
  rw [h.vol]
  obtain ⟨k, hk⟩ : ∃ k, 8 = dim + (1 + k) := ⟨7 - dim, by omega⟩
  simp only [hk, volN_add]
  have e1 : volN (fun i => if i = dim then m else s.get i) dim = volN s.get dim :=
    volN_congr (fun i hi => by simp [show i ≠ dim by omega])
  have e2 : volN (fun i => if dim + (1 + i) = dim then m else s.get (dim + (1 + i))) k =
      volN (fun i => s.get (dim + (1 + i))) k :=
    volN_congr (fun i _ => by simp)
  rw [e1]
  simp only [volN, Nat.one_mul, Nat.add_zero, if_true] at *
  rw [e2]; ring

theorem WF.volN_update_eq {s : Shape} (h : s.WF) {dim m : Nat} (hd : dim < 8) :
    volN (fun i => if i = dim then m else s.get i) 8 = s.volume / s.get dim * m := by
  have h1 := h.volN_update (m := 1) hd
  have h2 := h.volN_update (m := m) hd
  have hp := h.get_pos dim
  have h3 : s.volume / s.get dim = volN (fun i => if i = dim then 1 else s.get i) 8 := by
    rw [Nat.mul_one] at h1
    rw [← h1, Nat.mul_div_cancel _ hp]
  rw [h3]
  apply Nat.eq_of_mul_eq_mul_right hp
  rw [h2, Nat.mul_assoc, Nat.mul_comm m, ← Nat.mul_assoc, h1, Nat.mul_one]

/-- Full behaviour of `update_dim` on a well-formed shape. -/
theorem WF.updateDim_of {s : Shape} (h : s.WF) (p : Profile) {dim m : Nat} (hd : dim < 8) (hm : m ≠ 0)
    (hv : volN (fun i => if i = dim then m else s.get i) 8 < U32) :
    ∃ t, s.updateDim p dim m = ok t ∧ t.WF ∧ t.batch = s.batch ∧
      ∀ i, t.get i = if i = dim then m else s.get i := by
  set dims1 := if s.depth ≤ dim then foldN (dim + 1 - s.depth) (fun i d => d.set (s.depth + i) 1) s.dims
    else s.dims with hdims1
  set depth1 := if s.depth ≤ dim then dim + 1 else s.depth with hdepth1
  have hl1 : dims1.length = 8 ∧ ∀ j, raw dims1 j = raw s.dims j := by
    rw [hdims1]
    split
    · have := foldN_set_one s.depth (dim + 1 - s.depth) h.tail
      exact ⟨by rw [this.1, h.len], this.2⟩
    · exact ⟨h.len, fun _ => rfl⟩
  have hd1 : depth1 ≤ 8 ∧ dim < depth1 ∧ s.depth ≤ depth1 := by
    rw [hdepth1]; have := h.depth_le; split <;> omega
  have hraw2 : ∀ j, raw (dims1.set dim m) j = if j = dim then m else s.get j := by
    intro j
    rw [raw_set, hl1.1, hl1.2, h.get_eq_raw]
    by_cases e : j = dim
    · subst e; simp [hd]
    · simp [e, Ne.symm e]
  have hdep : IsDepth (raw (dims1.set dim m)) (trim (dims1.set dim m) depth1) := by
    apply isDepth_trim
    intro i hi
    rw [hraw2, if_neg (by omega), h.get_eq_raw]
    exact h.tail i (by omega)
  have hget : ∀ v i, get ⟨dims1.set dim m, s.batch, trim (dims1.set dim m) depth1, v⟩ i =
      if i = dim then m else s.get i := by
    intro v i
    unfold get
    simp only
    split
    · exact hraw2 i
    · rw [← get.eq_def, ← hraw2 i]; exact (hdep.1 i (by omega)).symm
  have heq := h.volN_update_eq (m := m) hd
  refine ⟨⟨dims1.set dim m, s.batch, trim (dims1.set dim m) depth1, s.volume / s.get dim * m⟩, ?_, ?_, rfl,
    hget _⟩
  · unfold updateDim
    rw [check_true _ hd, ok_bind, check_true _ hm, ok_bind]
    simp only [← hdims1, ← hdepth1]
    have hr : raw dims1 dim = s.get dim := by rw [hl1.2, h.get_eq_raw]
    have hnz : s.get dim ≠ 0 := by have := h.get_pos dim; omega
    simp only [hr]
    rw [check_true _ hnz, ok_bind, umul, u32_ok (by rw [← heq]; exact hv), ok_bind]
  · exact {
      len := by simp [hl1.1]
      pos := fun i => by
        show 1 ≤ raw (dims1.set dim m) i
        rw [hraw2]; split
        · omega
        · exact h.get_pos i
      depth_le := by
        show trim _ _ ≤ 8
        exact Nat.le_trans (trim_le _ _) hd1.1
      tail := hdep.1
      last := hdep.2
      vol := by
        show _ / _ * _ = _
        rw [← heq]
        exact volN_congr (fun i _ => (hget _ i).symm)
      vol_lt := by
        show _ / _ * _ < _
        rw [← heq]; exact hv
      batch_pos := h.batch_pos }

theorem WF.updateDim_ok_imp {s t : Shape} (h : s.WF) {dim m : Nat} (he : s.updateDim .debug dim m = ok t) :
    dim < 8 ∧ m ≠ 0 ∧ volN (fun i => if i = dim then m else s.get i) 8 < U32 := by
  unfold updateDim at he
  simp only [check_eq_ok, exists_and_left, exists_const, Res.bind_eq_ok, umul, u32_debug_ok] at he
  obtain ⟨hd, hm, _, v, ⟨hlt, _⟩, _⟩ := he
  refine ⟨hd, hm, ?_⟩
  rw [h.volN_update_eq hd]
  have hr : raw (if s.depth ≤ dim then foldN (dim + 1 - s.depth) (fun i d => d.set (s.depth + i) 1) s.dims
    else s.dims) dim = s.get dim := by
    rw [h.get_eq_raw]
    split
    · exact (foldN_set_one s.depth (dim + 1 - s.depth) h.tail).2 dim
    · rfl
  rwa [hr] at hlt

theorem WF.updateDim_ok {s t : Shape} (h : s.WF) {dim m : Nat} (he : s.updateDim .debug dim m = ok t) :
    t.WF ∧ t.batch = s.batch ∧ ∀ i, t.get i = if i = dim then m else s.get i := by
  obtain ⟨h1, h2, h3⟩ := h.updateDim_ok_imp he
  obtain ⟨t', ht', hw⟩ := h.updateDim_of .debug h1 h2 h3
  rw [he] at ht'; cases ht'; exact hw

theorem updateDim_safe (p : Profile) (s : Shape) (dim m : Nat) : (s.updateDim p dim m).Safe := by
  unfold updateDim
  exact Res.Safe.bind (check_safe _) fun _ _ => Res.Safe.bind (check_safe _) fun _ _ =>
    Res.Safe.bind (check_safe _) fun _ _ => Res.Safe.bind (u32_safe _ _) fun _ _ => by simp

theorem updateBatch_safe (s : Shape) (b : Nat) : (s.updateBatch b).Safe := by
  unfold updateBatch
  exact Res.Safe.bind (check_safe _) fun _ _ => by simp

theorem updateBatch_ok_iff {s t : Shape} {b : Nat} : s.updateBatch b = ok t ↔ 1 ≤ b ∧ t = { s with batch := b } := by
  unfold updateBatch
  rw [check_bind_ok, Res.ok.injEq]
  exact and_congr_right fun _ => eq_comm

theorem WF.withBatch {s : Shape} (h : s.WF) {b : Nat} (hb : 1 ≤ b) : ({ s with batch := b } : Shape).WF :=
  { len := h.len, pos := h.pos, depth_le := h.depth_le, tail := h.tail, last := h.last, vol := h.vol,
    vol_lt := h.vol_lt, batch_pos := hb }

@[simp] theorem get_withBatch (s : Shape) (b i : Nat) : ({ s with batch := b } : Shape).get i = s.get i := rfl

theorem Reachable.wf {s : Shape} (h : s.Reachable) : s.WF := by
  induction h with
  | new h => exact (new_ok h).1
  | updateDim _ h ih => exact (ih.updateDim_ok h).1
  | updateBatch _ h ih =>
    obtain ⟨hb, rfl⟩ := updateBatch_ok_iff.mp h
    exact ih.withBatch hb

/-- A volume whose dims are all `≥ 1` bounds each of its dims. -/
theorem WF.get_le_volume {s : Shape} (h : s.WF) (d : Nat) : s.get d ≤ s.volume := by
  rw [← h.volN_get_eq (n := d + 1 + 8) (by have := h.depth_le; omega)]
  refine Nat.le_trans ?_ (volN_mono (m := d + 1) (by omega) (fun i _ => h.get_pos i))
  rw [volN]
  exact Nat.le_mul_of_pos_left _ (volN_pos (fun i _ => h.get_pos i))

/-! ### Serialisation -/

theorem WF.new_record {s : Shape} (h : s.WF) (p : Profile) : Shape.ofRecord p s.toRecord = ok s := by
  have hlen : s.dimsSlice.length = s.depth := by
    unfold dimsSlice; rw [List.length_take, h.len]; exact Nat.min_eq_left h.depth_le
  have hraw : ∀ i, raw s.dimsSlice i = s.get i := by
    intro i
    unfold get dimsSlice raw
    simp only [List.getD_eq_getElem?_getD, List.getElem?_take]
    split <;> rfl
  have hno : NewOk s.dimsSlice s.batch := by
    refine ⟨by rw [hlen]; exact h.depth_le, h.batch_pos, fun i _ => ?_, ?_⟩
    · rw [hraw]; have := h.get_pos i; omega
    · rw [hlen, volN_congr (g := s.get) (fun i _ => hraw i), h.volN_get_eq (le_refl _)]
      exact h.vol_lt
  obtain ⟨t, ht, hw, hb, hg⟩ := new_of p hno
  unfold ofRecord toRecord
  rw [ht]
  congr 1
  exact hw.ext h hb (fun i => by rw [hg, hraw])

/-! ### Comparison of dims -/

theorem foldN_and (n : Nat) (q : Nat → Bool) (b : Bool) :
    foldN n (fun i ok => ok && q i) b = true ↔ b = true ∧ ∀ i, i < n → q i = true := by
  induction n with
  | zero => simp
  | succ n ih =>
    rw [foldN_succ, Bool.and_eq_true, ih]
    constructor
    · rintro ⟨⟨h1, h2⟩, h3⟩
      refine ⟨h1, fun i hi => ?_⟩
      by_cases e : i = n
      · subst e; exact h3
      · exact h2 i (by omega)
    · rintro ⟨h1, h2⟩
      exact ⟨⟨h1, fun i hi => h2 i (by omega)⟩, h2 n (by omega)⟩

theorem WF.hasSameDims_iff {s r : Shape} (hs : s.WF) (hr : r.WF) :
    s.hasSameDims r = true ↔ ∀ i, s.get i = r.get i := by
  unfold hasSameDims
  rw [Bool.and_eq_true, foldN_and]
  simp only [true_and, beq_iff_eq]
  constructor
  · rintro ⟨h1, h2⟩ i
    unfold get
    rw [← h2]
    split
    · exact h1 i (by assumption)
    · rfl
  · intro h
    have hraw : ∀ i, raw s.dims i = raw r.dims i := fun i => by rw [← hs.get_eq_raw, ← hr.get_eq_raw, h]
    refine ⟨fun i _ => hraw i, ?_⟩
    apply hs.isDepth.unique
    have h1 : (raw s.dims) = raw r.dims := funext hraw
    rw [h1]; exact hr.isDepth

theorem WF.hasSameLooDims_of {s r : Shape} (hs : s.WF) (hr : r.WF) {dim : Nat} (p : Profile)
    (hdim : dim + 1 < U32) :
    ∃ b, s.hasSameLooDims p r dim = ok b ∧ (b = true ↔ ∀ i, i ≠ dim → s.get i = r.get i) := by
  unfold hasSameLooDims uadd
  have hd : ∀ t : Shape, t.WF → (if t.depth = dim + 1 then dim else t.depth) ≤ 8 := fun t ht => by
    have := ht.depth_le
    split <;> omega
  rw [u32_ok hdim, ok_bind]
  simp only
  rw [check_true _ (by simpa using hd s hs), check_true _ (by simpa using hd r hr)]
  refine ⟨_, rfl, ?_⟩
  rw [foldN_and]
  simp only [Bool.or_eq_true, beq_iff_eq]
  -- description of the trimmed bound
  have key : ∀ t : Shape, t.WF →
      (∀ i, trim t.dims (if t.depth = dim + 1 then dim else t.depth) ≤ i → i ≠ dim → raw t.dims i = 1) ∧
      (∀ d, trim t.dims (if t.depth = dim + 1 then dim else t.depth) = d + 1 → raw t.dims d ≠ 1 ∧ d ≠ dim) := by
    intro t ht
    refine ⟨fun i hi hne => ?_, fun d hd => ⟨trim_last _ _ _ hd, ?_⟩⟩
    · by_cases e : t.depth ≤ i
      · exact ht.tail i e
      · apply trim_tail _ _ _ hi
        split
        · omega
        · omega
    · intro e
      subst e
      have h1 := trim_le t.dims (if t.depth = d + 1 then d else t.depth)
      rw [hd] at h1
      split at h1
      · omega
      · rename_i hne
        have h2 : t.depth ≠ 0 := by omega
        obtain ⟨k, hk⟩ : ∃ k, t.depth = k + 1 := ⟨t.depth - 1, by omega⟩
        have h3 := ht.last k hk
        -- since depth ≠ d + 1, depth > d + 1 and trim stops at depth
        have h4 : trim t.dims t.depth = t.depth := by rw [hk, trim, if_neg h3]
        rw [if_neg hne, h4] at hd
        exact hne hd
  obtain ⟨ks1, ks2⟩ := key s hs
  obtain ⟨kr1, kr2⟩ := key r hr
  set nl := trim s.dims (if s.depth = dim + 1 then dim else s.depth)
  set nr := trim r.dims (if r.depth = dim + 1 then dim else r.depth)
  constructor
  · rintro ⟨h1, h2⟩ i hi
    rw [hs.get_eq_raw, hr.get_eq_raw]
    by_cases e : i < nl
    · exact (h2 i e).resolve_right hi
    · rw [ks1 i (by omega) hi, kr1 i (by omega) hi]
  · intro h
    have hraw : ∀ i, i ≠ dim → raw s.dims i = raw r.dims i := fun i hi => by
      rw [← hs.get_eq_raw, ← hr.get_eq_raw, h i hi]
    refine ⟨?_, fun i _ => ?_⟩
    · rcases Nat.lt_trichotomy nl nr with hlt | heq | hgt
      · obtain ⟨k, hk⟩ : ∃ k, nr = k + 1 := ⟨nr - 1, by omega⟩
        obtain ⟨h1, h2⟩ := kr2 k hk
        exact absurd (by rw [← hraw k h2]; exact ks1 k (by omega) h2) h1
      · exact heq
      · obtain ⟨k, hk⟩ : ∃ k, nl = k + 1 := ⟨nl - 1, by omega⟩
        obtain ⟨h1, h2⟩ := ks2 k hk
        exact absurd (by rw [hraw k h2]; exact kr1 k (by omega) h2) h1
    · by_cases e : i = dim
      · exact Or.inr e
      · exact Or.inl (hraw i e)

end Shape
end Verif
