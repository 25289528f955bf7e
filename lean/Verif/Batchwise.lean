import Verif.TFLemmas
import Verif.DevBw

/-!
# Batches: choosing some of the samples of a minibatch

`Row n σ i i'` relates an array `i` (shape and elements) with the array `i'` that has, in place of the batches of `i`, the batches
`σ 0 … σ (n-1)` of `i`.  Arrays with one batch are shared by all samples and stay as they are.
-/

set_option linter.unusedSectionVars false

namespace Verif
open Res
variable {α : Type} {d B n : Nat} {σ : Nat → Nat}

/-- The shape with `n` batches in place of all its batches; one batch stays one batch. -/
def Shape.sel (s : Shape) (n : Nat) : Shape := { s with batch := if s.batch = 1 then 1 else n }

/-- `i'` has the batches `σ 0 … σ (n-1)` of `i`. -/
structure Row (B n : Nat) (σ : Nat → Nat) (i i' : Shape × Arr α) : Prop where
  batch : i.1.batch = 1 ∨ i.1.batch = B
  shape : i'.1 = i.1.sel n
  val : ∀ c k, (∀ j, c j < i.1.get j) → k < n → i'.2 c (bb (i.1.sel n) k) = i.2 c (bb i.1 (σ k))

/-- `1 ≤ n ≤ B` batches are chosen. -/
structure Chooses (B n : Nat) (σ : Nat → Nat) : Prop where
  pos : 1 ≤ n
  le : n ≤ B
  lt : ∀ k, k < n → σ k < B

theorem Shape.sel_get (s : Shape) (n i : Nat) : (s.sel n).get i = s.get i := rfl
theorem Shape.sel_batch (s : Shape) (n : Nat) : (s.sel n).batch = if s.batch = 1 then 1 else n := rfl

theorem Shape.WF.sel {s : Shape} (h : s.WF) (hn : 1 ≤ n) : (s.sel n).WF := h.withBatch (by split <;> omega)

theorem Shape.WF.sel_size {s : Shape} (h : s.WF) (hc : Chooses B n σ) (hb : s.batch = 1 ∨ s.batch = B) : (s.sel n).size ≤ s.size := by
  refine size_le_of_dims (h.sel hc.pos) h (fun i => Nat.le_refl _) ?_
  rw [Shape.sel_batch]
  have := hc.le
  split <;> omega

theorem bb_bb {a s : Shape} (h : s.batch = 1 → a.batch = 1) (k : Nat) : bb a (bb s k) = bb a k := by
  unfold bb
  split
  · rfl
  · rename_i h1
    rw [if_neg fun e => h1 (h e)]

theorem bb_eq {a s : Shape} (h : s.batch = a.batch) (k : Nat) : bb s k = bb a k := by unfold bb; rw [h]

theorem Shape.Is.sel {s : Shape} {f : Nat → Nat} {b b' : Nat} (h : s.Is f b) (hn : 1 ≤ n) (hb : (if b = 1 then 1 else n) = b') :
    (s.sel n).Is f b' := ⟨h.1.sel hn, h.2.1, by rw [Shape.sel_batch, h.2.2]; exact hb⟩

/-- Meaning and shape of an operation commute with the choice of samples. -/
def Commutes (B n : Nat) (σ : Nat → Nat) [Flt α] (op op' : FwOp α) (ins ins' : List (Shape × Arr α)) (s : Shape) : Prop :=
  op'.shape .debug (ins'.map Prod.fst) = ok (s.sel n) ∧ (s.batch = 1 ∨ s.batch = B) ∧
    ∀ c k, (∀ j, c j < s.get j) → k < n → op'.sem ins' c (bb (s.sel n) k) = op.sem ins c (bb s (σ k))

variable [Flt α]

theorem commutes1 {op : FwOp α} {i i' : Shape × Arr α} {s : Shape} {G : ((Nat → Nat) → α) → (Nat → Nat) → α} (hi : Row B n σ i i')
    (hshape : op.shape .debug [i.1.sel n] = ok (s.sel n)) (hb : s.batch = i.1.batch)
    (hsem : ∀ t f, (∀ j, t.get j = i.1.get j) → op.sem [(t, f)] = fun c b => G (fun c => f c b) c)
    (hG : ∀ f f' : (Nat → Nat) → α, (∀ c, (∀ j, c j < i.1.get j) → f c = f' c) → ∀ c, (∀ j, c j < s.get j) → G f c = G f' c) :
    Commutes B n σ op op [i] [i'] s := by
  refine ⟨by simp only [List.map, hi.shape]; exact hshape, by rw [hb]; exact hi.batch, fun c k hc hk => ?_⟩
  obtain ⟨t, f⟩ := i
  obtain ⟨t', f'⟩ := i'
  have e := hi.shape
  simp only at e
  subst e
  rw [hsem t f fun _ => rfl, hsem (t.sel n) f' fun _ => rfl]
  refine hG _ _ (fun c' hc' => ?_) c hc
  have := hi.val c' k hc' hk
  rw [bb_eq (a := t) hb, bb_eq (s := s.sel n) (a := t.sel n) (by rw [Shape.sel_batch, Shape.sel_batch, hb])]
  exact this

theorem sel_batches {a b : Shape} (hc : Chooses B n σ) (ha : a.batch = 1 ∨ a.batch = B) (hb : b.batch = 1 ∨ b.batch = B) :
    BatchCompat (a.sel n) (b.sel n) ∧ (if max a.batch b.batch = 1 then 1 else n) = max (a.sel n).batch (b.sel n).batch ∧
      (max a.batch b.batch = 1 ∨ max a.batch b.batch = B) := by
  unfold BatchCompat
  simp only [Shape.sel_batch]
  have := hc.pos
  have := hc.le
  refine ⟨?_, ?_, ?_⟩ <;> rcases ha with ha | ha <;> rcases hb with hb | hb <;> (try split_ifs) <;> omega

theorem commutes2 {op : FwOp α} {i i' j j' : Shape × Arr α} {s : Shape} {G : ((Nat → Nat) → α) → ((Nat → Nat) → α) → (Nat → Nat) → α}
    (hc : Chooses B n σ) (hi : Row B n σ i i') (hj : Row B n σ j j')
    (hshape : op.shape .debug [i.1.sel n, j.1.sel n] = ok (s.sel n)) (hb : s.batch = max i.1.batch j.1.batch) (wi : i.1.WF) (wj : j.1.WF)
    (hsem : op.sem [i, j] = fun c b => G (fun c => i.2 c (bb i.1 b)) (fun c => j.2 c (bb j.1 b)) c)
    (hsem' : op.sem [i', j'] = fun c b => G (fun c => i'.2 c (bb i'.1 b)) (fun c => j'.2 c (bb j'.1 b)) c)
    (hG : ∀ f f' g g' : (Nat → Nat) → α, (∀ c, (∀ a, c a < i.1.get a) → f c = f' c) → (∀ c, (∀ a, c a < j.1.get a) → g c = g' c) →
      ∀ c, (∀ a, c a < s.get a) → G f g c = G f' g' c) :
    Commutes B n σ op op [i, j] [i', j'] s := by
  obtain ⟨q1, q2, q3⟩ := sel_batches hc hi.batch hj.batch
  refine ⟨by simp only [List.map, hi.shape, hj.shape]; exact hshape, by rw [hb]; exact q3, fun c k hc' hk => ?_⟩
  have e1 : (s.sel n).batch = max (i.1.sel n).batch (j.1.sel n).batch := by rw [Shape.sel_batch, hb, q2]
  have p1 := wi.batch_pos
  have p2 := wj.batch_pos
  have p3 := (wi.sel hc.pos).batch_pos
  have p4 := (wj.sel hc.pos).batch_pos
  rw [hsem, hsem', hi.shape, hj.shape]
  simp only
  rw [bb_bb (a := i.1) (s := s) (by omega), bb_bb (a := j.1) (s := s) (by omega), bb_bb (a := i.1.sel n) (s := s.sel n) (by omega),
    bb_bb (a := j.1.sel n) (s := s.sel n) (by omega)]
  exact hG _ _ _ _ (fun c' h => hi.val c' k h hk) (fun c' h => hj.val c' k h hk) c hc'

/-- The function of the chosen samples: `pick` with one index per sample takes the indices of the chosen samples. -/
def FwOp.choose (n : Nat) (σ : Nat → Nat) : FwOp α → FwOp α
  | .pick ids dim => .pick (if ids.length = 1 then ids else (List.range n).map fun k => ids.getD (σ k) 0) dim
  | op => op

/-- The function works on every sample separately. -/
def FwOp.PerSample (B : Nat) : FwOp α → Prop
  | .pick ids _ => ids.length = 1 ∨ ids.length = B
  | .batchSum => False
  | .batchSlice _ _ => False
  | .batchPick _ => False
  | .batchConcat => False
  | _ => True

theorem sel_same {s i : Shape} (hb : s.batch = i.batch) : (if s.batch = 1 then 1 else n) = (i.sel n).batch := by
  rw [Shape.sel_batch, hb]

theorem getD_range_map {n k : Nat} (f : Nat → Nat) (hk : k < n) : ((List.range n).map f).getD k 0 = f k := by
  simp [List.getD, hk]

theorem cset_lt {c g g' : Nat → Nat} {dim j : Nat} (hg : ∀ a, a ≠ dim → g' a = g a) (hc : ∀ a, c a < g' a) (hj : j < g dim) :
    ∀ a, cset c dim j a < g a := by
  intro a
  unfold cset
  split
  · rename_i h; rw [h]; exact hj
  · rename_i h; rw [← hg a h]; exact hc a

theorem is_ne {s : Shape} {g : Nat → Nat} {dim v b : Nat} (h : s.Is (setC g dim v) b) : ∀ a, a ≠ dim → s.get a = g a := by
  intro a ha; rw [h.2.1 a]; unfold setC; rw [if_neg ha]

theorem mat_lt {s : Shape} {p q : Nat} (hm : ∀ i, 2 ≤ i → s.get i = 1) (h0 : p < s.get 0) (h1 : q < s.get 1) : ∀ a, mat p q a < s.get a := by
  intro a
  unfold mat
  split
  · rename_i h; rw [h]; exact h0
  · split
    · rename_i h; rw [h]; exact h1
    · rw [hm a (by omega)]; exact Nat.one_pos

/-- The lists of arrays, all of them with the chosen samples. -/
abbrev Rows (B n : Nat) (σ : Nat → Nat) (ins ins' : List (Shape × Arr α)) : Prop := List.Forall₂ (Row B n σ) ins ins'

theorem Rows.shapes {ins ins' : List (Shape × Arr α)} (h : Rows B n σ ins ins') :
    ins'.map Prod.fst = (ins.map Prod.fst).map fun s => s.sel n := by
  induction h with
  | nil => rfl
  | cons h _ ih => simp only [List.map_cons, h.shape, ih]

theorem Rows.batch {ins ins' : List (Shape × Arr α)} (h : Rows B n σ ins ins') : ∀ s, s ∈ ins.map Prod.fst → s.batch = 1 ∨ s.batch = B := by
  induction h with
  | nil => simp
  | cons h _ ih =>
    intro s hs
    rcases List.mem_cons.mp hs with rfl | hs
    · exact h.batch
    · exact ih s hs

theorem nth_sel {xs : List Shape} {i : Nat} (h : i < xs.length) : nth (xs.map fun s => s.sel n) i = (nth xs i).sel n := by
  simp [nth, List.getD, List.getElem?_eq_getElem h]

theorem maxN_sel {xs : List Shape} (hc : Chooses B n σ) (hb : ∀ s, s ∈ xs → s.batch = 1 ∨ s.batch = B) (k : Nat) (hk : k ≤ xs.length) :
    maxN (fun i => (nth (xs.map fun s => s.sel n) i).batch) k = (if maxN (fun i => (nth xs i).batch) k = 1 then 1 else n) ∧
      (maxN (fun i => (nth xs i).batch) k = 1 ∨ maxN (fun i => (nth xs i).batch) k = B) ∧
      (maxN (fun i => (nth xs i).batch) k = 1 → ∀ i, i < k → (nth xs i).batch ≤ 1) := by
  induction k with
  | zero => exact ⟨rfl, .inl rfl, fun _ i hi => absurd hi (Nat.not_lt_zero i)⟩
  | succ k ih =>
    obtain ⟨h1, h2, h3⟩ := ih (by omega)
    have hb' := hb _ (nth_mem (xs := xs) (i := k) (by omega))
    have hp := hc.pos
    have hle := hc.le
    have e : (nth (xs.map fun s => s.sel n) k).batch = if (nth xs k).batch = 1 then 1 else n := by
      rw [nth_sel (by omega)]; rfl
    simp only [maxN, h1, e]
    refine ⟨?_, ?_, fun h i hi => ?_⟩
    · have key : ∀ M N : Nat, M = 1 ∨ M = B → N = 1 ∨ N = B →
          max (if M = 1 then 1 else n) (if N = 1 then 1 else n) = if max M N = 1 then 1 else n := by
        intro M N h h'
        rcases h with h | h <;> rcases h' with h' | h' <;> split_ifs <;> omega
      exact key _ _ h2 hb'
    · rcases h2 with h2 | h2 <;> rcases hb' with h | h <;> omega
    · rcases Nat.lt_succ_iff_lt_or_eq.mp hi with hi | rfl
      · have : maxN (fun i => (nth xs i).batch) k = 1 := by omega
        exact h3 this i hi
      · omega

theorem sumN_congr {f g : Nat → Nat} {n : Nat} (h : ∀ i, i < n → f i = g i) : sumN f n = sumN g n := by
  induction n with
  | zero => rfl
  | succ n ih => simp only [sumN]; rw [ih fun i hi => h i (by omega), h n (by omega)]

theorem catAt_rows {ins ins' : List (Shape × Arr α)} (h : Rows B n σ ins ins') {dim k b b' : Nat} (hk : k < n)
    (hb : ∀ s, s ∈ ins.map Prod.fst → bb s b = bb s (σ k) ∧ bb (s.sel n) b' = bb (s.sel n) k) :
    ∀ c : Nat → Nat, (∀ s, s ∈ ins.map Prod.fst → ∀ a, a ≠ dim → c a < s.get a) → catAt dim ins' c b' = catAt dim ins c b := by
  induction h with
  | nil => exact fun _ _ => rfl
  | @cons i i' l l' h _ ih =>
    intro c hcc
    obtain ⟨t, f⟩ := i
    obtain ⟨t', f'⟩ := i'
    have e := h.shape
    simp only at e
    subst e
    simp only [List.map_cons, List.mem_cons, forall_eq_or_imp] at hb hcc
    simp only [catAt]
    rw [hb.1.1, hb.1.2]
    by_cases hlt : c dim < t.get dim
    · rw [if_pos hlt, if_pos (show c dim < (t.sel n).get dim from hlt)]
      refine h.val c k (fun j => ?_) hk
      by_cases hj : j = dim
      · rw [hj]; exact hlt
      · exact hcc.1 j hj
    · rw [if_neg hlt, if_neg (show ¬ c dim < (t.sel n).get dim from hlt)]
      refine ih hb.2 _ fun s hs a ha => ?_
      unfold cset
      rw [if_neg ha]
      exact hcc.2 s hs a ha

theorem row_concat {ins ins' : List (Shape × Arr α)} {dim : Nat} {s : Shape} (hc : Chooses B n σ) (hw : ∀ s, s ∈ ins.map Prod.fst → s.WF)
    (h : Rows B n σ ins ins') (hs : (FwOp.concat dim : FwOp α).shape .debug (ins.map Prod.fst) = ok s) :
    Commutes B n σ (.concat dim : FwOp α) (.concat dim) ins ins' s := by
  have hne := (check_bind_ok.mp hs).1
  obtain ⟨h1, h2, h3, h4, h5, h6⟩ := (Shape.concat_iff hw).mp (check_bind_ok.mp hs).2
  obtain ⟨m1, m2, m3⟩ := maxN_sel hc h.batch _ (Nat.le_refl _)
  have hw' : ∀ t, t ∈ (ins.map Prod.fst).map (fun s => s.sel n) → t.WF := by
    intro t ht
    obtain ⟨q, hq, rfl⟩ := List.mem_map.mp ht
    exact (hw q hq).sel hc.pos
  have h0 : 0 < (ins.map Prod.fst).length := by
    rcases Nat.eq_zero_or_pos (ins.map Prod.fst).length with e | e
    · exact absurd (List.length_eq_zero_iff.mp e) h2
    · exact e
  have hsum : sumN (fun i => (nth ((ins.map Prod.fst).map fun s => s.sel n) i).get dim) (ins.map Prod.fst).length =
      sumN (fun i => (nth (ins.map Prod.fst) i).get dim) (ins.map Prod.fst).length := sumN_congr fun i hi => by rw [nth_sel hi]; rfl
  refine ⟨?_, by rw [h6.2.2]; exact m2, fun c k hcc hk => ?_⟩
  · rw [h.shapes]
    refine check_bind_ok.mpr ⟨by simpa using hne, (Shape.concat_iff hw').mpr ⟨h1, by simpa using h2, fun i hi a ha => ?_, fun i j hi hj => ?_, ?_, ?_⟩⟩
    · rw [List.length_map] at hi
      rw [nth_sel hi, nth_sel h0]; exact h3 i hi a ha
    · rw [List.length_map] at hi hj
      rw [nth_sel hi, nth_sel hj]
      exact (sel_batches hc (h.batch _ (nth_mem hi)) (h.batch _ (nth_mem hj))).1
    · rw [List.length_map, hsum, nth_sel h0]; exact h5
    · rw [List.length_map, hsum, nth_sel h0, m1]; exact h6.sel hc.pos rfl
  · refine catAt_rows h hk (fun t ht => ?_) c fun t ht a ha => ?_
    · obtain ⟨i, hi, rfl⟩ := List.getElem_of_mem ht
      have e : (ins.map Prod.fst)[i] = nth (ins.map Prod.fst) i := by simp [nth, List.getD, List.getElem?_eq_getElem hi]
      rw [e]
      have hp := (hw _ (nth_mem hi)).batch_pos
      have hp' := (hw' _ (List.mem_map_of_mem (f := fun s : Shape => s.sel n) (nth_mem hi))).batch_pos
      refine ⟨bb_bb (fun q => ?_) _, bb_bb (fun q => ?_) _⟩
      · rw [h6.2.2] at q
        have := m3 q i hi
        omega
      · rw [Shape.sel_batch, h6.2.2] at q
        rw [Shape.sel_batch]
        have hb := h.batch _ (nth_mem hi)
        have hpos := hc.pos
        have hle := hc.le
        split at q
        · rename_i q'
          have := m3 q' i hi
          rw [if_pos (by omega)]
        · split
          · rfl
          · exact q
    · obtain ⟨i, hi, rfl⟩ := List.getElem_of_mem ht
      have e : (ins.map Prod.fst)[i] = nth (ins.map Prod.fst) i := by simp [nth, List.getD, List.getElem?_eq_getElem hi]
      rw [e, h3 i hi a ha]
      have := hcc a
      rw [is_ne h6 a ha] at this
      exact this

theorem row_one {op : FwOp α} {i i' : Shape × Arr α} {s : Shape} (hc : Chooses B n σ) (wi : i.1.WF) (hi : Row B n σ i i')
    (hr : op.PerSample B) (hs : op.shape .debug [i.1] = ok s) : Commutes B n σ op (op.choose n σ) [i] [i'] s := by
  have wi' := wi.sel hc.pos
  cases op
  case un u =>
    cases hs
    exact commutes1 hi rfl rfl (G := fun f c => u.fn (f c)) (fun _ _ _ => rfl) fun f f' h c hc => by simp only [h c hc]
  case cn o k =>
    cases hs
    exact commutes1 hi rfl rfl (G := fun f c => o.fn (f c) k) (fun _ _ _ => rfl) fun f f' h c hc => by simp only [h c hc]
  case powi k =>
    cases hs
    exact commutes1 hi rfl rfl (G := fun f c => Flt.powi (f c) k) (fun _ _ _ => rfl) fun f f' h c hc => by simp only [h c hc]
  case sum dim =>
    obtain ⟨h1, h2, h3, h4⟩ := wi.resizeDim_iff.mp hs
    refine commutes1 hi (wi'.resizeDim_iff.mpr ⟨h1, h2, h3, h4.sel hc.pos rfl⟩) h4.2.2
      (G := fun f c => sumTo (i.1.get dim) (fun j => f (cset c dim j))) (fun t f e => by simp only [FwOp.sem, e]) fun f f' h c hc => ?_
    refine foldN_congr fun j hj a => ?_
    simp only [h _ (cset_lt (is_ne h4) hc hj)]
  case max dim =>
    obtain ⟨h1, h2, h3, h4⟩ := wi.resizeDim_iff.mp hs
    refine commutes1 hi (wi'.resizeDim_iff.mpr ⟨h1, h2, h3, h4.sel hc.pos rfl⟩) h4.2.2
      (G := fun f c => scanTo (fun v t => Flt.gt v t) (i.1.get dim) (fun j => f (cset c dim j))) (fun t f e => by simp only [FwOp.sem, e])
      fun f f' h c hc => ?_
    refine K.foldN_congr' (by simp only [h _ (cset_lt (is_ne h4) hc (wi.get_pos dim))]) fun j hj a => ?_
    simp only [h _ (cset_lt (is_ne h4) hc hj)]
  case min dim =>
    obtain ⟨h1, h2, h3, h4⟩ := wi.resizeDim_iff.mp hs
    refine commutes1 hi (wi'.resizeDim_iff.mpr ⟨h1, h2, h3, h4.sel hc.pos rfl⟩) h4.2.2
      (G := fun f c => scanTo (fun v t => Flt.gt t v) (i.1.get dim) (fun j => f (cset c dim j))) (fun t f e => by simp only [FwOp.sem, e])
      fun f f' h c hc => ?_
    refine K.foldN_congr' (by simp only [h _ (cset_lt (is_ne h4) hc (wi.get_pos dim))]) fun j hj a => ?_
    simp only [h _ (cset_lt (is_ne h4) hc hj)]
  case logsumexp dim =>
    obtain ⟨h1, h2, h3, h4⟩ := wi.resizeDim_iff.mp hs
    refine commutes1 hi (wi'.resizeDim_iff.mpr ⟨h1, h2, h3, h4.sel hc.pos rfl⟩) h4.2.2
      (G := fun f c => Flt.down (foldN (i.1.get dim - 1) (fun j a => Scalar.lseStep a (Flt.up (f (cset c dim (j + 1))))) (Flt.up (f (cset c dim 0)))))
      (fun t f e => by simp only [FwOp.sem, e])
      fun f f' h c hc => ?_
    refine congrArg Flt.down (K.foldN_congr' (by simp only [h _ (cset_lt (is_ne h4) hc (wi.get_pos dim))]) fun j hj a => ?_)
    simp only [h _ (cset_lt (is_ne h4) hc (show j + 1 < i.1.get dim by omega))]
  case broadcast dim size =>
    obtain ⟨h1, h2, h3, h4, h5⟩ := (Shape.broadcast_iff wi).mp hs
    refine commutes1 hi ((Shape.broadcast_iff wi').mpr ⟨h1, h2, h3, h4, h5.sel hc.pos rfl⟩) h5.2.2
      (G := fun f c => f (cset c dim 0)) (fun t f e => rfl) fun f f' h c hc => ?_
    exact h _ (cset_lt (is_ne h5) hc (wi.get_pos dim))
  case transpose =>
    obtain ⟨h1, h2⟩ := (Shape.transpose_iff wi).mp hs
    refine commutes1 hi ((Shape.transpose_iff wi').mpr ⟨h1, h2.sel hc.pos rfl⟩) h2.2.2
      (G := fun f c => f (mat (c 1) (c 0))) (fun t f e => rfl) fun f f' h c hc => ?_
    have e0 := h2.2.1 0
    have e1 := h2.2.1 1
    simp only [matDims, if_true, if_neg one_ne_zero] at e0 e1
    exact h _ (mat_lt h1 (by rw [← e1]; exact hc 1) (by rw [← e0]; exact hc 0))
  case triangularL k =>
    obtain ⟨h1, h2⟩ := check_bind_ok.mp hs
    cases h2
    refine commutes1 hi (check_bind_ok.mpr ⟨h1, rfl⟩) rfl (G := fun f c => if c 1 + k ≤ c 0 then f c else 0) (fun t f e => rfl) fun f f' h c hc => ?_
    simp only [h c hc]
  case triangularU k =>
    obtain ⟨h1, h2⟩ := check_bind_ok.mp hs
    cases h2
    refine commutes1 hi (check_bind_ok.mpr ⟨h1, rfl⟩) rfl (G := fun f c => if c 0 + k ≤ c 1 then f c else 0) (fun t f e => rfl) fun f f' h c hc => ?_
    simp only [h c hc]
  case slice dim lower upper =>
    obtain ⟨h1, h2, h3, h4⟩ := (Shape.slice_iff wi).mp hs
    refine commutes1 hi ((Shape.slice_iff wi').mpr ⟨h1, h2, h3, h4.sel hc.pos rfl⟩) h4.2.2
      (G := fun f c => f (cset c dim (lower + c dim))) (fun t f e => rfl) fun f f' h c hc => ?_
    have e := h4.2.1 dim
    simp only [setC, if_true] at e
    have := hc dim
    exact h _ (cset_lt (is_ne h4) hc (by omega))
  case pick ids dim =>
    obtain ⟨h1, h2, h3, h4, h5⟩ := (Shape.pick_iff wi).mp hs
    have hl : ids.length = 1 ∨ ids.length = B := hr
    have hn := hc.pos
    have hle := hc.le
    have hb := hi.batch
    generalize hids : (if ids.length = 1 then ids else (List.range n).map fun k => ids.getD (σ k) 0) = ids'
    have el : ids'.length = if ids.length = 1 then 1 else n := by
      rw [← hids]
      split
      · assumption
      · simp
    have hmem : ∀ id, id ∈ ids' → id < i.1.get dim := by
      intro id hid
      rw [← hids] at hid
      split at hid
      · exact h4 id hid
      · obtain ⟨k, hk, rfl⟩ := List.mem_map.mp hid
        have hk' : σ k < ids.length := by
          have := hc.lt k (List.mem_range.mp hk)
          omega
        refine h4 _ ?_
        rw [List.getD, List.getElem?_eq_getElem hk']
        exact List.getElem_mem hk'
    have hget : ∀ k, k < n → ids'.getD (if ids'.length = 1 then 0 else k) 0 = ids.getD (if ids.length = 1 then 0 else σ k) 0 := by
      intro k hk
      by_cases h : ids.length = 1
      · rw [← hids]; simp only [h, if_true]
      · rw [if_neg h] at el
        have e0 : (if ids'.length = 1 then 0 else k) = k := by split <;> omega
        rw [e0, ← hids, if_neg h, if_neg h]
        simp [List.getD, hk]
    have hsb : (s.sel n).batch = max (i.1.sel n).batch ids'.length := by
      rw [Shape.sel_batch, Shape.sel_batch, h5.2.2, el]
      rcases hb with e | e <;> rcases hl with e' | e' <;> (try split_ifs) <;> omega
    refine ⟨?_, ?_, fun c k hcc hk => ?_⟩
    · simp only [List.map, hi.shape, FwOp.choose, hids]
      refine (Shape.pick_iff wi').mpr ⟨h1, ?_, ?_, hmem, h5.1.sel hn, h5.2.1, hsb⟩
      · intro e; rw [e] at el; simp only [List.length_nil] at el; split at el <;> omega
      · rw [Shape.sel_batch, el]
        rcases hb with e | e <;> rcases hl with e' | e' <;> (try split_ifs) <;> omega
    · rw [h5.2.2]
      rcases hb with e | e <;> rcases hl with e' | e' <;> omega
    · have hp1 := wi.batch_pos
      have hp2 : 1 ≤ ids.length := by rcases hl with e | e <;> omega
      have hp3 : 1 ≤ ids'.length := by rw [el]; split <;> omega
      have hp4 := wi'.batch_pos
      obtain ⟨t, f⟩ := i
      obtain ⟨t', f'⟩ := i'
      have e := hi.shape
      simp only at e
      subst e
      replace hp1 : 1 ≤ t.batch := hp1
      replace hp4 : 1 ≤ (t.sel n).batch := hp4
      replace hsb : (s.sel n).batch = max (t.sel n).batch ids'.length := hsb
      have l1 : (if ids'.length = 1 then 0 else bb (s.sel n) k) = if ids'.length = 1 then 0 else k := by
        split
        · rfl
        · unfold bb; rw [if_neg (by omega)]
      have l2 : (if ids.length = 1 then 0 else bb s (σ k)) = if ids.length = 1 then 0 else σ k := by
        split
        · rfl
        · unfold bb; rw [if_neg (by rw [h5.2.2]; omega)]
      have h52 : s.batch = max t.batch ids.length := h5.2.2
      simp only [FwOp.choose, hids, FwOp.sem]
      rw [l1, l2, hget k hk, bb_bb (a := t) (s := s) (by omega), bb_bb (a := t.sel n) (s := s.sel n) (by omega)]
      refine hi.val _ k (cset_lt (is_ne h5) hcc ?_) hk
      have hlt : (if ids.length = 1 then 0 else σ k) < ids.length := by
        have := hc.lt k hk
        split <;> omega
      refine h4 _ ?_
      rw [List.getD, List.getElem?_eq_getElem hlt]
      exact List.getElem_mem hlt
  case concat dim => exact row_concat hc (by simpa using wi) (.cons hi .nil) hs
  all_goals first | exact hr.elim | cases hs

theorem row_two {op : FwOp α} {i i' j j' : Shape × Arr α} {s : Shape} (hc : Chooses B n σ) (wi : i.1.WF) (wj : j.1.WF)
    (hi : Row B n σ i i') (hj : Row B n σ j j') (hr : op.PerSample B) (hs : op.shape .debug [i.1, j.1] = ok s) :
    Commutes B n σ op (op.choose n σ) [i, j] [i', j'] s := by
  have wi' := wi.sel hc.pos
  have wj' := wj.sel hc.pos
  obtain ⟨q1, q2, q3⟩ := sel_batches hc hi.batch hj.batch
  cases op
  case bi o =>
    obtain ⟨h1, h2, h3⟩ := (Shape.elementwise_iff wi wj).mp hs
    refine commutes2 hc hi hj ((Shape.elementwise_iff wi' wj').mpr ⟨h1, q1, h3.sel hc.pos q2⟩) h3.2.2 wi wj
      (G := fun f g c => o.fn (f c) (g c)) rfl rfl fun f f' g g' e1 e2 c hcc => ?_
    have hci : ∀ a, c a < i.1.get a := fun a => by rw [← h3.2.1 a]; exact hcc a
    simp only [e1 c hci, e2 c fun a => by rw [← h1 a]; exact hci a]
  case sc o =>
    obtain ⟨h1, h2, h3⟩ := (Shape.scalarOp_iff wi wj).mp hs
    refine commutes2 hc hi hj ((Shape.scalarOp_iff wi' wj').mpr ⟨h1, q1, h3.sel hc.pos q2⟩) h3.2.2 wi wj
      (G := fun f g c => o.fn (f c) (g czero)) rfl rfl fun f f' g g' e1 e2 c hcc => ?_
    have hci : ∀ a, c a < i.1.get a := fun a => by rw [← h3.2.1 a]; exact hcc a
    simp only [e1 c hci, e2 czero fun a => by rw [h1 a]; exact Nat.one_pos]
  case matmul =>
    obtain ⟨h1, h2, h3, h4, h5, h6⟩ := (Shape.matmul_iff wi wj).mp hs
    refine commutes2 hc hi hj ((Shape.matmul_iff wi' wj').mpr ⟨h1, h2, h3, q1, h5, h6.sel hc.pos q2⟩) h6.2.2 wi wj
      (G := fun f g c => sumBlk (i.1.get 1) (fun k => f (mat (c 0) k) * g (mat k (c 1)))) rfl
      (by simp only [FwOp.sem, hi.shape, Shape.sel_get]) fun f f' g g' e1 e2 c hcc => ?_
    have r0 := h6.2.1 0
    have r1 := h6.2.1 1
    simp only [matDims, if_true, if_neg one_ne_zero] at r0 r1
    refine K.sumBlk_congr fun k hk => ?_
    rw [e1 _ (mat_lt h1 (by rw [← r0]; exact hcc 0) hk), e2 _ (mat_lt h2 (by rw [← h3]; exact hk) (by rw [← r1]; exact hcc 1))]
  case concat dim => exact row_concat hc (by simpa using ⟨wi, wj⟩) (.cons hi (.cons hj .nil)) hs
  all_goals first | exact hr.elim | cases hs

/-- Every function that works on the samples separately commutes with the choice of samples. -/
theorem rows_commute {op : FwOp α} {ins ins' : List (Shape × Arr α)} {s : Shape} (hc : Chooses B n σ) (hw : ∀ s, s ∈ ins.map Prod.fst → s.WF)
    (h : Rows B n σ ins ins') (hr : op.PerSample B) (hs : op.shape .debug (ins.map Prod.fst) = ok s) :
    Commutes B n σ op (op.choose n σ) ins ins' s := by
  cases h with
  | nil => cases op <;> first | exact hr.elim | cases hs
  | cons h1 ht =>
    cases ht with
    | nil => exact row_one hc (hw _ (by simp)) h1 hr hs
    | cons h2 ht =>
      cases ht with
      | nil => exact row_two hc (hw _ (by simp)) (hw _ (by simp)) h1 h2 hr hs
      | cons h3 ht =>
        cases op
        case concat dim => exact row_concat hc hw (.cons h1 (.cons h2 (.cons h3 ht))) hs
        all_goals first | exact hr.elim | cases hs

end Verif
