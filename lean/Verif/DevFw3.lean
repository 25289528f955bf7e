import Verif.DevFw2

/-!
# Every forward device function computes its meaning: pick, concat, batch functions; all together
-/

set_option linter.unusedSectionVars false

namespace Verif
open Res Shape ShapeOps
variable {α : Type} [Flt α] {d : Nat} {p : Profile}

namespace K

theorem getD_lt {β : Type} {l : List β} {i : Nat} {a : β} (h : i < l.length) : l.getD i a = l[i] := by
  simp [List.getD, List.getElem?_eq_getElem h]

theorem pick_holds {x y : Tensor α} {sx s : Shape} {f : Arr α} {ids : List Nat} {dim : Nat} {v} (hx : x.Holds d sx f)
    (hs : pick .debug sx ids dim = ok s) (hy : y.Room d s) :
    ∃ y', K.pickFw p [x] (dim :: ids) v y = ok y' ∧
      y'.Holds d s (fun c b => f (cset c dim (ids.getD (if ids.length = 1 then 0 else b) 0)) (bb sx b)) := by
  obtain ⟨_, hne, hbc, hid, hw, e3, e4⟩ := (pick_iff hx.wf).mp hs
  have hl : 1 ≤ ids.length := by
    cases ids with
    | nil => exact absurd rfl hne
    | cons a l => simp
  have hbx := hx.wf.batch_pos
  have hd : ∀ i, i ≠ dim → sx.get i = s.get i := fun i hi => by rw [e3, setC_ne hi]
  have h1 : s.get dim = 1 := by rw [e3, setC_self]
  have hb : sx.batch = 1 ∨ sx.batch = s.batch := by omega
  have hidx : ∀ b, b < s.batch → (if ids.length = 1 then 0 else b) < ids.length := by
    intro b hb'; split <;> omega
  have hidlt : ∀ b, b < s.batch → ids.getD (if ids.length = 1 then 0 else b) 0 < sx.get dim := by
    intro b hb'
    rw [getD_lt (hidx b hb')]
    exact hid _ (List.getElem_mem _)
  obtain ⟨y', q1, q2⟩ := K.pickFw_ok (p := p) (f := v) (rest := []) (ids := ids)
    (id := fun b => ids.getD (if ids.length = 1 then 0 else b) 0) hx.flat hy hd h1 hb
    (fun b hb' => by
      have : b * (if 1 < ids.length then 1 else 0) = (if ids.length = 1 then 0 else b) := by
        by_cases h : ids.length = 1
        · simp [h]
        · rw [if_pos (by omega), if_neg h, Nat.mul_one]
      rw [this, getD_lt (hidx b hb'), List.getElem?_eq_getElem (hidx b hb')]) hidlt
  refine ⟨y', q1, q2.holds (fun c b hv => ?_)⟩
  have hb' := hv.2
  generalize hid' : ids.getD (if ids.length = 1 then 0 else b) 0 = id
  have hidb : id < sx.get dim := by rw [← hid']; exact hidlt b hb'
  -- the source shape with the batch of `s`
  have hvx : sx.Valid (cset c dim id) (bb sx b) := by
    refine ⟨(valid_cset (sx := { sx with batch := s.batch }) hd hidb rfl hv).1, ?_⟩
    unfold bb; split <;> omega
  rw [← Arr.flat_offset hx.wf f hvx]
  obtain ⟨o1, o2⟩ := hw.offset_div hv
  simp only [o1, o2, hid']
  congr 1
  have hw2 : ({ sx with batch := s.batch } : Shape).WF := hx.wf.withBatch (by omega)
  have ho : offN sx.get (cset c dim id) 8 = offN s.get c 8 % s.lowerVolume dim +
      s.lowerVolume dim * (id + sx.get dim * (offN s.get c 8 / s.lowerVolume dim)) := by
    have hv0 : s.Valid c 0 := ⟨hv.1, by omega⟩
    have e := offset_axis (sx := { sx with batch := s.batch }) (s := s) hw2 hw hd hidb rfl hv0
    have e' := hw.offset_split hv0 dim
    unfold Shape.offset at e e'
    rw [Nat.zero_mul, Nat.add_zero] at e e'
    rw [show offN sx.get (cset c dim id) 8 = _ from e, e', h1]
    have c0 : c dim = 0 := by have := hv.1 dim; omega
    rw [(flat_div (hw.lo_lt hv0 dim)).1, (flat_div (hw.lo_lt hv0 dim)).2, c0]
    simp only [Nat.zero_add, Nat.one_mul]
    rfl
  have hmod : s.offset c b % s.lowerVolume dim = offN s.get c 8 % s.lowerVolume dim := by
    rw [hw.offset_eq, hw.volume_split dim, show b * (s.lowerVolume dim * s.get dim * s.up dim) =
      s.lowerVolume dim * (s.get dim * s.up dim * b) by ring, Nat.add_mul_mod_self_left]
  rw [hx.wf.offset_eq, ho, hmod]
  unfold bb
  ring

theorem bvalid {sx s : Shape} (h : ∀ i, s.get i = sx.get i) {c : Nat → Nat} {b b' : Nat} (hv : s.Valid c b) (hb : b' < sx.batch) :
    sx.Valid c b' := ⟨fun i => by rw [← h]; exact hv.1 i, hb⟩

theorem boffset {sx s : Shape} (hx : sx.WF) (hs : s.WF) (h : ∀ i, s.get i = sx.get i) (c : Nat → Nat) (b : Nat) :
    sx.offset c b = offN s.get c 8 + b * s.volume := by
  rw [hx.offset_eq, vol_of_dims hx hs (fun i => (h i).symm)]
  congr 1
  exact offN_congr (fun i _ => (h i).symm) (fun _ _ => rfl)

theorem batchSum_holds {x y : Tensor α} {sx s : Shape} {f : Arr α} {u v} (hx : x.Holds d sx f)
    (hs : sx.resizeBatch 1 = ok s) (hy : y.Room d s) :
    ∃ y', K.batchSumFw p [x] u v y = ok y' ∧ y'.Holds d s (fun c _ => sumTo sx.batch (fun b => f c b)) := by
  obtain ⟨_, rfl⟩ := updateBatch_ok_iff.mp hs
  have hw : ({ sx with batch := 1 } : Shape).WF := hx.wf.withBatch (by omega)
  obtain ⟨y', q1, q2⟩ := K.batchSumFw_ok (p := p) (u := u) (f := v) (rest := []) hx.flat hy rfl rfl
  refine ⟨y', q1, q2.holds (fun c b hv => ?_)⟩
  have hb0 : b = 0 := by have := hv.2; simp only at this; omega
  subst hb0
  refine foldN_congr (fun b hb a => ?_)
  have hvx : sx.Valid c b := bvalid (sx := sx) (s := { sx with batch := 1 }) (fun _ => rfl) hv hb
  show _ = a + f c b
  rw [← Arr.flat_offset hx.wf f hvx, hx.wf.offset_eq, hw.offset_eq, Nat.zero_mul, Nat.add_zero]
  rfl

theorem batchSlice_holds {x y : Tensor α} {sx s : Shape} {f : Arr α} {lo up : Nat} {u v} (hx : x.Holds d sx f)
    (hs : batchSlice sx lo up = ok s) (hy : y.Room d s) :
    ∃ y', K.batchSliceFw p [x] (lo :: u) v y = ok y' ∧ y'.Holds d s (fun c b => f c (lo + b)) := by
  obtain ⟨h1, h2, hw, e3, e4⟩ := (batchSlice_iff hx.wf).mp hs
  obtain ⟨y', q1, q2⟩ := K.batchSliceFw_ok (p := p) (off := lo) (u := u) (f := v) (rest := []) hx.flat hy
    (vol_of_dims hx.wf hw (fun i => (e3 i).symm)) (by omega)
  refine ⟨y', q1, q2.holds (fun c b hv => ?_)⟩
  have hb := hv.2
  have hvx : sx.Valid c (lo + b) := bvalid e3 hv (by omega)
  rw [← Arr.flat_offset hx.wf f hvx, boffset hx.wf hw e3, hw.offset_eq]
  congr 1; ring

theorem batchPick_holds {x y : Tensor α} {sx s : Shape} {f : Arr α} {ids : List Nat} {v} (hx : x.Holds d sx f)
    (hs : batchPick sx ids = ok s) (hy : y.Room d s) :
    ∃ y', K.batchPickFw p [x] ids v y = ok y' ∧ y'.Holds d s (fun c b => f c (ids.getD b 0)) := by
  obtain ⟨h1, h2, hw, e3, e4⟩ := (batchPick_iff hx.wf).mp hs
  have hid : ∀ b, b < s.batch → ids.getD b 0 < sx.batch := by
    intro b hb
    rw [getD_lt (by omega)]
    exact h2 _ (List.getElem_mem _)
  obtain ⟨y', q1, q2⟩ := K.batchPickFw_ok (p := p) (f := v) (rest := []) (ids := ids) (id := fun b => ids.getD b 0) hx.flat hy
    (vol_of_dims hx.wf hw (fun i => (e3 i).symm))
    (fun b hb => by rw [getD_lt (by omega), List.getElem?_eq_getElem (by omega)]) hid
  refine ⟨y', q1, q2.holds (fun c b hv => ?_)⟩
  have hb := hv.2
  have hvx : sx.Valid c (ids.getD b 0) := bvalid e3 hv (hid b hb)
  obtain ⟨o1, o2⟩ := hw.offset_div hv
  rw [← Arr.flat_offset hx.wf f hvx, boffset hx.wf hw e3]
  simp only [o1, o2]
  congr 1; ring

/-- Which argument an element of a concatenation comes from. -/
theorem catAt_eq {dim : Nat} {ins : List (Shape × Arr α)} {n q b : Nat} {c : Nat → Nat} (hn : n < ins.length)
    (hq : q < (ins[n]).1.get dim) (hc : c dim = sumN (fun i => (nth (ins.map Prod.fst) i).get dim) n + q) :
    catAt dim ins c b = (ins[n]).2 (cset c dim q) (bb (ins[n]).1 b) := by
  induction ins generalizing n c with
  | nil => simp at hn
  | cons i rest ih =>
    obtain ⟨s, f⟩ := i
    unfold catAt
    cases n with
    | zero =>
      simp only [sumN, Nat.zero_add] at hc
      simp only [List.getElem_cons_zero] at hq ⊢
      rw [if_pos (by omega)]
      congr 1
      funext e
      unfold cset; split
      · rename_i h; subst h; exact hc
      · rfl
    | succ n =>
      have hs : sumN (fun i => (nth (((s, f) :: rest).map Prod.fst) i).get dim) (n + 1) =
          s.get dim + sumN (fun i => (nth (rest.map Prod.fst) i).get dim) n := by
        clear hq hc hn ih
        induction n with
        | zero => simp [sumN, nth]
        | succ n ih => rw [sumN, ih, sumN, Nat.add_assoc]; rfl
      simp only [List.getElem_cons_succ] at hq ⊢
      rw [if_neg (by rw [hc, hs]; omega)]
      rw [ih (n := n) (by simpa using hn) hq (by simp only [cset, if_true]; omega)]
      have hcc : cset (cset c dim (c dim - s.get dim)) dim q = cset c dim q := by
        funext e
        unfold cset; split <;> rfl
      rw [hcc]

theorem batchCatAt_eq {ins : List (Shape × Arr α)} {n b : Nat} {c : Nat → Nat} (hn : n < ins.length)
    (hq : b < (ins[n]).1.batch) :
    batchCatAt ins c (sumN (fun i => (nth (ins.map Prod.fst) i).batch) n + b) = (ins[n]).2 c b := by
  induction ins generalizing n with
  | nil => simp at hn
  | cons i rest ih =>
    obtain ⟨s, f⟩ := i
    unfold batchCatAt
    cases n with
    | zero =>
      simp only [sumN, Nat.zero_add]
      simp only [List.getElem_cons_zero] at hq ⊢
      rw [if_pos hq]
    | succ n =>
      have hs : sumN (fun i => (nth (((s, f) :: rest).map Prod.fst) i).batch) (n + 1) =
          s.batch + sumN (fun i => (nth (rest.map Prod.fst) i).batch) n := by
        clear hq hn ih
        induction n with
        | zero => simp [sumN, nth]
        | succ n ih => rw [sumN, ih, sumN, Nat.add_assoc]; rfl
      simp only [List.getElem_cons_succ] at hq ⊢
      rw [if_neg (by omega), hs, show s.batch + sumN (fun i => (nth (rest.map Prod.fst) i).batch) n + b - s.batch =
        sumN (fun i => (nth (rest.map Prod.fst) i).batch) n + b by omega]
      exact ih (by simpa using hn) hq

theorem nth_map_fst {ins : List (Shape × Arr α)} {n : Nat} (hn : n < ins.length) : nth (ins.map Prod.fst) n = (ins[n]).1 := by
  unfold nth; rw [getD_lt (by simpa using hn)]; simp

theorem batchConcat_holds {xs : List (Tensor α)} {ins : List (Shape × Arr α)} {y : Tensor α} {s : Shape} {u v}
    (hx : HoldAll d xs ins) (hs : batchConcat .debug (ins.map Prod.fst) = ok s) (hy : y.Room d s) :
    ∃ y', K.batchConcatFw p xs u v y = ok y' ∧ y'.Holds d s (batchCatAt ins) := by
  obtain ⟨h1, h2, h3, hw, e3, e4⟩ := (batchConcat_iff hx.wf).mp hs
  rw [List.length_map] at h2 e4
  have hl := hx.length_eq
  set sh : Nat → Shape := nth (ins.map Prod.fst) with hsh
  have hwf : ∀ n, n < ins.length → (sh n).WF := fun n hn => hx.wf _ (nth_mem (by simpa using hn))
  have hget : ∀ n, n < ins.length → ∀ i, s.get i = (sh n).get i := fun n hn i => by rw [e3, h2 n hn]
  have hvol : ∀ n, n < ins.length → (sh n).volume = s.volume := fun n hn =>
    vol_of_dims (hwf n hn) hw (fun i => (hget n hn i).symm)
  have hsum : ∀ n, n ≤ ins.length → sumN (fun i => (sh i).size) n = sumN (fun i => (sh i).batch) n * s.volume := by
    intro n hn
    induction n with
    | zero => simp [sumN]
    | succ n ih =>
      rw [sumN, sumN, ih (by omega), Nat.add_mul]
      congr 1
      unfold Shape.size; rw [hvol n (by omega)]
  obtain ⟨y', q1, q2⟩ := K.batchConcatFw_ok (p := p) (u := u) (f := v) (xs := xs) (sh := sh)
    (g := fun n => Arr.flat (sh n) (if h : n < ins.length then (ins[n]).2 else fun _ _ => 0))
    (G := Arr.flat s (batchCatAt ins)) (d := d) (y := y) (s := s)
    (fun n hn => by
      rw [hl] at hn
      obtain ⟨x, e, hh⟩ := hx.get hn
      refine ⟨x, e, ?_⟩
      rw [dif_pos hn, hsh, nth_map_fst hn]
      exact hh.flat) hy
    (by rw [hl, hsum _ (Nat.le_refl _)]; unfold Shape.size; rw [e4])
    (fun n i hn hi => by
      rw [hl] at hn
      rw [dif_pos hn, hsum n (by omega)]
      obtain ⟨hv, ho⟩ := (hwf n hn).offset_coord hi
      generalize (sh n).coord (i % (sh n).volume) = c at hv ho
      generalize i / (sh n).volume = b at hv ho
      subst ho
      have hvs : s.Valid c (sumN (fun i => (sh i).batch) n + b) := by
        refine ⟨fun i => by rw [hget n hn]; exact hv.1 i, ?_⟩
        rw [e4]; exact sumN_add_lt hn hv.2
      rw [Arr.flat_offset (hwf n hn) _ hv]
      have : sumN (fun i => (sh i).batch) n * s.volume + (sh n).offset c b =
          s.offset c (sumN (fun i => (sh i).batch) n + b) := by
        rw [boffset (hwf n hn) hw (hget n hn), hw.offset_eq]; ring
      rw [this, Arr.flat_offset hw _ hvs, batchCatAt_eq hn (by rw [← nth_map_fst hn]; exact hv.2)])
  exact ⟨y', q1, q2.holds (fun c b hv => Arr.flat_offset hw _ hv)⟩

/-- Positions split along an axis are unique. -/
theorem split_uniq {l base q k D R l' q' k' : Nat} (hl : l < base) (hl' : l' < base) (hq : q < D) (hq' : q' < D)
    (hR : l + base * (q + D * k) = l' + base * (q' + D * k')) (_ : R = R) : l = l' ∧ q = q' ∧ k = k' := by
  have h1 := (flat_div (q := q + D * k) hl)
  rw [hR] at h1
  have h2 := (flat_div (q := q' + D * k') hl')
  have e1 : l = l' := by rw [← h1.2, h2.2]
  have e2 : q + D * k = q' + D * k' := by rw [← h1.1, h2.1]
  have h3 := flat_div (q := k) hq
  rw [e2] at h3
  have h4 := flat_div (q := k') hq'
  exact ⟨e1, by rw [← h3.2, h4.2], by rw [← h3.1, h4.1]⟩

theorem maxN_attained (f : Nat → Nat) (n : Nat) : maxN f n = 1 ∨ ∃ j, j < n ∧ maxN f n = f j := by
  induction n with
  | zero => exact .inl rfl
  | succ n ih =>
    rw [maxN]
    rcases Nat.le_total (maxN f n) (f n) with h | h
    · exact .inr ⟨n, by omega, by omega⟩
    · rcases ih with e | ⟨j, hj, e⟩
      · exact .inl (by omega)
      · exact .inr ⟨j, by omega, by omega⟩

theorem maxN_compat {sh : Nat → Shape} {N : Nat} (h : ∀ i j, i < N → j < N → BatchCompat (sh i) (sh j))
    (hp : ∀ n, n < N → 1 ≤ (sh n).batch) {n : Nat} (hn : n < N) :
    (sh n).batch = 1 ∨ (sh n).batch = maxN (fun i => (sh i).batch) N := by
  have h1 := Shape.maxN_le (f := fun i => (sh i).batch) hn
  have h1 : (sh n).batch ≤ maxN (fun i => (sh i).batch) N := h1
  rcases maxN_attained (fun i => (sh i).batch) N with e | ⟨j, hj, e⟩
  · have := hp n hn; omega
  · have h2 := h n j hn hj
    have := hp n hn
    unfold BatchCompat at h2
    have e' : maxN (fun i => (sh i).batch) N = (sh j).batch := e
    omega

theorem concat_holds {xs : List (Tensor α)} {ins : List (Shape × Arr α)} {y : Tensor α} {s : Shape} {dim : Nat} {u v}
    (hx : HoldAll d xs ins) (hs : concat .debug (ins.map Prod.fst) dim = ok s) (hy : y.Room d s) :
    ∃ y', K.concatFw p xs (dim :: u) v y = ok y' ∧ y'.Holds d s (catAt dim ins) := by
  obtain ⟨_, _, h2, h3, _, hw, e3, e4⟩ := (concat_iff hx.wf).mp hs
  rw [List.length_map] at h2 e4 e3
  have hl := hx.length_eq
  unfold AllCompat at h3
  rw [List.length_map] at h3
  set sh : Nat → Shape := nth (ins.map Prod.fst) with hsh
  have hwf : ∀ n, n < ins.length → (sh n).WF := fun n hn => hx.wf _ (nth_mem (by simpa using hn))
  have hd : ∀ n, n < ins.length → ∀ i, i ≠ dim → (sh n).get i = s.get i := fun n hn i hi => by
    rw [e3, setC_ne hi, h2 n hn i hi]
  have hD : s.get dim = sumN (fun n => (sh n).get dim) ins.length := by rw [e3, setC_self]
  have hb : ∀ n, n < ins.length → (sh n).batch = 1 ∨ (sh n).batch = s.batch := by
    intro n hn; rw [e4]; exact maxN_compat h3 (fun n hn => (hwf n hn).batch_pos) hn
  obtain ⟨y', q1, q2⟩ := K.concatFw_ok (p := p) (u := u) (f := v) (xs := xs) (sh := sh) (dim := dim)
    (g := fun n => Arr.flat (sh n) (if h : n < ins.length then (ins[n]).2 else fun _ _ => 0))
    (G := Arr.flat s (catAt dim ins)) (d := d) (y := y) (s := s)
    (fun n hn => by
      rw [hl] at hn
      obtain ⟨x, e, hh⟩ := hx.get hn
      refine ⟨x, e, ?_⟩
      rw [dif_pos hn, hsh, nth_map_fst hn]
      exact hh.flat) hy
    (fun n hn => hd n (by omega)) (by rw [hl, hD]) (fun n hn => hb n (by omega))
    (fun n b r j hn hb' hr hj => by
      rw [hl] at hn
      rw [dif_pos hn]
      have hbase := hw.lowerVolume_pos dim
      have hlt : j % s.lowerVolume dim < s.lowerVolume dim := Nat.mod_lt _ hbase
      have hqlt : j / s.lowerVolume dim < (sh n).get dim := Nat.div_lt_of_lt_mul hj
      have hjj : j = j % s.lowerVolume dim + s.lowerVolume dim * (j / s.lowerVolume dim) := (Nat.mod_add_div _ _).symm
      generalize j % s.lowerVolume dim = l at hlt hjj
      generalize j / s.lowerVolume dim = q at hqlt hjj
      have hSq : sumN (fun n => (sh n).get dim) n + q < s.get dim := by rw [hD]; exact sumN_add_lt hn hqlt
      have hP : s.lowerVolume dim * sumN (fun n => (sh n).get dim) n + (b * s.up dim + r) * (s.lowerVolume dim * s.get dim) + j =
          l + s.lowerVolume dim * ((sumN (fun n => (sh n).get dim) n + q) + s.get dim * (b * s.up dim + r)) := by
        rw [hjj]; ring
      rw [hP]
      have hPs : l + s.lowerVolume dim * ((sumN (fun n => (sh n).get dim) n + q) + s.get dim * (b * s.up dim + r)) < s.size := by
        have hk : b * s.up dim + r < s.batch * s.up dim := by
          have : (b + 1) * s.up dim ≤ s.batch * s.up dim := Nat.mul_le_mul_right _ hb'
          rw [Nat.succ_mul] at this; omega
        have := flat_lt hlt (flat_lt hSq hk)
        refine Nat.lt_of_lt_of_eq this ?_
        unfold Shape.size; rw [hw.volume_split dim]; ring
      obtain ⟨hv, ho⟩ := hw.offset_coord hPs
      rw [← ho, Arr.flat_offset hw _ hv]
      revert hv ho
      generalize s.coord _ = c
      generalize (l + _) / s.volume = b'
      intro hv ho
      have hsp := hw.offset_split hv dim
      rw [ho] at hsp
      obtain ⟨u1, u2, u3⟩ := split_uniq (R := 0) hlt (hw.lo_lt hv dim) hSq (hv.1 dim) hsp rfl
      have hup : offN (fun i => s.get (dim + 1 + i)) (fun i => c (dim + 1 + i)) 8 < s.up dim := offN_lt (fun i _ => hv.1 _)
      have hbr : b = b' ∧ r = offN (fun i => s.get (dim + 1 + i)) (fun i => c (dim + 1 + i)) 8 := by
        have hhi : s.hi dim c b' = offN (fun i => s.get (dim + 1 + i)) (fun i => c (dim + 1 + i)) 8 + s.up dim * b' := by
          unfold Shape.hi; rw [Nat.mul_comm b']; rfl
        rw [hhi, show b * s.up dim + r = r + s.up dim * b by ring] at u3
        have h1 := flat_div (q := b) hr
        have h2 := flat_div (q := b') hup
        rw [u3] at h1
        exact ⟨by rw [← h1.1, h2.1], by rw [← h1.2, h2.2]⟩
      obtain ⟨rfl, hr'⟩ := hbr
      rw [catAt_eq hn (by rw [← nth_map_fst hn]; exact hqlt) u2.symm, ← nth_map_fst hn]
      have hvn : (sh n).Valid (cset c dim q) (bb (sh n) b) := by
        refine ⟨fun i => ?_, ?_⟩
        · unfold cset
          by_cases hi : i = dim
          · subst hi; rw [if_pos rfl]; exact hqlt
          · rw [if_neg hi, hd n hn i hi]; exact hv.1 i
        · unfold bb
          have := (hwf n hn).batch_pos
          have := hb n hn
          split <;> omega
      have hoff : (sh n).offset (cset c dim q) (bb (sh n) b) =
          (if (sh n).batch = 1 then 0 else b) * (sh n).volume + (r * (s.lowerVolume dim * (sh n).get dim) + j) := by
        have hc : ∀ i, i ≠ dim → cset c dim q i = c i := fun i hi => if_neg hi
        rw [(hwf n hn).offset_split hvn dim, Shape.lowerVolume_congr (hwf n hn) hw (hd n hn),
          Shape.lo_congr (hd n hn) hc, Shape.hi_congr _ (hd n hn) hc, (hwf n hn).volume_split dim,
          Shape.lowerVolume_congr (hwf n hn) hw (hd n hn), Shape.up_congr (hd n hn), ← u1, hjj, hr']
        unfold Shape.hi bb
        rw [show cset c dim q dim = q by simp [cset], ← hr',
          show volN (fun i => s.get (dim + 1 + i)) 8 = s.up dim from rfl]
        ring
      rw [← hoff, Arr.flat_offset (hwf n hn) _ hvn])
  exact ⟨y', q1, q2.holds (fun c b hv => Arr.flat_offset hw _ hv)⟩

end K

/-- Number of tensor arguments (`none`: any). -/
def FwOp.arity : FwOp α → Option Nat
  | .bi _ => some 2
  | .sc _ => some 2
  | .matmul => some 2
  | .concat _ => none
  | .batchConcat => none
  | _ => some 1

theorem FwOp.shape_len {op : FwOp α} {sh : List Shape} {s : Shape} {p : Profile} (h : op.shape p sh = ok s) :
    ∀ n, op.arity = some n → sh.length = n := by
  unfold FwOp.shape at h
  split at h
  all_goals first
    | (intro n hn; cases hn; rfl)
    | (intro n hn; cases hn; done)
    | (cases h; done)

/-- Every forward device function, on tensors it accepts, returns a tensor that holds its meaning. -/
theorem Dev.fw_ok {op : FwOp α} {xs : List (Tensor α)} {ins : List (Shape × Arr α)} {s : Shape}
    (hx : HoldAll d xs ins) (hs : op.shape .debug (ins.map Prod.fst) = ok s) (hsz : s.size ≤ 2 ^ 31) (hfit : op.Fits s)
    (p : Profile) (m : Nat → α) :
    ∃ y, Dev.fw op p d m xs = ok y ∧ y.Holds d s (op.sem ins) := by
  refine Dev.fw_run hx hs (FwOp.shape_wf hx.wf hs) hsz (fun y hy => ?_) m
  have hlen := FwOp.shape_len hs
  rw [List.length_map] at hlen
  cases op
  case concat dim => exact K.concat_holds (v := []) hx (check_bind_ok.mp hs).2 hy
  case batchConcat => exact K.batchConcat_holds (u := []) (v := []) hx (check_bind_ok.mp hs).2 hy
  case bi o =>
    obtain ⟨i, j, rfl⟩ := List.length_eq_two.mp (hlen 2 rfl)
    obtain ⟨x, z, rfl, h1, h2⟩ := forall₂_two hx
    exact K.bi_holds (p := p) (u := []) (v := []) _ h1 h2 hs hy
  case sc o =>
    obtain ⟨i, j, rfl⟩ := List.length_eq_two.mp (hlen 2 rfl)
    obtain ⟨x, z, rfl, h1, h2⟩ := forall₂_two hx
    exact K.sc_holds (p := p) (u := []) (v := []) _ h1 h2 hs hy
  case matmul =>
    obtain ⟨i, j, rfl⟩ := List.length_eq_two.mp (hlen 2 rfl)
    obtain ⟨x, z, rfl, h1, h2⟩ := forall₂_two hx
    exact K.matmul_holds (p := p) (u := []) (v := []) h1 h2 hs hy
  all_goals
    obtain ⟨i, rfl⟩ := List.length_eq_one_iff.mp (hlen 1 rfl)
    obtain ⟨x, rfl, h1⟩ := forall₂_one hx
  case un => cases hs; exact K.un_holds (p := p) (u := []) (v := []) _ h1 hy
  case cn => cases hs; exact K.cn_holds (p := p) (u := []) _ h1 hy
  case powi => cases hs; exact K.powi_holds (p := p) (v := []) hfit h1 hy
  case sum => exact K.sum_holds (p := p) (v := []) h1 hs hy
  case max => exact K.ext_holds (p := p) (v := []) (fun v t => Flt.gt v t) h1 hs hy
  case min => exact K.ext_holds (p := p) (v := []) (fun v t => Flt.gt t v) h1 hs hy
  case logsumexp => exact K.lse_holds (p := p) (v := []) h1 hs hy
  case broadcast => exact K.broadcast_holds (p := p) (v := []) h1 hs hy
  case transpose => exact K.transpose_holds (p := p) (u := []) (v := []) h1 hs hy
  case triangularL =>
    obtain ⟨hm, hs⟩ := check_bind_ok.mp hs
    cases hs
    exact K.triangular_holds (p := p) (v := []) (lower := true) h1 hm hfit hy
  case triangularU =>
    obtain ⟨hm, hs⟩ := check_bind_ok.mp hs
    cases hs
    exact K.triangular_holds (p := p) (v := []) (lower := false) h1 hm hfit hy
  case slice => exact K.slice_holds (p := p) (v := []) h1 hs hy
  case pick => exact K.pick_holds (p := p) (v := []) h1 hs hy
  case batchSum => exact K.batchSum_holds (p := p) (u := []) (v := []) h1 hs hy
  case batchSlice lo up => exact K.batchSlice_holds (p := p) (u := [up]) (v := []) h1 hs hy
  case batchPick => exact K.batchPick_holds (p := p) (v := []) h1 hs hy

end Verif
