import Verif.BwLemmas2

/-!
# The backward device functions compute their meaning
-/

set_option linter.unusedSectionVars false

namespace Verif
open Res Shape ShapeOps
variable {α : Type} [Flt α] {d : Nat} {p : Profile} {m : Mem α}

theorem find?_congr' {β : Type} {l : List β} {P Q : β → Bool} (h : ∀ j, j ∈ l → P j = Q j) : l.find? P = l.find? Q := by
  induction l with
  | nil => rfl
  | cons a l ih =>
    rw [List.find?_cons, List.find?_cons, h a (by simp), ih (fun j hj => h j (by simp [hj]))]

theorem firstIdx_congr {n : Nat} {P Q : Nat → Bool} (h : ∀ j, j < n → P j = Q j) : firstIdx n P = firstIdx n Q :=
  find?_congr' fun j hj => h j (List.mem_range.mp hj)

namespace K

theorem bwX_holds (op : α → α → α → α) {x y gy g : Tensor α} {s : Shape} {fx fy fgy fg : Arr α} {u f}
    (hx : x.Holds d s fx) (hy : y.Holds d s fy) (hgy : gy.Holds d s fgy) (hg : g.Holds d s fg) :
    ∃ g', K.bwX op p m [x] [y] [gy] u f g = ok g' ∧
      g'.Holds d s (fun c b => fg c b + op (fx c b) (fy c b) (fgy c b)) := by
  obtain ⟨g', e, h⟩ := bwX_ok (p := p) (m := m) (u := u) (f := f) (rx := []) (ry := []) (rg := []) op hx.flat hy.flat hgy.flat hg.flat
  refine ⟨g', e, h.holds fun c b hv => ?_⟩
  simp only [Arr.flat_offset hx.wf _ hv]

theorem bwConst_holds (op : α → α → α → α → α) {x y gy g : Tensor α} {s : Shape} {fx fy fgy fg : Arr α} {u} {k : α}
    (hx : x.Holds d s fx) (hy : y.Holds d s fy) (hgy : gy.Holds d s fgy) (hg : g.Holds d s fg) :
    ∃ g', K.bwConst op p m [x] [y] [gy] u [k] g = ok g' ∧
      g'.Holds d s (fun c b => fg c b + op (fx c b) (fy c b) (fgy c b) k) := by
  obtain ⟨g', e, h⟩ := bwConst_ok (p := p) (m := m) (u := u) (f := []) (rx := []) (ry := []) (rg := []) (c := k) op hx.flat hy.flat hgy.flat hg.flat
  refine ⟨g', e, h.holds fun c b hv => ?_⟩
  simp only [Arr.flat_offset hx.wf _ hv]

theorem powiBw_holds {x gy g : Tensor α} {s : Shape} {fx fgy fg : Arr α} {ys v} {k : Int}
    (hk : -2147483648 < k ∧ k ≤ 2147483647)
    (hx : x.Holds d s fx) (hgy : gy.Holds d s fgy) (hg : g.Holds d s fg) :
    ∃ g', K.powiBw p m [x] ys [gy] [asU32 k] v g = ok g' ∧
      g'.Holds d s (fun c b => fg c b + fgy c b * Flt.ofInt k * Flt.powi (fx c b) (k - 1)) := by
  have hi := asI32_asU32 (k := k) (by omega) hk.2
  obtain ⟨g', e, h⟩ := powiBw_ok (p := p) (m := m) (u := []) (f := v) (rx := []) (ys := ys) (rg := []) (n := asU32 k)
    (by rw [hi]; omega) hx.flat hgy.flat hg.flat
  refine ⟨g', e, h.holds fun c b hv => ?_⟩
  simp only [Arr.flat_offset hx.wf _ hv, hi]

/-- The gradient of operand `s` accumulated over the batches of the result. -/
theorem acc_holds {g' : Tensor α} {s sy : Shape} {F : Nat → α → α} {fg : Arr α} {G : (Nat → Nat) → Nat → α → α}
    (hy : sy.WF) (hd : ∀ i, s.get i = sy.get i) (hb : s.batch = 1 ∨ s.batch = sy.batch)
    (h : g'.Flat d s (fun k => accB (s.batch = 1) sy.batch sy.volume F k (Arr.flat s fg k)))
    (hF : ∀ c b', sy.Valid c b' → ∀ a, F (sy.offset c b') a = G c b' a) :
    g'.Holds d s (fun c b => overBatch s sy.batch b (fun b' acc => G c b' acc) (fg c b)) := by
  refine h.holds fun c b hv => ?_
  show accB _ _ _ _ _ _ = _
  rw [Arr.flat_offset h.wf fg hv, ← vol_of_dims h.wf hy hd, accB_overBatch h.wf hy hd hb hv]
  refine foldN_congr fun b' hb' a => ?_
  have : sy.Valid c b' := ⟨fun i => by rw [← hd]; exact hv.1 i, hb'⟩
  show (if bb s b' = b then F (sy.offset c b') a else a) = if bb s b' = b then G c b' a else a
  rw [hF c b' this]

theorem biA_holds (o : Bi) {k : BwK α} (hk : Naive.bwImpl (.biA o) = some k) {xa xb y gy g : Tensor α} {sa sb sy : Shape}
    {fa fb fgy fg : Arr α} {u v} (ha : xa.Holds d sa fa) (hb : xb.Holds d sb fb)
    (hgy : gy.Holds d sy fgy) (hg : g.Holds d sa fg) (hs : elementwise sa sb = ok sy) :
    ∃ g', k p m [xa, xb] [y] [gy] u v g = ok g' ∧ g'.Holds d sa (fun c b => overBatch sa sy.batch b
      (fun b' acc => o.stepA acc (fa c (bb sa b')) (fb c (bb sb b')) (fgy c b')) (fg c b)) := by
  obtain ⟨hab, hc, hw, hd, hbt⟩ := (elementwise_iff ha.wf hb.wf).mp hs
  obtain ⟨hba, hbb⟩ := compat_bb ha.wf hb.wf hc hbt
  have hda : ∀ i, sa.get i = sy.get i := fun i => (hd i).symm
  have hdb : ∀ i, sb.get i = sy.get i := fun i => by rw [← hab i, hda i]
  have hva := vol_of_dims ha.wf hw hda
  have hvb := vol_of_dims hb.wf hw hdb
  have ea : ∀ c b', sy.Valid c b' → Arr.flat sa fa (bidx sa (sy.offset c b')) = fa c (bb sa b') := fun c b' hv => by
    rw [bidx_offset ha.wf hw hda hv, Arr.flat_offset ha.wf _ (valid_bb ha.wf hda hba hv)]
  have eb : ∀ c b', sy.Valid c b' → Arr.flat sb fb (bidx sb (sy.offset c b')) = fb c (bb sb b') := fun c b' hv => by
    rw [bidx_offset hb.wf hw hdb hv, Arr.flat_offset hb.wf _ (valid_bb hb.wf hdb hbb hv)]
  have eg : ∀ c b', sy.Valid c b' → Arr.flat sy fgy (sy.offset c b') = fgy c b' := fun c b' hv => Arr.flat_offset hw _ hv
  cases o <;> cases hk
  case add =>
    obtain ⟨g', e, h⟩ := addSubBw_ok (p := p) (m := m) (xs := [xa, xb]) (ys := [y]) (rg := []) (u := u) (f := v)
      (fun acc g => acc + g) hgy.flat hg.flat hva hba
    exact ⟨g', e, acc_holds hw hda hba h (fun c b' hv a => by rw [eg c b' hv]; rfl)⟩
  case sub =>
    obtain ⟨g', e, h⟩ := addSubBw_ok (p := p) (m := m) (xs := [xa, xb]) (ys := [y]) (rg := []) (u := u) (f := v)
      (fun acc g => acc + g) hgy.flat hg.flat hva hba
    exact ⟨g', e, acc_holds hw hda hba h (fun c b' hv a => by rw [eg c b' hv]; rfl)⟩
  case mul =>
    obtain ⟨g', e, h⟩ := mulDivBw_ok (p := p) (m := m) (xs := [xa, xb]) (ys := [y]) (rg := []) (u := u) (f := v) 1
      (fun b g => b * g) rfl hb.flat hgy.flat hg.flat hva hba hvb hbb
    exact ⟨g', e, acc_holds hw hda hba h (fun c b' hv a => by rw [eg c b' hv, eb c b' hv]; rfl)⟩
  case div =>
    obtain ⟨g', e, h⟩ := mulDivBw_ok (p := p) (m := m) (xs := [xa, xb]) (ys := [y]) (rg := []) (u := u) (f := v) 1
      (fun b g => g / b) rfl hb.flat hgy.flat hg.flat hva hba hvb hbb
    exact ⟨g', e, acc_holds hw hda hba h (fun c b' hv a => by rw [eg c b' hv, eb c b' hv]; rfl)⟩
  case powf =>
    obtain ⟨g', e, h⟩ := powfBwA_ok (p := p) (m := m) (xs := []) (ys := [y]) (rg := []) (u := u) (f := v)
      ha.flat hb.flat hgy.flat hg.flat hva hba hvb hbb
    exact ⟨g', e, acc_holds hw hda hba h (fun c b' hv a => by rw [eg c b' hv, eb c b' hv, ea c b' hv]; rfl)⟩

theorem biB_holds (o : Bi) {k : BwK α} (hk : Naive.bwImpl (.biB o) = some k) {xa xb y gy g : Tensor α} {sa sb sy : Shape}
    {fa fb fy fgy fg : Arr α} {u v} (ha : xa.Holds d sa fa) (hb : xb.Holds d sb fb) (hy : y.Holds d sy fy)
    (hgy : gy.Holds d sy fgy) (hg : g.Holds d sb fg) (hs : elementwise sa sb = ok sy) :
    ∃ g', k p m [xa, xb] [y] [gy] u v g = ok g' ∧ g'.Holds d sb (fun c b => overBatch sb sy.batch b
      (fun b' acc => o.stepB acc (fa c (bb sa b')) (fb c (bb sb b')) (fy c b') (fgy c b')) (fg c b)) := by
  obtain ⟨hab, hc, hw, hd, hbt⟩ := (elementwise_iff ha.wf hb.wf).mp hs
  obtain ⟨hba, hbb⟩ := compat_bb ha.wf hb.wf hc hbt
  have hda : ∀ i, sa.get i = sy.get i := fun i => (hd i).symm
  have hdb : ∀ i, sb.get i = sy.get i := fun i => by rw [← hab i, hda i]
  have hva := vol_of_dims ha.wf hw hda
  have hvb := vol_of_dims hb.wf hw hdb
  have ea : ∀ c b', sy.Valid c b' → Arr.flat sa fa (bidx sa (sy.offset c b')) = fa c (bb sa b') := fun c b' hv => by
    rw [bidx_offset ha.wf hw hda hv, Arr.flat_offset ha.wf _ (valid_bb ha.wf hda hba hv)]
  have eb : ∀ c b', sy.Valid c b' → Arr.flat sb fb (bidx sb (sy.offset c b')) = fb c (bb sb b') := fun c b' hv => by
    rw [bidx_offset hb.wf hw hdb hv, Arr.flat_offset hb.wf _ (valid_bb hb.wf hdb hbb hv)]
  have eg : ∀ c b', sy.Valid c b' → Arr.flat sy fgy (sy.offset c b') = fgy c b' := fun c b' hv => Arr.flat_offset hw _ hv
  have ey : ∀ c b', sy.Valid c b' → Arr.flat sy fy (sy.offset c b') = fy c b' := fun c b' hv => Arr.flat_offset hw _ hv
  cases o <;> cases hk
  case add =>
    obtain ⟨g', e, h⟩ := addSubBw_ok (p := p) (m := m) (xs := [xa, xb]) (ys := [y]) (rg := []) (u := u) (f := v)
      (fun acc g => acc + g) hgy.flat hg.flat hvb hbb
    exact ⟨g', e, acc_holds hw hdb hbb h (fun c b' hv a => by rw [eg c b' hv]; rfl)⟩
  case sub =>
    obtain ⟨g', e, h⟩ := addSubBw_ok (p := p) (m := m) (xs := [xa, xb]) (ys := [y]) (rg := []) (u := u) (f := v)
      (fun acc g => acc - g) hgy.flat hg.flat hvb hbb
    exact ⟨g', e, acc_holds hw hdb hbb h (fun c b' hv a => by rw [eg c b' hv]; rfl)⟩
  case mul =>
    obtain ⟨g', e, h⟩ := mulDivBw_ok (p := p) (m := m) (xs := [xa, xb]) (ys := [y]) (rg := []) (u := u) (f := v) 0
      (fun a g => a * g) rfl ha.flat hgy.flat hg.flat hvb hbb hva hba
    exact ⟨g', e, acc_holds hw hdb hbb h (fun c b' hv a => by rw [eg c b' hv, ea c b' hv]; rfl)⟩
  case div =>
    obtain ⟨g', e, h⟩ := divBwB_ok (p := p) (m := m) (a := xa) (xs := []) (ry := []) (rg := []) (u := u) (f := v)
      hb.flat hy.flat hgy.flat hg.flat hvb hbb
    exact ⟨g', e, acc_holds hw hdb hbb h (fun c b' hv a => by rw [eg c b' hv, eb c b' hv, ey c b' hv]; rfl)⟩
  case powf =>
    obtain ⟨g', e, h⟩ := powfBwB_ok (p := p) (m := m) (b := xb) (xs := []) (ry := []) (rg := []) (u := u) (f := v)
      ha.flat hy.flat hgy.flat hg.flat hvb hbb hva hba
    exact ⟨g', e, acc_holds hw hdb hbb h (fun c b' hv a => by rw [eg c b' hv, ea c b' hv, ey c b' hv]; rfl)⟩

theorem extBw_holds {x y gy g : Tensor α} {sx s : Shape} {fx fy fgy fg : Arr α} {dim : Nat} {v}
    (hx : x.Holds d sx fx) (hy : y.Holds d s fy) (hgy : gy.Holds d s fgy) (hg : g.Holds d sx fg)
    (hs : sx.resizeDim .debug dim 1 = ok s) :
    ∃ g', K.extBw p m [x] [y] [gy] [dim] v g = ok g' ∧ g'.Holds d sx (fun c b =>
      if firstIdx (sx.get dim) (fun j => Flt.feq (fx (cset c dim j) b) (fy (cset c dim 0) b)) = some (c dim) then
        fg c b + fgy (cset c dim 0) b else fg c b) := by
  obtain ⟨h8, _, _, hw, hgd, hb⟩ := hx.wf.resizeDim_iff.mp hs
  have hd : ∀ i, i ≠ dim → sx.get i = s.get i := fun i hi => by rw [hgd, setC_ne hi]
  have h1 : s.get dim = 1 := by rw [hgd]; simp [setC]
  obtain ⟨g', e, h⟩ := extBw_ok (p := p) (m := m) (rx := []) (ry := []) (rg := []) (u := []) (f := v) (dim := dim)
    hx.flat hy.flat hgy.flat hg.flat hd h1 hb.symm
  refine ⟨g', e, h.holds fun c b hv => ?_⟩
  have hv0 : s.Valid (cset c dim 0) b := valid_cset (fun i hi => (hd i hi).symm) (by omega) hb hv
  have hlv := lowerVolume_congr hx.wf hw hd
  have hsrc : fibSrc (s.lowerVolume dim) (sx.get dim) (sx.offset c b) = s.offset (cset c dim 0) b := by
    rw [← hlv]; exact fibSrc_offset hw hx.wf (fun i hi => (hd i hi).symm) h1 hb hv
  have hcd : ∀ j, cset (cset c dim 0) dim j = cset c dim j := fun j => by
    funext i; unfold cset; by_cases hi : i = dim <;> simp [hi]
  have hpos : ∀ j, j < sx.get dim → fibPos (s.lowerVolume dim) (sx.get dim) (s.offset (cset c dim 0) b) j =
      sx.offset (cset c dim j) b := fun j hj => by
    rw [fibPos_offset hx.wf hw hd h1 hj hb.symm hv0, hcd]
  have hval : ∀ j, j < sx.get dim → sx.Valid (cset c dim j) b := fun j hj => valid_cset (fun _ _ => rfl) hj rfl hv
  have hidx : sx.offset c b / s.lowerVolume dim % sx.get dim = c dim := by
    have hc : cset c dim (c dim) = c := by funext i; unfold cset; by_cases hi : i = dim <;> simp [hi]
    have := hpos (c dim) (hv.1 dim)
    rw [hc] at this
    rw [← this, fibPos_idx (hw.lowerVolume_pos dim) (hv.1 dim)]
  have hfi : firstIdx (sx.get dim) (fun j => Flt.feq (Arr.flat sx fx (fibPos (s.lowerVolume dim) (sx.get dim)
      (s.offset (cset c dim 0) b) j)) (Arr.flat s fy (s.offset (cset c dim 0) b))) =
      firstIdx (sx.get dim) (fun j => Flt.feq (fx (cset c dim j) b) (fy (cset c dim 0) b)) := by
    refine firstIdx_congr fun j hj => ?_
    rw [hpos j hj, Arr.flat_offset hx.wf _ (hval j hj), Arr.flat_offset hw _ hv0]
  show (if firstIdx _ _ = some _ then _ else _) = _
  simp only [hsrc]
  rw [hfi]
  simp only [hidx, Arr.flat_offset hw _ hv0, Arr.flat_offset hx.wf _ hv]


theorem cset_self (c : Nat → Nat) (dim : Nat) : cset c dim (c dim) = c := by
  funext i; unfold cset; by_cases hi : i = dim <;> simp [hi]

theorem cset_cset (c : Nat → Nat) (dim i j : Nat) : cset (cset c dim i) dim j = cset c dim j := by
  funext k; unfold cset; by_cases hi : k = dim <;> simp [hi]

theorem cset_at (c : Nat → Nat) (dim j : Nat) : cset c dim j dim = j := by simp [cset]

theorem sliceBw_holds {gy g : Tensor α} {sx s : Shape} {fgy fg : Arr α} {dim off : Nat} {xs ys v}
    (hgy : gy.Holds d s fgy) (hg : g.Holds d sx fg) (hd : ∀ i, i ≠ dim → sx.get i = s.get i)
    (ho : off + s.get dim ≤ sx.get dim) (hb : sx.batch = s.batch) :
    ∃ g', K.sliceBw p m xs ys [gy] [dim, off] v g = ok g' ∧ g'.Holds d sx (fun c b =>
      if off ≤ c dim ∧ c dim < off + s.get dim then fg c b + fgy (cset c dim (c dim - off)) b else fg c b) := by
  obtain ⟨g', e, h⟩ := sliceBw_ok (p := p) (m := m) (xs := xs) (ys := ys) (rg := []) (u := []) (f := v)
    hgy.flat hg.flat hd ho hb
  refine ⟨g', e, h.holds fun c b hv => ?_⟩
  rw [Arr.flat_offset hg.wf _ hv]
  have hlv := lowerVolume_congr hg.wf hgy.wf hd
  have hlv0 := hgy.wf.lowerVolume_pos dim
  -- the positions the elements of `gy` are added to
  have hP : ∀ c' b', s.Valid c' b' → s.lowerVolume dim * off + s.lowerVolume dim * sx.get dim *
      (s.offset c' b' / (s.lowerVolume dim * s.get dim)) + s.offset c' b' % (s.lowerVolume dim * s.get dim) =
      sx.offset (cset c' dim (off + c' dim)) b' := by
    intro c' b' hv'
    have hlt := hgy.wf.lo_lt hv' dim
    have hcl := hv'.1 dim
    rw [offset_axis hg.wf hgy.wf hd (by omega) hb hv', hgy.wf.offset_split hv' dim]
    generalize s.lowerVolume dim = lv at *
    generalize s.lo dim c' = l at *
    generalize s.hi dim c' b' = q at *
    have hsp : l + lv * (c' dim + s.get dim * q) = (l + lv * c' dim) + lv * s.get dim * q := by ring
    obtain ⟨h1, h2⟩ := flat_div (l := l + lv * c' dim) (base := lv * s.get dim) (q := q) (flat_lt hlt hcl)
    rw [hsp, h1, h2]; ring
  by_cases hc : off ≤ c dim ∧ c dim < off + s.get dim
  · rw [if_pos hc]
    have hv' : s.Valid (cset c dim (c dim - off)) b := valid_cset (fun i hi => (hd i hi).symm) (by omega) hb.symm hv
    refine foldN_one (s.offset (cset c dim (c dim - off)) b) (hgy.wf.offset_lt hv') (fun i hi hne t => ?_) ?_
    · obtain ⟨hvi, ei⟩ := hgy.wf.offset_coord hi
      rw [if_neg]
      intro e
      apply hne
      rw [← ei] at e ⊢
      rw [hP _ _ hvi] at e
      have hvx : sx.Valid (cset (s.coord (i % s.volume)) dim (off + s.coord (i % s.volume) dim)) (i / s.volume) :=
        valid_cset hd (by have := hvi.1 dim; omega) hb hvi
      obtain ⟨e1, e2⟩ := hg.wf.offset_inj hvx hv e
      have : cset c dim (c dim - off) = s.coord (i % s.volume) := by
        funext j
        by_cases hj : j = dim
        · subst hj
          have := e2 j
          rw [cset_at] at this
          rw [cset_at]; omega
        · have := e2 j
          simp only [cset, hj, if_false] at this ⊢
          exact this.symm
      rw [e1, this]
    · rw [hP _ _ hv', cset_at, cset_cset, show off + (c dim - off) = c dim by omega, cset_self, if_pos rfl,
        Arr.flat_offset hgy.wf _ hv']
  · rw [if_neg hc]
    refine foldN_id fun i hi t => ?_
    obtain ⟨hvi, ei⟩ := hgy.wf.offset_coord hi
    rw [if_neg]
    intro e
    apply hc
    rw [← ei, hP _ _ hvi] at e
    have hvx : sx.Valid (cset (s.coord (i % s.volume)) dim (off + s.coord (i % s.volume) dim)) (i / s.volume) :=
      valid_cset hd (by have := hvi.1 dim; omega) hb hvi
    have := (hg.wf.offset_inj hvx hv e).2 dim
    have hlt := hvi.1 dim
    rw [cset_at] at this
    omega

theorem pickBw_holds {gy g : Tensor α} {sx s : Shape} {fgy fg : Arr α} {ids : List Nat} {dim : Nat} {xs ys v}
    (hgy : gy.Holds d s fgy) (hg : g.Holds d sx fg) (hs : pick .debug sx ids dim = ok s) :
    ∃ g', K.pickBw p m xs ys [gy] (dim :: ids) v g = ok g' ∧ g'.Holds d sx (fun c b =>
      overBatch sx s.batch b (fun b' acc =>
        if c dim = ids.getD (if ids.length = 1 then 0 else b') 0 then acc + fgy (cset c dim 0) b' else acc) (fg c b)) := by
  obtain ⟨h8, hne, hbc, hlt, hw, hgd, hbt⟩ := (pick_iff hg.wf).mp hs
  have hd : ∀ i, i ≠ dim → sx.get i = s.get i := fun i hi => by rw [hgd, setC_ne hi]
  have h1 : s.get dim = 1 := by rw [hgd]; simp [setC]
  have hlen : 1 ≤ ids.length := by
    rcases Nat.eq_zero_or_pos ids.length with h | h
    · exact absurd (List.length_eq_zero_iff.mp h) hne
    · exact h
  have hbp := hg.wf.batch_pos
  have hb : sx.batch = 1 ∨ sx.batch = s.batch := by omega
  have hix : ∀ b', b' < s.batch → (if ids.length = 1 then 0 else b') < ids.length := by
    intro b' hb'; by_cases h : ids.length = 1
    · rw [if_pos h]; omega
    · rw [if_neg h]; omega
  have hids : ∀ b', b' < s.batch → ids[b' * (if 1 < ids.length then 1 else 0)]? =
      some (ids.getD (if ids.length = 1 then 0 else b') 0) := by
    intro b' hb'
    rw [getD_lt (hix b' hb')]
    by_cases h : ids.length = 1
    · simp [h]
    · have h2 : 1 < ids.length := by omega
      have h3 := hix b' hb'
      simp only [if_neg h] at h3
      simp [h, h2, h3]
  obtain ⟨g', e, h⟩ := pickBw_ok (p := p) (m := m) (xs := xs) (ys := ys) (rg := []) (f := v)
    (id := fun b' => ids.getD (if ids.length = 1 then 0 else b') 0)
    hgy.flat hg.flat hd h1 hb hids (fun b' hb' => by rw [getD_lt (hix b' hb')]; exact hlt _ (List.getElem_mem _))
  refine ⟨g', e, h.holds fun c b hv => ?_⟩
  rw [Arr.flat_offset hg.wf _ hv]
  have hlv0 := hw.lowerVolume_pos dim
  have hvy : s.volume = s.up dim * s.lowerVolume dim := by
    rw [hw.volume_split dim, h1, Nat.mul_one, Nat.mul_comm]
  refine foldN_congr fun b' hb' a => ?_
  have hidl : ids.getD (if ids.length = 1 then 0 else b') 0 < sx.get dim := by
    rw [getD_lt (hix b' hb')]; exact hlt _ (List.getElem_mem _)
  beta_reduce
  generalize ids.getD (if ids.length = 1 then 0 else b') 0 = id at *
  have hbbl : bb sx b' < sx.batch := by
    unfold bb
    by_cases h : sx.batch = 1
    · rw [if_pos h]; omega
    · rw [if_neg h]; omega
  have hP : ∀ c', s.Valid c' b' → (if sx.batch = 1 then 0 else b') * sx.volume + s.lowerVolume dim * id +
      (s.lowerVolume dim * sx.get dim * (offN s.get c' 8 / s.lowerVolume dim) + offN s.get c' 8 % s.lowerVolume dim) =
      sx.offset (cset c' dim id) (bb sx b') := by
    intro c' hv'
    have hv0 : s.Valid c' 0 := ⟨hv'.1, by omega⟩
    have e0 : sx.offset (cset c' dim id) (bb sx b') = offN sx.get (cset c' dim id) 8 + bb sx b' * sx.volume :=
      hg.wf.offset_eq _ _
    have hw2 : ({ sx with batch := s.batch } : Shape).WF := hg.wf.withBatch (by omega)
    have e1 := offset_axis (sx := { sx with batch := s.batch }) hw2 hw hd hidl rfl hv0
    have e2 := hw.offset_split hv0 dim
    rw [hw2.offset_eq, Nat.zero_mul, Nat.add_zero] at e1
    rw [hw.offset_eq, Nat.zero_mul, Nat.add_zero, h1] at e2
    have hc0 : c' dim = 0 := by have := hv'.1 dim; omega
    have hl := hw.lo_lt hv0 dim
    rw [hc0, Nat.zero_add, Nat.one_mul] at e2
    obtain ⟨f1, f2⟩ := flat_div (q := s.hi dim c' 0) hl
    rw [e0, e2, f1, f2]
    have : offN sx.get (cset c' dim id) 8 = s.lo dim c' + s.lowerVolume dim * (id + sx.get dim * s.hi dim c' 0) := e1
    rw [this]; unfold bb; ring
  have hfold : foldN (s.up dim) (fun i => foldN (s.lowerVolume dim) fun j a =>
      if sx.offset c b = (if sx.batch = 1 then 0 else b') * sx.volume + s.lowerVolume dim * id +
        (s.lowerVolume dim * sx.get dim * i + j) then
        a + Arr.flat s fgy (b' * s.volume + (i * s.lowerVolume dim + j)) else a) a =
      foldN s.volume (fun q a => if sx.offset c b = (if sx.batch = 1 then 0 else b') * sx.volume + s.lowerVolume dim * id +
        (s.lowerVolume dim * sx.get dim * (q / s.lowerVolume dim) + q % s.lowerVolume dim) then
        a + Arr.flat s fgy (b' * s.volume + q) else a) a := by
    rw [show foldN s.volume = foldN (s.up dim * s.lowerVolume dim) by rw [← hvy], foldN_mul]
    refine foldN_congr fun i hi a => foldN_congr fun j hj a => ?_
    obtain ⟨f1, f2⟩ := flat_div (q := i) hj
    rw [show i * s.lowerVolume dim + j = j + s.lowerVolume dim * i by ring, f1, f2]
  rw [hfold]
  have hco : ∀ q, q < s.volume → ∃ c', s.Valid c' b' ∧ offN s.get c' 8 = q := by
    intro q hq
    have hlt : b' * s.volume + q < s.size := nm_lt hb' hq
    obtain ⟨hvi, ei⟩ := hw.offset_coord hlt
    have hdv : (b' * s.volume + q) / s.volume = b' := by
      rw [Nat.add_comm, Nat.add_mul_div_right _ _ hw.volume_pos, Nat.div_eq_of_lt hq, Nat.zero_add]
    rw [hdv] at hvi ei
    rw [hw.offset_eq] at ei
    exact ⟨_, hvi, by omega⟩
  have hvx : ∀ c', s.Valid c' b' → sx.Valid (cset c' dim id) (bb sx b') := fun c' hv' =>
    ⟨(valid_cset (sx := { sx with batch := s.batch }) hd hidl rfl hv').1, hbbl⟩
  have hv0 : s.Valid (cset c dim 0) b' := by
    refine ⟨fun i => ?_, hb'⟩
    by_cases hi : i = dim
    · rw [hi, cset_at]; omega
    · simp only [cset, hi, if_false]; rw [← hd i hi]; exact hv.1 i
  by_cases hc : bb sx b' = b ∧ c dim = id
  · obtain ⟨hc1, hc2⟩ := hc
    rw [if_pos hc1]
    show _ = if c dim = id then a + fgy (cset c dim 0) b' else a
    rw [if_pos hc2]
    have hqlt : offN s.get (cset c dim 0) 8 < s.volume := by rw [hw.vol]; exact offN_lt (fun i _ => hv0.1 i)
    refine foldN_one (offN s.get (cset c dim 0) 8) hqlt (fun q hq hneq t => ?_) ?_
    · obtain ⟨c', hv', rfl⟩ := hco q hq
      rw [if_neg]
      intro e
      apply hneq
      rw [hP c' hv'] at e
      obtain ⟨_, e2⟩ := hg.wf.offset_inj hv (hvx c' hv') e
      refine offN_congr (fun _ _ => rfl) (fun i _ => ?_)
      by_cases hi : i = dim
      · have := hv'.1 dim
        rw [hi, cset_at]; omega
      · have := e2 i
        simp only [cset, hi, if_false] at this ⊢
        exact this.symm
    · rw [hP _ hv0, cset_cset, ← hc2, cset_self, hc1, if_pos rfl, ← Arr.flat_offset hw fgy hv0, hw.offset_eq, Nat.add_comm]
  · have : (if bb sx b' = b then (if c dim = id then a + fgy (cset c dim 0) b' else a) else a) = a := by
      by_cases h1 : bb sx b' = b
      · rw [if_pos h1, if_neg (fun h2 => hc ⟨h1, h2⟩)]
      · rw [if_neg h1]
    show _ = (if bb sx b' = b then (if c dim = id then a + fgy (cset c dim 0) b' else a) else a)
    rw [this]
    refine foldN_id fun q hq t => ?_
    obtain ⟨c', hv', rfl⟩ := hco q hq
    rw [if_neg]
    intro e
    rw [hP c' hv'] at e
    obtain ⟨e1, e2⟩ := hg.wf.offset_inj hv (hvx c' hv') e
    exact hc ⟨e1.symm, by rw [e2 dim, cset_at]⟩


/-- `+=` of tensors with equal dims and compatible batches. -/
theorem opAssign_holds (op : α → α → α) {x g : Tensor α} {sx sg : Shape} {fx fg : Arr α} {u v}
    (hx : x.Holds d sx fx) (hg : g.Holds d sg fg) (hd : ∀ i, sx.get i = sg.get i)
    (hb : sx.batch = 1 ∨ sg.batch = 1 ∨ sx.batch = sg.batch) :
    ∃ g', K.opAssign op p [x] u v g = ok g' ∧ g'.Holds d sg (fun c b =>
      overBatch sg (max sx.batch sg.batch) b (fun b' acc => op acc (fx c (bb sx b'))) (fg c b)) := by
  have hv := vol_of_dims hx.wf hg.wf hd
  obtain ⟨g', e, h⟩ := opAssign_ok (p := p) (rest := []) (u := u) (f := v) op hx.flat hg.flat hv hb
  refine ⟨g', e, ?_⟩
  have hbx := hx.wf.batch_pos
  have hbg := hg.wf.batch_pos
  -- the common shape
  have hw : ({ sg with batch := max sx.batch sg.batch } : Shape).WF := hg.wf.withBatch (by omega)
  have hd' : ∀ i, sx.get i = ({ sg with batch := max sx.batch sg.batch } : Shape).get i := hd
  refine acc_holds (sy := { sg with batch := max sx.batch sg.batch }) hw (fun _ => rfl) ?_ h (fun c b' hv' a => ?_)
  · show sg.batch = 1 ∨ sg.batch = max sx.batch sg.batch
    omega
  · have hbb : sx.batch = 1 ∨ sx.batch = max sx.batch sg.batch := by omega
    have := bidx_offset (sa := sx) hx.wf hw hd' hv'
    rw [this, Arr.flat_offset hx.wf _ (valid_bb hx.wf hd' hbb hv')]

theorem addAssign_holds {x g : Tensor α} {sx sg : Shape} {fx fg : Arr α}
    (hx : x.Holds d sx fx) (hg : g.Holds d sg fg) (hd : ∀ i, sx.get i = sg.get i)
    (hb : sg.batch = 1 ∨ sg.batch = sx.batch) :
    ∃ g', g.addAssign p x = ok g' ∧ g'.Holds d sg (fun c b =>
      overBatch sg sx.batch b (fun b' acc => acc + fx c b') (fg c b)) := by
  obtain ⟨g', e, h⟩ := opAssign_holds (p := p) (u := []) (v := []) (fun w x => w + x) hx hg hd (by omega)
  refine ⟨g', ?_, ?_⟩
  · rw [← e]
    simp [Tensor.addAssign, Tensor.dev, hg.device, Dev.addAssign, Tensor.onDev, hx.device, Dev.callFw, Naive.fwImpl, unwrap, check]
  · have hm : max sx.batch sg.batch = sx.batch := by
      have := hx.wf.batch_pos; omega
    rw [hm] at h
    refine h.congr fun c b hv => foldN_congr fun b' hb' a => ?_
    have : bb sx b' = b' := by
      unfold bb
      by_cases h1 : sx.batch = 1
      · rw [if_pos h1]; omega
      · rw [if_neg h1]
    simp only [this]

/-- Accumulation when each batch is read once. -/
theorem overBatch_same {s : Shape} {n b : Nat} {F : Nat → α → α} {a : α} (hn : n = s.batch) (hb : b < s.batch) :
    overBatch s n b F a = F b a := by
  unfold overBatch
  refine foldN_one b (by omega) (fun i hi hne t => ?_) ?_
  · rw [if_neg]
    unfold bb
    by_cases h : s.batch = 1
    · omega
    · rw [if_neg h]; exact hne
  · rw [if_pos]
    unfold bb
    by_cases h : s.batch = 1
    · rw [if_pos h]; omega
    · rw [if_neg h]


theorem Holds_dev {t : Tensor α} {s : Shape} {f : Arr α} (h : t.Holds d s f) : t.dev = ok d := by
  simp [Tensor.dev, unwrap, h.device]

theorem matDims_mat {s : Shape} {i j : Nat} (hm : ∀ i, 2 ≤ i → s.get i = 1) (h0 : s.get 0 = i) (h1 : s.get 1 = j) :
    ∀ k, s.get k = matDims i j k := by
  intro k
  unfold matDims
  by_cases a : k = 0
  · rw [if_pos a, a, h0]
  · by_cases b : k = 1
    · rw [if_neg a, if_pos b, b, h1]
    · rw [if_neg a, if_neg b]; exact hm k (by omega)

theorem mat_eq {s : Shape} (hm : ∀ i, 2 ≤ i → s.get i = 1) {c : Nat → Nat} {b : Nat} (hv : s.Valid c b) :
    c = mat (c 0) (c 1) := by
  funext k
  unfold mat
  by_cases a : k = 0
  · rw [if_pos a, a]
  · by_cases b : k = 1
    · rw [if_neg a, if_pos b, b]
    · rw [if_neg a, if_neg b]
      have := hv.1 k
      rw [hm k (by omega)] at this; omega

theorem sumBlk_congr {n : Nat} {t t' : Nat → α} (h : ∀ j, j < n → t j = t' j) : sumBlk n t = sumBlk n t' := by
  rw [sumBlk_eq, sumBlk_eq]; exact blockSum_congr h

theorem size_of_dims {s t : Shape} (hs : s.WF) (ht : t.WF) (h : ∀ i, s.get i = t.get i) :
    s.size = s.batch * t.volume := by unfold Shape.size; rw [vol_of_dims hs ht h]

theorem new_transpose {x : Shape} (hx : x.WF) (hm : ∀ i, 2 ≤ i → x.get i = 1) :
    ∃ st : Shape, st.Is (matDims (x.get 1) (x.get 0)) x.batch := by
  have h0 := hx.get_pos 0
  have h1 := hx.get_pos 1
  have hv := hx.vol_lt
  rw [hx.matrix_volume hm] at hv
  have hno : NewOk [x.get 1, x.get 0] x.batch := by
    refine ⟨by simp, hx.batch_pos, fun i hi => ?_, by simpa [volN, raw, Nat.mul_comm] using hv⟩
    match i with
    | 0 => show x.get 1 ≠ 0; omega
    | 1 => show x.get 0 ≠ 0; omega
    | i + 2 => simp at hi
  obtain ⟨st, hst⟩ := new_ok_iff.mpr hno
  exact ⟨st, (new2_iff.mp hst).2.2.2.2⟩

theorem matmulBwA_holds {xa xb gy g : Tensor α} {sa sb sy : Shape} {fb fgy fg : Arr α} {ys u v}
    (hb : xb.Holds d sb fb) (hgy : gy.Holds d sy fgy) (hg : g.Holds d sa fg)
    (hs : matmul .debug sa sb = ok sy) (hfit : sy.batch * sa.volume ≤ 2 ^ 31) :
    ∃ g', K.matmulBwA p m [xa, xb] ys [gy] u v g = ok g' ∧ g'.Holds d sa (fun c b =>
      overBatch sa sy.batch b (fun b' acc => acc + sumBlk (sy.get 1) (fun j =>
        fgy (mat (c 0) j) b' * fb (mat (c 1) j) (bb sb b'))) (fg c b)) := by
  obtain ⟨ma, mb, hab, hc, hlt, hw, hgd, hbt⟩ := (matmul_iff hg.wf hb.wf).mp hs
  obtain ⟨hba, hbb⟩ := compat_bb hg.wf hb.wf hc hbt
  have my : ∀ i, 2 ≤ i → sy.get i = 1 := fun i hi => by
    rw [hgd]; unfold matDims; rw [if_neg (by omega), if_neg (by omega)]
  have y0 : sy.get 0 = sa.get 0 := by rw [hgd]; rfl
  have y1 : sy.get 1 = sb.get 1 := by rw [hgd]; rfl
  -- the transpose of b
  obtain ⟨st, hst, hstI⟩ : ∃ st, transpose .debug sb = ok st ∧ st.Is (matDims (sb.get 1) (sb.get 0)) sb.batch := by
    obtain ⟨st, h⟩ := new_transpose hb.wf mb
    exact ⟨st, (transpose_iff hb.wf).mpr ⟨mb, h⟩, h⟩
  have hszt : st.size ≤ 2 ^ 31 := by
    have hvt : st.volume = sb.volume := by
      rw [hstI.1.matrix_volume (fun i hi => by rw [hstI.2.1]; unfold matDims; rw [if_neg (by omega), if_neg (by omega)]),
        hb.wf.matrix_volume mb, hstI.2.1, hstI.2.1]
      simp [matDims, Nat.mul_comm]
    have := hb.small
    unfold Shape.size at this ⊢
    rw [hvt, hstI.2.2]; exact this
  obtain ⟨bt, e1, hbt'⟩ := Dev.fw_ok (op := .transpose) (ins := [(sb, fb)]) (.cons hb .nil) hst hszt trivial p (m 0)
  -- the product
  obtain ⟨s2, hs2, hs2I⟩ : ∃ s2, matmul .debug sy st = ok s2 ∧ s2.Is sa.get sy.batch := by
    refine ⟨{ sa with batch := sy.batch }, (matmul_iff hgy.wf hbt'.wf).mpr ⟨my, fun i hi => ?_, ?_, ?_, ?_, ?_⟩, ?_⟩
    · rw [hstI.2.1]; unfold matDims; rw [if_neg (by omega), if_neg (by omega)]
    · rw [hstI.2.1, y1]; rfl
    · unfold BatchCompat; rw [hstI.2.2]; omega
    · have := hg.wf.vol_lt
      rw [hg.wf.matrix_volume ma, hab] at this
      rw [y0, hstI.2.1]; exact this
    · refine ⟨hg.wf.withBatch hw.batch_pos, fun i => ?_, ?_⟩
      · rw [hstI.2.1, y0]
        exact matDims_mat (s := sa) ma rfl (by rw [hab]; rfl) i
      · show sy.batch = _
        rw [hstI.2.2]
        have := hw.batch_pos
        have := hb.wf.batch_pos
        omega
    · exact ⟨hg.wf.withBatch hw.batch_pos, fun _ => rfl, rfl⟩
  obtain ⟨t, e2, ht⟩ := Dev.fw_ok (op := .matmul) (ins := [(sy, fgy), (st, _)]) (.cons hgy (.cons hbt' .nil)) hs2
    (by rw [size_of_dims hs2I.1 hg.wf hs2I.2.1, hs2I.2.2]; exact hfit) trivial p (m 1)
  obtain ⟨g', e3, hg'⟩ := addAssign_holds (p := p) ht hg hs2I.2.1 (by rw [hs2I.2.2]; exact hba)
  refine ⟨g', ?_, hg'.congr fun c b hv => ?_⟩
  · simp only [K.matmulBwA, ix_cons_zero, ix_cons_one, ok_bind, Holds_dev hgy, Holds_dev hb, e1, e2, e3]
  · rw [hs2I.2.2]
    refine foldN_congr fun b' hb' a => ?_
    have e5 : bb sy b' = b' := by
      unfold bb
      by_cases h1 : sy.batch = 1
      · rw [if_pos h1]; omega
      · rw [if_neg h1]
    have e6 : bb st b' = bb sb b' := by unfold bb; rw [hstI.2.2]
    simp only [FwOp.sem, e5, e6]
    rfl

theorem matmulBwB_holds {xa xb gy g : Tensor α} {sa sb sy : Shape} {fa fgy fg : Arr α} {ys u v}
    (ha : xa.Holds d sa fa) (hgy : gy.Holds d sy fgy) (hg : g.Holds d sb fg)
    (hs : matmul .debug sa sb = ok sy) (hfit : sy.batch * sb.volume ≤ 2 ^ 31) :
    ∃ g', K.matmulBwB p m [xa, xb] ys [gy] u v g = ok g' ∧ g'.Holds d sb (fun c b =>
      overBatch sb sy.batch b (fun b' acc => acc + sumBlk (sa.get 0) (fun i =>
        fa (mat i (c 0)) (bb sa b') * fgy (mat i (c 1)) b')) (fg c b)) := by
  obtain ⟨ma, mb, hab, hc, hlt, hw, hgd, hbt⟩ := (matmul_iff ha.wf hg.wf).mp hs
  obtain ⟨hba, hbb⟩ := compat_bb ha.wf hg.wf hc hbt
  have my : ∀ i, 2 ≤ i → sy.get i = 1 := fun i hi => by
    rw [hgd]; unfold matDims; rw [if_neg (by omega), if_neg (by omega)]
  have y0 : sy.get 0 = sa.get 0 := by rw [hgd]; rfl
  have y1 : sy.get 1 = sb.get 1 := by rw [hgd]; rfl
  obtain ⟨st, hst, hstI⟩ : ∃ st, transpose .debug sa = ok st ∧ st.Is (matDims (sa.get 1) (sa.get 0)) sa.batch := by
    obtain ⟨st, h⟩ := new_transpose ha.wf ma
    exact ⟨st, (transpose_iff ha.wf).mpr ⟨ma, h⟩, h⟩
  have mt : ∀ i, 2 ≤ i → st.get i = 1 := fun i hi => by
    rw [hstI.2.1]; unfold matDims; rw [if_neg (by omega), if_neg (by omega)]
  have hszt : st.size ≤ 2 ^ 31 := by
    have hvt : st.volume = sa.volume := by
      rw [hstI.1.matrix_volume mt, ha.wf.matrix_volume ma, hstI.2.1, hstI.2.1]
      simp [matDims, Nat.mul_comm]
    have := ha.small
    unfold Shape.size at this ⊢
    rw [hvt, hstI.2.2]; exact this
  obtain ⟨at', e1, hat⟩ := Dev.fw_ok (op := .transpose) (ins := [(sa, fa)]) (.cons ha .nil) hst hszt trivial p (m 0)
  obtain ⟨s2, hs2, hs2I⟩ : ∃ s2, matmul .debug st sy = ok s2 ∧ s2.Is sb.get sy.batch := by
    refine ⟨{ sb with batch := sy.batch }, (matmul_iff hat.wf hgy.wf).mpr ⟨mt, my, ?_, ?_, ?_, ?_⟩, ?_⟩
    · rw [hstI.2.1, y0]; rfl
    · unfold BatchCompat; rw [hstI.2.2]; omega
    · have := hg.wf.vol_lt
      rw [hg.wf.matrix_volume mb, ← hab] at this
      rw [y1, hstI.2.1]; exact this
    · refine ⟨hg.wf.withBatch hw.batch_pos, fun i => ?_, ?_⟩
      · rw [hstI.2.1, y1]
        exact matDims_mat (s := sb) mb (by rw [← hab]; rfl) rfl i
      · show sy.batch = _
        rw [hstI.2.2]
        have := hw.batch_pos
        have := ha.wf.batch_pos
        omega
    · exact ⟨hg.wf.withBatch hw.batch_pos, fun _ => rfl, rfl⟩
  obtain ⟨t, e2, ht⟩ := Dev.fw_ok (op := .matmul) (ins := [(st, _), (sy, fgy)]) (.cons hat (.cons hgy .nil)) hs2
    (by rw [size_of_dims hs2I.1 hg.wf hs2I.2.1, hs2I.2.2]; exact hfit) trivial p (m 1)
  obtain ⟨g', e3, hg'⟩ := addAssign_holds (p := p) ht hg hs2I.2.1 (by rw [hs2I.2.2]; exact hbb)
  refine ⟨g', ?_, hg'.congr fun c b hv => ?_⟩
  · simp only [K.matmulBwB, ix_cons_zero, ok_bind, Holds_dev ha, e1, e2, e3]
  · rw [hs2I.2.2]
    refine foldN_congr fun b' hb' a => ?_
    have e5 : bb sy b' = b' := by
      unfold bb
      by_cases h1 : sy.batch = 1
      · rw [if_pos h1]; omega
      · rw [if_neg h1]
    have e6 : bb st b' = bb sa b' := by unfold bb; rw [hstI.2.2]
    have e7 : st.get 1 = sa.get 0 := by rw [hstI.2.1]; rfl
    simp only [FwOp.sem, e5, e6, e7]
    rfl

theorem transposeBw_holds {gy g : Tensor α} {sx sy : Shape} {fgy fg : Arr α} {xs ys u v}
    (hgy : gy.Holds d sy fgy) (hg : g.Holds d sx fg) (hs : transpose .debug sx = ok sy) :
    ∃ g', K.transposeBw p m xs ys [gy] u v g = ok g' ∧ g'.Holds d sx (fun c b => fg c b + fgy (mat (c 1) (c 0)) b) := by
  obtain ⟨mx, hw, hgd, hbt⟩ := (transpose_iff hg.wf).mp hs
  have my : ∀ i, 2 ≤ i → sy.get i = 1 := fun i hi => by
    rw [hgd]; unfold matDims; rw [if_neg (by omega), if_neg (by omega)]
  have hst : transpose .debug sy = ok sx := (transpose_iff hgy.wf).mpr ⟨my, hg.wf, fun i => by
    rw [hgd, hgd]; exact matDims_mat (s := sx) mx rfl rfl i, hbt.symm⟩
  obtain ⟨t, e1, ht⟩ := Dev.fw_ok (op := .transpose) (ins := [(sy, fgy)]) (.cons hgy .nil) hst hg.small trivial p (m 0)
  obtain ⟨g', e3, hg'⟩ := addAssign_holds (p := p) ht hg (fun _ => rfl) (Or.inr rfl)
  refine ⟨g', ?_, hg'.congr fun c b hv => ?_⟩
  · simp only [K.transposeBw, ix_cons_zero, ok_bind, Holds_dev hgy, e1, e3]
  · rw [overBatch_same rfl hv.2]; rfl

theorem triangularBw_holds {lower : Bool} {gy g : Tensor α} {s : Shape} {k : Nat} {fgy fg : Arr α} {xs ys v}
    (hgy : gy.Holds d s fgy) (hg : g.Holds d s fg) (hm : s.isMatrix = true ∧ s.get 0 = s.get 1) (hk : s.get 0 + k ≤ U32) :
    ∃ g', K.triangularBw lower p m xs ys [gy] [k] v g = ok g' ∧ g'.Holds d s (fun c b =>
      fg c b + (if (if lower then c 1 + k ≤ c 0 else c 0 + k ≤ c 1) then fgy c b else 0)) := by
  have hst : ∀ l : Bool, (if l then FwOp.triangularL k else FwOp.triangularU k : FwOp α).shape .debug [s] = ok s := by
    intro l; cases l <;> exact check_bind_ok.mpr ⟨hm, rfl⟩
  obtain ⟨t, e1, ht⟩ := Dev.fw_ok (op := if lower then .triangularL k else .triangularU k) (ins := [(s, fgy)]) (.cons hgy .nil)
    (hst lower) hg.small (by cases lower <;> exact hk) p (m 0)
  obtain ⟨g', e3, hg'⟩ := addAssign_holds (p := p) ht hg (fun _ => rfl) (Or.inr rfl)
  refine ⟨g', ?_, hg'.congr fun c b hv => ?_⟩
  · simp only [K.triangularBw, ix_cons_zero, ok_bind, Holds_dev hgy, e1, e3]
  · rw [overBatch_same rfl hv.2]; cases lower <;> rfl

end K

theorem BwOp.check_any {op : BwOp α} {xs ys : List Shape} {gy gx : Shape} (h : op.check .debug xs ys gy gx = ok ())
    (p : Profile) : op.check p xs ys gy gx = ok () := by
  cases p with
  | debug => exact h
  | release =>
    have R : Refines (op.check .debug xs ys gy gx) (op.check .release xs ys gy gx) := by
      have h1 := @refines_new
      have h2 := @refines_resizeDim
      unfold BwOp.check
      split <;> first
        | exact .rfl
        | exact .bind .rfl fun _ => .bind .rfl fun _ => .bind (h2 _ _ _) fun _ => .rfl
        | exact .bind .rfl fun _ => .bind .rfl fun _ => .bind (.bind .rfl fun _ => h1 _ _) fun _ => .rfl
        | exact .bind (.u32 _) fun _ => .bind (.bind .rfl fun _ => .bind .rfl fun _ => h2 _ _ _) fun _ => .rfl
        | exact .bind (.u32 _) fun _ => .rfl
        | exact .bind (.bind .rfl fun _ => .bind .rfl fun _ => .bind (h2 _ _ _) fun _ => .rfl) fun _ => .rfl
    exact R _ h

/-- How many operands and results a backward function takes. -/
def BwOp.arity : BwOp α → Nat × Nat
  | .biA _ => (2, 1)
  | .biB _ => (2, 1)
  | .matmulA => (2, 1)
  | .matmulB => (2, 1)
  | .slice .. => (0, 0)
  | .pick .. => (0, 0)
  | .batchSlice _ => (0, 0)
  | .batchPick _ => (0, 0)
  | _ => (1, 1)

theorem BwOp.check_len {op : BwOp α} {xs ys : List Shape} {gy gx : Shape} (h : op.check p xs ys gy gx = ok ()) :
    xs.length = op.arity.1 ∧ ys.length = op.arity.2 := by
  unfold BwOp.check at h
  split at h
  all_goals first
    | exact ⟨rfl, rfl⟩
    | (cases h; done)

/-- Every backward device function with a kernel of its own, on arguments it accepts, leaves in `gx` its meaning. -/
theorem Dev.bw_ok {op : BwOp α} {xs ys : List (Tensor α)} {xi yi : List (Shape × Arr α)} {gy gx : Tensor α} {sy sg : Shape}
    {fgy fgx : Arr α} (hx : HoldAll d xs xi) (hy : HoldAll d ys yi) (hgy : gy.Holds d sy fgy) (hgx : gx.Holds d sg fgx)
    (hc : op.check .debug (xi.map Prod.fst) (yi.map Prod.fst) sy sg = ok ()) (hfit : op.Fits (xi.map Prod.fst) sy)
    (p : Profile) (m : Mem α) :
    ∃ g', Dev.bw op p d m xs ys gy gx = ok g' ∧ g'.Holds d sg (op.sem xi yi (sy, fgy) (sg, fgx)) := by
  have hrun : Dev.bw op p d m xs ys gy gx = Dev.callBw p m op.name xs ys [gy] op.u32data op.f32data gx := by
    unfold Dev.bw
    rw [hx.onAll, ok_bind, hy.onAll, ok_bind, hx.shapes, hy.shapes, hgy.shape, hgx.shape, BwOp.check_any hc p]
    simp [Tensor.onDev, Tensor.dev, unwrap, hgy.device, hgx.device, Verif.check]
  rw [hrun]
  have hlen := BwOp.check_len hc
  rw [List.length_map, List.length_map] at hlen
  cases op
  case batchSlice => exact absurd hfit id
  case batchPick => exact absurd hfit id
  case slice dim lower =>
    obtain ⟨h0, h0'⟩ := hlen
    obtain rfl := List.length_eq_zero_iff.mp h0
    obtain rfl := List.length_eq_zero_iff.mp h0'
    obtain ⟨up, hu, hc⟩ := Res.bind_eq_ok.mp hc
    obtain ⟨_, rfl⟩ := Shape.u32_debug_ok.mp hu
    obtain ⟨s, hs, hc⟩ := Res.bind_eq_ok.mp hc
    obtain rfl := check_eq_ok.mp hc
    obtain ⟨h8, hlu, hle, hw, hgd, hbt⟩ := (slice_iff hgx.wf).mp hs
    exact K.sliceBw_holds (p := p) (m := m) (xs := xs) (ys := ys) (v := []) hgy hgx (fun i hi => by rw [hgd, setC_ne hi]) hle hbt.symm
  case pick ids dim =>
    obtain ⟨h0, h0'⟩ := hlen
    obtain rfl := List.length_eq_zero_iff.mp h0
    obtain rfl := List.length_eq_zero_iff.mp h0'
    obtain ⟨s, hs, hc⟩ := Res.bind_eq_ok.mp hc
    obtain rfl := check_eq_ok.mp hc
    exact K.pickBw_holds (p := p) (m := m) (xs := xs) (ys := ys) (v := []) hgy hgx hs
  case biA o =>
    obtain ⟨h0, h0'⟩ := hlen
    obtain ⟨i, j, rfl⟩ := List.length_eq_two.mp h0
    obtain ⟨k, rfl⟩ := List.length_eq_one_iff.mp h0'
    obtain ⟨x, z, rfl, q1, q2⟩ := forall₂_two hx
    obtain ⟨w, rfl, q3⟩ := forall₂_one hy
    obtain ⟨c1, hc⟩ := check_bind_ok.mp hc
    obtain ⟨c2, hc⟩ := check_bind_ok.mp hc
    obtain ⟨s, hs, hc⟩ := Res.bind_eq_ok.mp hc
    have c3 := check_eq_ok.mp hc
    rw [← c3, c2] at hs
    subst c1
    have hk : ∃ k, (Naive.bwImpl (.biA o) : Option (BwK α)) = some k := by cases o <;> exact ⟨_, rfl⟩
    obtain ⟨kk, hk⟩ := hk
    obtain ⟨g', e, h⟩ := K.biA_holds (p := p) (m := m) (u := []) (v := []) (y := w) o hk q1 q2 hgy hgx hs
    refine ⟨g', ?_, h⟩
    rw [← e]
    show (unwrap (Naive.bwImpl (.biA o)) >>= _) = _
    rw [hk]; rfl
  case biB o =>
    obtain ⟨h0, h0'⟩ := hlen
    obtain ⟨i, j, rfl⟩ := List.length_eq_two.mp h0
    obtain ⟨k, rfl⟩ := List.length_eq_one_iff.mp h0'
    obtain ⟨x, z, rfl, q1, q2⟩ := forall₂_two hx
    obtain ⟨w, rfl, q3⟩ := forall₂_one hy
    obtain ⟨c1, hc⟩ := check_bind_ok.mp hc
    obtain ⟨c2, hc⟩ := check_bind_ok.mp hc
    obtain ⟨s, hs, hc⟩ := Res.bind_eq_ok.mp hc
    have c3 := check_eq_ok.mp hc
    rw [← c3, c2] at hs
    subst c1
    rw [c2] at q3
    have hk : ∃ k, (Naive.bwImpl (.biB o) : Option (BwK α)) = some k := by cases o <;> exact ⟨_, rfl⟩
    obtain ⟨kk, hk⟩ := hk
    obtain ⟨g', e, h⟩ := K.biB_holds (p := p) (m := m) (u := []) (v := []) (y := w) o hk q1 q2 q3 hgy hgx hs
    refine ⟨g', ?_, h⟩
    rw [← e]
    show (unwrap (Naive.bwImpl (.biB o)) >>= _) = _
    rw [hk]; rfl
  case matmulA =>
    obtain ⟨h0, h0'⟩ := hlen
    obtain ⟨i, j, rfl⟩ := List.length_eq_two.mp h0
    obtain ⟨k, rfl⟩ := List.length_eq_one_iff.mp h0'
    obtain ⟨x, z, rfl, q1, q2⟩ := forall₂_two hx
    obtain ⟨w, rfl, q3⟩ := forall₂_one hy
    obtain ⟨c1, hc⟩ := check_bind_ok.mp hc
    obtain ⟨c2, hc⟩ := check_bind_ok.mp hc
    obtain ⟨s, hs, hc⟩ := Res.bind_eq_ok.mp hc
    have c3 := check_eq_ok.mp hc
    rw [← c3, c2] at hs
    subst c1
    exact K.matmulBwA_holds (p := p) (m := m) (u := []) (v := []) (xa := x) (ys := [w]) q2 hgy hgx hs (hfit _ _ rfl)
  case matmulB =>
    obtain ⟨h0, h0'⟩ := hlen
    obtain ⟨i, j, rfl⟩ := List.length_eq_two.mp h0
    obtain ⟨k, rfl⟩ := List.length_eq_one_iff.mp h0'
    obtain ⟨x, z, rfl, q1, q2⟩ := forall₂_two hx
    obtain ⟨w, rfl, q3⟩ := forall₂_one hy
    obtain ⟨c1, hc⟩ := check_bind_ok.mp hc
    obtain ⟨c2, hc⟩ := check_bind_ok.mp hc
    obtain ⟨s, hs, hc⟩ := Res.bind_eq_ok.mp hc
    have c3 := check_eq_ok.mp hc
    rw [← c3, c2] at hs
    subst c1
    exact K.matmulBwB_holds (p := p) (m := m) (u := []) (v := []) (xb := z) (ys := [w]) q1 hgy hgx hs (hfit _ _ rfl)
  all_goals
    obtain ⟨h0, h0'⟩ := hlen
    obtain ⟨i, rfl⟩ := List.length_eq_one_iff.mp h0
    obtain ⟨j, rfl⟩ := List.length_eq_one_iff.mp h0'
    obtain ⟨x, rfl, q1⟩ := forall₂_one hx
    obtain ⟨w, rfl, q2⟩ := forall₂_one hy
    obtain ⟨c1, hc⟩ := check_bind_ok.mp hc
    obtain ⟨c2, hc⟩ := check_bind_ok.mp hc
  case max dim =>
    obtain ⟨s, hs, hc⟩ := Res.bind_eq_ok.mp hc
    have c3 := check_eq_ok.mp hc
    rw [← c3, c2] at hs
    subst c1
    rw [c2] at q2
    exact K.extBw_holds (p := p) (m := m) (v := []) q1 q2 hgy hgx hs
  case min dim =>
    obtain ⟨s, hs, hc⟩ := Res.bind_eq_ok.mp hc
    have c3 := check_eq_ok.mp hc
    rw [← c3, c2] at hs
    subst c1
    rw [c2] at q2
    exact K.extBw_holds (p := p) (m := m) (v := []) q1 q2 hgy hgx hs
  case transpose =>
    obtain ⟨s, hs, hc⟩ := Res.bind_eq_ok.mp hc
    have c3 := check_eq_ok.mp hc
    rw [← c3, c2] at hs
    subst c1
    exact K.transposeBw_holds (p := p) (m := m) (u := []) (v := []) (xs := [x]) (ys := [w]) hgy hgx hs
  all_goals
    have c3 := check_eq_ok.mp hc
  case triangularL k =>
    rw [c2, c1] at c3
    subst c3
    exact K.triangularBw_holds (lower := true) (p := p) (m := m) (v := []) (xs := [x]) (ys := [w]) hgy hgx hfit.1 hfit.2
  case triangularU k =>
    rw [c2, c1] at c3
    subst c3
    exact K.triangularBw_holds (lower := false) (p := p) (m := m) (v := []) (xs := [x]) (ys := [w]) hgy hgx hfit.1 hfit.2
  all_goals
    rw [c2, c1] at c3
    subst c3
    rw [c1] at q1
    rw [c2] at q2
  case cn o k => exact K.bwConst_holds (p := p) (m := m) (u := []) _ q1 q2 hgy hgx
  case powi k => exact K.powiBw_holds (p := p) (m := m) (v := []) (ys := [w]) hfit q1 hgy hgx
  case un u _ _ =>
    have hf : (u.bwFn : Option (α → α → α → α)) ≠ none := hfit
    cases hfn : (u.bwFn : Option (α → α → α → α)) with
    | none => exact absurd hfn hf
    | some f =>
      obtain ⟨g', e, h⟩ := K.bwX_holds (p := p) (m := m) (u := []) (f := []) f q1 q2 hgy hgx
      refine ⟨g', ?_, ?_⟩
      · rw [← e]
        show (unwrap ((u.bwFn : Option (α → α → α → α)).map K.bwX) >>= _) = _
        rw [hfn]; rfl
      · refine h.congr fun c b _ => ?_
        simp only [BwOp.sem, hfn]

end Verif
