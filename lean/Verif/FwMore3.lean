import Verif.FwMore2

/-!
# Lemmas for flip, permute_dims and identity
-/

set_option linter.unusedSectionVars false

namespace Verif
open Res
variable {α : Type} [Flt α] {d : Nat}

theorem flip_pos {s : Shape} (h : s.WF) {dim j : Nat} (hj : j < s.get dim) {c : Nat → Nat} {b : Nat} (hv : s.Valid c b) :
    K.fibPos (s.lowerVolume dim) (s.get dim) (fibSrc (s.lowerVolume dim) (s.get dim) (s.offset c b)) j = s.offset (cset c dim j) b ∧
    s.offset c b / s.lowerVolume dim % s.get dim = c dim := by
  have hlo := h.lo_lt hv dim
  have hlv := h.lowerVolume_pos dim
  have hd := hv.1 dim
  rw [fibPos_fibSrc hlv, offset_axis h h (fun _ _ => rfl) hj rfl hv, ← Nat.div_div_eq_div_mul, h.offset_split hv dim, (flat_div hlo).1,
    (flat_div hlo).2, (flat_div hd).1, (flat_div hd).2]
  exact ⟨rfl, rfl⟩

theorem flip_holds {x y : Tensor α} {s : Shape} {f g : Arr α} {dim : Nat} (hx : x.Holds d s f) (hy : y.Holds d s g) (p : Profile) :
    Yields (Dev.callFw p .flip [x] [dim] [] y) d s (fun c b => f (cset c dim (s.get dim - 1 - c dim)) b) := by
  obtain ⟨y', e, h⟩ := K.flipFw_ok (p := p) (dim := dim) (rest := []) (u := []) (f := ([] : List α)) hx.flat hy.flat.room
  refine ⟨y', e, h.holds fun c b hv => ?_⟩
  have hd := hv.1 dim
  obtain ⟨h1, h2⟩ := flip_pos hx.wf (dim := dim) (j := s.get dim - 1 - c dim) (by omega) hv
  rw [h2, show s.get dim - c dim - 1 = s.get dim - 1 - c dim by omega, h1,
    Arr.flat_offset hx.wf f (valid_cset (fun _ _ => rfl) (by omega) rfl hv)]

theorem volN_prod (f : Nat → Nat) (n : Nat) : volN f n = ∏ i ∈ Finset.range n, f i := by
  induction n with
  | zero => rfl
  | succ n ih => rw [Finset.prod_range_succ, volN, ih]

theorem volN_tail {f : Nat → Nat} {n : Nat} (hn : n ≤ 8) (h : ∀ i, n ≤ i → f i = 1) : volN f 8 = volN f n := by
  obtain ⟨k, hk⟩ := Nat.exists_eq_add_of_le hn
  rw [hk, volN_add, volN_ones (n := k) (fun i _ => h (n + i) (by omega)), Nat.mul_one]

/-- Coordinates before a permutation of the axes. -/
def unperm (perm : List Nat) (c : Nat → Nat) : Nat → Nat := fun a => if a < perm.length then c (perm.idxOf a) else 0

theorem permute_holds {x y : Tensor α} {sx s : Shape} {f g : Arr α} {perm : List Nat} {n : Nat} (hn : n ≤ 8) (hp : perm.Perm (List.range n))
    (ht : ∀ i, n ≤ i → sx.get i = 1) (hs : s.Is (fun i => if i < n then sx.get (perm.getD i 0) else 1) sx.batch)
    (hx : x.Holds d sx f) (hy : y.Holds d s g) (p : Profile) :
    Yields (Dev.callFw p .permuteDims [x] perm [] y) d s (fun c b => f (unperm perm c) b) := by
  have ip := IsPerm.of_perm hp
  have hd : ∀ i, i < n → s.get i = sx.get (perm.getD i 0) := fun i hi => by
    have := hs.2.1 i; simp only [if_pos hi] at this; exact this
  have ht' : ∀ i, n ≤ i → s.get i = 1 := fun i hi => by
    have := hs.2.1 i; simp only [if_neg (show ¬ i < n by omega)] at this; exact this
  have hvx : volN sx.get n = sx.volume := by rw [hx.wf.vol, volN_tail hn ht]
  have hvy : volN s.get n = s.volume := by rw [hs.1.vol, volN_tail hn ht']
  have hv : sx.volume = s.volume := by
    rw [← hvx, ← hvy, volN_prod, volN_prod]
    symm
    refine Finset.prod_bij' (fun i _ => perm.getD i 0) (fun a _ => perm.idxOf a) ?_ ?_ ?_ ?_ ?_
    · intro i hi; exact Finset.mem_range.mpr (ip.lt i (Finset.mem_range.mp hi))
    · intro a ha; exact Finset.mem_range.mpr (ip.lt' a (Finset.mem_range.mp ha))
    · intro i hi; exact ip.left i (Finset.mem_range.mp hi)
    · intro a ha; exact ip.right a (Finset.mem_range.mp ha)
    · intro i hi; exact hd i (Finset.mem_range.mp hi)
  obtain ⟨y', e, h⟩ := K.permuteFw_ok (p := p) (rest := []) (f := ([] : List α)) ip hx.flat hy.flat.room hs.2.2.symm hd hvx hvy hv
  refine ⟨y', e, h.holds fun c b hvc => ?_⟩
  have hl : perm.length = n := ip.len
  have hvx' : sx.Valid (unperm perm c) b := by
    refine ⟨fun a => ?_, by rw [← hs.2.2]; exact hvc.2⟩
    unfold unperm
    rw [hl]
    split <;> rename_i ha
    · have := hvc.1 (perm.idxOf a)
      rw [hd _ (ip.lt' a ha)] at this
      have e := ip.right a ha
      rwa [e] at this
    · rw [ht a (by omega)]; omega
  obtain ⟨o1, o2⟩ := hs.1.offset_div hvc
  rw [o1, o2]
  have e2 : offN sx.get (fun a => s.coord (offN s.get c 8) (perm.idxOf a)) n = offN sx.get (unperm perm c) 8 := by
    have e3 : offN sx.get (unperm perm c) 8 = offN sx.get (unperm perm c) n := by
      obtain ⟨k, hk⟩ := Nat.exists_eq_add_of_le hn
      rw [hk, offN_add, offN_zero (n := k) (c := fun i => unperm perm c (n + i)) (fun i _ => by unfold unperm; rw [if_neg (by omega)])]; simp
    rw [e3]
    refine offN_congr (fun _ _ => rfl) fun a ha => ?_
    unfold unperm
    rw [if_pos (by omega)]
    unfold Shape.coord
    have := ip.lt' a ha
    exact offN_coord (n := 8) (fun i _ => hvc.1 i) (by omega)
  rw [e2, ← hv, Nat.add_comm, ← hx.wf.offset_eq, Arr.flat_offset hx.wf f hvx']

theorem identity_holds {y : Tensor α} {s : Shape} {g : Arr α} (hm : ∀ i, 2 ≤ i → s.get i = 1) (hsq : s.get 0 = s.get 1)
    (hy : y.Holds d s g) (p : Profile) :
    Yields (Dev.callFw p .identity [] [] [] y) d s (fun c b => if b = 0 ∧ c 0 = c 1 then 1 else 0) := by
  have hvol := hy.wf.matrix_volume hm
  obtain ⟨y', e, h⟩ := K.identity_ok (p := p) (xs := []) (u := []) (f := ([] : List α)) hy.flat.room (by
    unfold Shape.size; rw [hvol, ← hsq]; exact Nat.le_mul_of_pos_left _ hy.wf.batch_pos)
  refine ⟨y', e, h.holds fun c b hv => ?_⟩
  rw [offset_mat hy.wf hm hv]
  have h0 := hv.1 0
  have h1 := hv.1 1
  rw [← hsq] at h1 ⊢
  generalize s.get 0 = n at *
  generalize c 0 = i at *
  generalize c 1 = j at *
  have hij : i + j * n < n * n := by
    calc i + j * n < n + j * n := by omega
      _ = (j + 1) * n := by ring
      _ ≤ n * n := Nat.mul_le_mul_right _ (by omega)
  by_cases hb : b = 0
  · subst hb
    simp only [Nat.zero_mul, Nat.add_zero, hij, true_and]
    have : ((i + j * n) % (n + 1) = 0) ↔ i = j := by
      have e : i + j * n + j = i + (n + 1) * j := by ring
      constructor
      · intro hmod
        obtain ⟨k, hk⟩ := Nat.dvd_of_mod_eq_zero hmod
        have h2 : j + (n + 1) * k = i + (n + 1) * j := by omega
        have a1 := (flat_div (base := n + 1) (q := k) (show j < n + 1 by omega)).2
        have a2 := (flat_div (base := n + 1) (q := j) (show i < n + 1 by omega)).2
        rw [h2, a2] at a1; omega
      · intro hij
        have e2 : i + j * n = (n + 1) * j := by rw [hij]; ring
        rw [e2]; exact Nat.mul_mod_right _ _
    simp only [this]
  · have hge : n * n ≤ b * (n * n) := Nat.le_mul_of_pos_left _ (by omega)
    rw [if_neg (by omega), if_neg (by omega)]

end Verif
