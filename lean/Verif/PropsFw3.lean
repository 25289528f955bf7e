import Verif.PropsFw2
import Verif.FwMore4

/-!
# Properties C25 – C28: rearranging functions, slices, concatenation, picking and the batch functions
-/

set_option linter.unusedSectionVars false

namespace Verif
open Res
variable {α : Type} [Flt α] {d : Nat} {x y : Tensor α} {s sx sy : Shape} {f g : Arr α}

/-- The shape is that of a matrix. -/
def IsMat (s : Shape) : Prop := ∀ i, 2 ≤ i → s.get i = 1

/-! ### C25 -/

/-- C25: `transpose` swaps rows and columns of every batch. -/
theorem C25_transpose (hx : x.Holds d sx f) (hm : IsMat sx) (p : Profile) (m : Nat → α) :
    ∃ s : Shape, s.Is (fun i => if i = 0 then sx.get 1 else if i = 1 then sx.get 0 else 1) sx.batch ∧
      Yields (TF.transpose p m x) d s (fun c b => f (mat (c 1) (c 0)) b) := by
  have hvol : volN (matDims (sx.get 1) (sx.get 0)) 8 = sx.volume := by
    rw [hx.wf.matrix_volume hm, Nat.mul_comm]; simp [volN, matDims]
  obtain ⟨s, hs⟩ := Shape.exists_is (f := matDims (sx.get 1) (sx.get 0)) (b := sx.batch)
    (fun i => by unfold matDims; have := hx.wf.get_pos 0; have := hx.wf.get_pos 1; split_ifs <;> omega)
    (fun i hi => by unfold matDims; rw [if_neg (by omega), if_neg (by omega)]) (by rw [hvol]; exact hx.wf.vol_lt) hx.wf.batch_pos
  refine ⟨s, hs, TF.call1 (op := .transpose) hx ((Shape.transpose_iff hx.wf).mpr ⟨hm, hs⟩) ?_ trivial p m⟩
  have := hx.small
  unfold Shape.size at *
  rw [hs.1.vol, volN_congr (fun i _ => hs.2.1 i), hvol, hs.2.2]
  exact this

/-- C25: transposing twice gives the matrix back. -/
theorem C25_transpose_twice (hx : x.Holds d sx f) (hm : IsMat sx) (p : Profile) (m m' : Nat → α) :
    Yields (do let t ← TF.transpose p m x; TF.transpose p m' t) d sx f := by
  obtain ⟨s, hs, hy⟩ := C25_transpose hx hm p m
  refine hy.bind fun t ht => ?_
  have hm' : IsMat s := fun i hi => (hs.2.1 i).trans (by simp only []; rw [if_neg (by omega), if_neg (by omega)])
  obtain ⟨s', hs', hy'⟩ := C25_transpose ht hm' p m'
  have e : s' = sx := hs'.1.ext hx.wf (by rw [hs'.2.2, hs.2.2]) (fun i => by
    refine (hs'.2.1 i).trans ?_
    rw [show s.get 0 = sx.get 1 from hs.2.1 0, show s.get 1 = sx.get 0 from hs.2.1 1]
    rcases i with _ | _ | i
    · rfl
    · rfl
    · exact (hm _ (by omega)).symm)
  subst e
  refine hy'.congr fun c b hv => ?_
  congr 1
  funext i
  rcases i with _ | _ | i
  · rfl
  · rfl
  · have := hv.1 (i + 2); rw [hm _ (by omega)] at this
    show c (i + 2) = 0
    omega

/-- C25: `transpose` of anything else panics (in a build with overflow checks). -/
theorem C25_transpose_panics (hx : x.Holds d sx f) (hm : ¬ IsMat sx) (m : Nat → α) : TF.transpose .debug m x = panic := by
  unfold TF.transpose TF.call Tensor.dev unwrap
  rw [hx.device, ok_bind]
  refine Dev.fw_panics (op := .transpose) (by simp [hx.fine]) trivial ?_ m
  rintro ⟨s, hp⟩
  have hs := hp.shape
  simp only [List.map, hx.shape] at hs
  exact hm ((Shape.transpose_iff hx.wf).mp hs).1

/-- C25: `triangular_l(k)` and `triangular_u(k)` keep the elements with `i ≥ j + k` (`j ≥ i + k`) of square matrices and zero the others. -/
theorem C25_triangular (hx : x.Holds d sx f) (hm : IsMat sx) (hsq : sx.get 0 = sx.get 1) {k : Nat} (hk : sx.get 0 + k ≤ U32)
    (p : Profile) (m : Nat → α) :
    Yields (TF.triangularL p m x k) d sx (fun c b => if c 1 + k ≤ c 0 then f c b else 0) ∧
    Yields (TF.triangularU p m x k) d sx (fun c b => if c 0 + k ≤ c 1 then f c b else 0) := by
  have e : (check (sx.isMatrix = true ∧ sx.get 0 = sx.get 1) >>= fun _ => ok sx) = ok sx := by
    rw [check_true _ ⟨hx.wf.isMatrix_iff.mpr hm, hsq⟩, ok_bind]
  exact ⟨TF.call1 (op := .triangularL k) hx e hx.small hk p m, TF.call1 (op := .triangularU k) hx e hx.small hk p m⟩

/-- C25: they panic on other shapes, and also (in a build with overflow checks) when the column number plus `k` exceeds u32. -/
theorem C25_triangular_panics (hx : x.Holds d sx f) {k : Nat} (h : ¬ (IsMat sx ∧ sx.get 0 = sx.get 1 ∧ sx.get 0 + k ≤ U32))
    (m : Nat → α) : TF.triangularL .debug m x k = panic ∧ TF.triangularU .debug m x k = panic := by
  have key : ∀ op : FwOp α, op.InRange → (∀ s, op.shape .debug [sx] = ok s → sx.isMatrix = true ∧ sx.get 0 = sx.get 1 ∧ s = sx) →
      (∀ s, op.Fits s → s.get 0 + k ≤ U32) → TF.call op .debug m x [x] = panic := by
    intro op hr hsh hfit
    unfold TF.call Tensor.dev unwrap
    rw [hx.device, ok_bind]
    refine Dev.fw_panics (by simp [hx.fine]) hr ?_ m
    rintro ⟨s, hp⟩
    have hs := hp.shape
    simp only [List.map, hx.shape] at hs
    obtain ⟨h1, h2, rfl⟩ := hsh s hs
    exact h ⟨hx.wf.isMatrix_iff.mp h1, h2, hfit _ hp.fits⟩
  have hsh : ∀ s, (check (sx.isMatrix = true ∧ sx.get 0 = sx.get 1) >>= fun _ => ok sx) = ok s →
      sx.isMatrix = true ∧ sx.get 0 = sx.get 1 ∧ s = sx := by
    intro s hs
    rw [check_bind_ok] at hs
    obtain ⟨⟨h1, h2⟩, h3⟩ := hs
    cases h3
    exact ⟨h1, h2, rfl⟩
  exact ⟨key (.triangularL k) trivial hsh (fun _ h => h), key (.triangularU k) trivial hsh (fun _ h => h)⟩

/-- C25: the flip kernel reverses one axis. -/
theorem C25_flip {dim : Nat} (hx : x.Holds d s f) (hy : y.Holds d s g) (p : Profile) :
    Yields (Dev.callFw p .flip [x] [dim] [] y) d s (fun c b => f (cset c dim (s.get dim - 1 - c dim)) b) := flip_holds hx hy p

/-- C25: flipping twice gives the tensor back. -/
theorem C25_flip_twice {dim : Nat} {z : Tensor α} {h : Arr α} (hx : x.Holds d s f) (hy : y.Holds d s g) (hz : z.Holds d s h) (p : Profile) :
    Yields (do let t ← Dev.callFw p .flip [x] [dim] [] y; Dev.callFw p .flip [t] [dim] [] z) d s f := by
  refine (C25_flip hx hy p).bind fun t ht => (C25_flip ht hz p).congr fun c b hv => ?_
  rw [cset_cset, cset_at]
  have := hv.1 dim
  rw [show s.get dim - 1 - (s.get dim - 1 - c dim) = c dim by omega, cset_self]

/-- C25: the permute_dims kernel: axis `i` of the result is axis `perm[i]` of the operand (`unperm perm c` is `c` moved back:
`(unperm perm c) (perm[i]) = c i`). -/
theorem C25_permute {perm : List Nat} {n : Nat} (hn : n ≤ 8) (hp : perm.Perm (List.range n)) (ht : ∀ i, n ≤ i → sx.get i = 1)
    (hs : s.Is (fun i => if i < n then sx.get (perm.getD i 0) else 1) sx.batch) (hx : x.Holds d sx f) (hy : y.Holds d s g) (p : Profile) :
    Yields (Dev.callFw p .permuteDims [x] perm [] y) d s (fun c b => f (unperm perm c) b) ∧
      ∀ c i, i < n → unperm perm c (perm.getD i 0) = c i := by
  refine ⟨permute_holds hn hp ht hs hx hy p, fun c i hi => ?_⟩
  have ip := IsPerm.of_perm hp
  have h1 : perm.length = n := ip.len
  unfold unperm
  rw [if_pos (by rw [h1]; exact ip.lt i hi)]
  have := ip.left i hi
  rw [this]

/-- C25: the identity kernel writes the unit matrix into a square matrix. -/
theorem C25_identity (hm : IsMat s) (hsq : s.get 0 = s.get 1) (hb : s.batch = 1) (hy : y.Holds d s g) (p : Profile) :
    Yields (Dev.callFw p .identity [] [] [] y) d s (fun c _ => if c 0 = c 1 then 1 else 0) := by
  refine (identity_holds hm hsq hy p).congr fun c b hv => ?_
  have : b = 0 := by have := hv.2; omega
  simp [this]

/-- C25, not for several batches: only the first one gets a unit matrix, the others become 0. -/
theorem C25_identity_batches (hm : IsMat s) (hsq : s.get 0 = s.get 1) (hy : y.Holds d s g) (p : Profile) :
    Yields (Dev.callFw p .identity [] [] [] y) d s (fun c b => if b = 0 ∧ c 0 = c 1 then 1 else 0) := identity_holds hm hsq hy p

/-! ### C26 -/

/-- C26: `slice(dim, lower, upper)` selects a range of the axis. -/
theorem C26_slice (hx : x.Holds d sx f) {dim lower upper : Nat} (hd : dim < 8) (h1 : lower < upper) (h2 : upper ≤ sx.get dim)
    (hs : s.Is (cset sx.get dim (upper - lower)) sx.batch) (p : Profile) (m : Nat → α) :
    Yields (TF.slice p m x dim lower upper) d s (fun c b => f (cset c dim (lower + c dim)) b) := by
  refine TF.call1 (op := .slice dim lower upper) hx ((Shape.slice_iff hx.wf).mpr ⟨hd, h1, h2, hs⟩) ?_ trivial p m
  refine (size_le_of_dims hs.1 hx.wf (fun i => ?_) hs.2.2.le).trans hx.small
  rw [show s.get i = cset sx.get dim (upper - lower) i from hs.2.1 i]
  unfold cset
  split
  · rename_i h; subst h; omega
  · exact le_refl _

/-- C26: such a shape always exists. -/
theorem slice_shape (hx : sx.WF) {dim lower upper : Nat} (hd : dim < 8) (h1 : lower < upper) (h2 : upper ≤ sx.get dim) :
    ∃ s : Shape, s.Is (cset sx.get dim (upper - lower)) sx.batch := by
  refine Shape.exists_is_cset hx hd (by omega) (lt_of_le_of_lt (volN_le (g := sx.get) fun i _ => ?_) (by rw [← hx.vol]; exact hx.vol_lt))
  unfold cset; split
  · rename_i h; subst h; omega
  · exact le_refl _

/-- C26: any other range or axis makes `slice` panic. -/
theorem C26_slice_panics (hx : x.Holds d sx f) {dim lower upper : Nat} (h : ¬ (dim < 8 ∧ lower < upper ∧ upper ≤ sx.get dim)) (m : Nat → α) :
    TF.slice .debug m x dim lower upper = panic := by
  unfold TF.slice TF.call Tensor.dev unwrap
  rw [hx.device, ok_bind]
  refine Dev.fw_panics (op := .slice dim lower upper) (by simp [hx.fine]) trivial ?_ m
  rintro ⟨s, hp⟩
  have hs := hp.shape
  simp only [List.map, hx.shape] at hs
  obtain ⟨q1, q2, q3, _⟩ := (Shape.slice_iff hx.wf).mp hs
  exact h ⟨q1, q2, q3⟩

/-- C26: `split(dim, n)` returns the `n` equal pieces of the axis in order. -/
theorem C26_split (hx : x.Holds d sx f) {dim n : Nat} (hd : dim < 8) (hn : n ≠ 0) (hdvd : n ∣ sx.get dim)
    (hs : s.Is (cset sx.get dim (sx.get dim / n)) sx.batch) (p : Profile) (m : Mem α) :
    ∃ ts, TF.split p m x dim n = ok ts ∧
      HoldAll d ts ((List.range n).map fun i => (s, fun c b => f (cset c dim (i * (sx.get dim / n) + c dim)) b)) := by
  have hpos := hx.wf.get_pos dim
  obtain ⟨q, hq⟩ := hdvd
  have hq1 : sx.get dim / n = q := by rw [hq]; exact Nat.mul_div_cancel_left _ (by omega)
  have hq0 : 0 < q := by rcases q with _ | q <;> simp_all
  unfold TF.split
  simp only [hx.shape, hq1]
  rw [check_true _ hn, ok_bind, check_true _ (by rw [hq, Nat.mul_comm] : q * n = sx.get dim), ok_bind]
  refine loop_pieces (F := fun i => TF.slice p (m i) x dim (i * q) ((i + 1) * q)) (s := fun _ => s)
    (G := fun i c b => f (cset c dim (i * q + c dim)) b) fun i hi => ?_
  have e : (i + 1) * q - i * q = q := by rw [Nat.add_mul]; omega
  refine C26_slice hx hd ?_ ?_ ?_ p (m i)
  · rw [Nat.add_mul]; omega
  · rw [hq]; exact Nat.mul_le_mul_right _ (by omega)
  · rw [e]; rw [hq1] at hs; exact hs

/-- C26: `split` panics when the axis cannot be divided into `n` equal pieces. -/
theorem C26_split_panics (hx : x.Holds d sx f) {dim n : Nat} (h : n = 0 ∨ ¬ n ∣ sx.get dim) (p : Profile) (m : Mem α) :
    TF.split p m x dim n = panic := by
  unfold TF.split
  simp only [hx.shape]
  by_cases hn : n = 0
  · rw [check_false _ (by omega)]; rfl
  · rw [check_true _ hn, ok_bind, check_false]
    · rfl
    · intro e
      rcases h with h | h
      · exact hn h
      · exact h ⟨_, by rw [← e]; exact Nat.mul_comm _ _⟩

/-- What `concat` needs: an axis below 8, at least one tensor, equal extents on the other axes, compatible batches. -/
def CatFits (dim : Nat) (ss : List Shape) : Prop :=
  dim < 8 ∧ ss ≠ [] ∧ (∀ i, i < ss.length → ∀ a, a ≠ dim → (nth ss i).get a = (nth ss 0).get a) ∧ AllCompat ss

/-- The shape of a concatenation. -/
def IsCat (s : Shape) (dim : Nat) (ss : List Shape) : Prop :=
  s.Is (cset (nth ss 0).get dim (sumN (fun i => (nth ss i).get dim) ss.length)) (maxN (fun i => (nth ss i).batch) ss.length)

theorem concat_yields {xs : List (Tensor α)} {ins : List (Shape × Arr α)} (hx : HoldAll d xs ins) {dim : Nat}
    (h : CatFits dim (ins.map Prod.fst)) (hs : IsCat s dim (ins.map Prod.fst)) (hsz : s.size ≤ 2 ^ 31) (p : Profile) (m : Nat → α) :
    Yields (TF.concat p m xs dim) d s (catAt dim ins) := by
  have hl := hx.length_eq
  have h0 : 0 < ins.length := by
    rcases ins with _ | _
    · exact absurd rfl h.2.1
    · simp
  obtain ⟨x, e, hx0⟩ := hx.get h0
  unfold TF.concat
  have ex : ix xs 0 = ok x := by unfold ix; rw [e]
  rw [ex, ok_bind]
  refine TF.call_ok (op := .concat dim) hx0.device hx ?_ hsz trivial p m
  show (check ((ins.map Prod.fst).length ≠ 0) >>= fun _ => ShapeOps.concat .debug (ins.map Prod.fst) dim) = ok s
  rw [check_true _ (by simp; exact List.ne_nil_of_length_pos h0), ok_bind]
  refine (Shape.concat_iff hx.wf).mpr ⟨h.1, h.2.1, h.2.2.1, h.2.2.2, ?_, hs⟩
  rw [← cset_eq, ← volN_congr (fun i _ => hs.2.1 i), ← hs.1.vol]
  exact hs.1.vol_lt

/-- C26: `concat` stacks its arguments along the axis: at positions `offset of argument k + j` the result has the elements of argument `k`
(batch-1 arguments are repeated). -/
theorem C26_concat {xs : List (Tensor α)} {ins : List (Shape × Arr α)} (hx : HoldAll d xs ins) {dim : Nat}
    (h : CatFits dim (ins.map Prod.fst)) (hs : IsCat s dim (ins.map Prod.fst)) (hsz : s.size ≤ 2 ^ 31) (p : Profile) (m : Nat → α) :
    ∃ F, Yields (TF.concat p m xs dim) d s F ∧ ∀ k sk fk, ins[k]? = some (sk, fk) → ∀ c j b, j < sk.get dim →
      F (cset c dim (sumN (fun i => (nth (ins.map Prod.fst) i).get dim) k + j)) b = fk (cset c dim j) (bb sk b) := by
  refine ⟨_, concat_yields hx h hs hsz p m, fun k sk fk hk c j b hj => ?_⟩
  have hkl := (List.getElem?_eq_some_iff.mp hk).1
  rw [← offAt_eq ins (by omega)]
  exact catAt_at hk hj

/-- C26: slicing a concatenation at the position of argument `k` gives that argument back (batch-1 arguments repeated). -/
theorem C26_slice_of_concat {xs : List (Tensor α)} {ins : List (Shape × Arr α)} (hx : HoldAll d xs ins) {dim : Nat}
    (h : CatFits dim (ins.map Prod.fst)) (hs : IsCat s dim (ins.map Prod.fst)) (hsz : s.size ≤ 2 ^ 31) (p : Profile) (m m' : Nat → α)
    {k : Nat} {sk : Shape} {fk : Arr α} (hk : ins[k]? = some (sk, fk)) {off : Nat}
    (hoff : off = sumN (fun i => (nth (ins.map Prod.fst) i).get dim) k) :
    ∃ s' : Shape, s'.Is sk.get s.batch ∧
      Yields (do let t ← TF.concat p m xs dim; TF.slice p m' t dim off (off + sk.get dim)) d s' (fun c b => fk c (bb sk b)) := by
  obtain ⟨F, hy, hF⟩ := C26_concat hx h hs hsz p m
  have hkl := (List.getElem?_eq_some_iff.mp hk).1
  have hlen : (ins.map Prod.fst).length = ins.length := by simp
  have hnth : nth (ins.map Prod.fst) k = sk := by
    unfold nth; simp [List.getD_eq_getElem?_getD, hk]
  have hskw : sk.WF := by rw [← hnth]; exact hx.wf _ (nth_mem (by omega))
  have hle : ∀ n, sumN (fun i => (nth (ins.map Prod.fst) i).get dim) k + sk.get dim ≤
      sumN (fun i => (nth (ins.map Prod.fst) i).get dim) (k + 1 + n) := by
    intro n
    induction n with
    | zero => rw [Nat.add_zero, sumN, hnth]
    | succ n ih => rw [← Nat.add_assoc, sumN]; omega
  have hdim : s.get dim = sumN (fun i => (nth (ins.map Prod.fst) i).get dim) (ins.map Prod.fst).length := by
    rw [show s.get dim = _ from hs.2.1 dim, cset_at]
  have hup : off + sk.get dim ≤ s.get dim := by
    rw [hoff, hdim, hlen]
    have := hle (ins.length - (k + 1))
    rwa [show k + 1 + (ins.length - (k + 1)) = ins.length by omega] at this
  have hpos := hskw.get_pos dim
  obtain ⟨s', hs'⟩ := slice_shape hs.1 (dim := dim) (lower := off) (upper := off + sk.get dim) h.1 (by omega) hup
  refine ⟨s', ⟨hs'.1, fun i => ?_, hs'.2.2⟩, hy.bind fun t ht => (C26_slice ht h.1 (by omega) hup hs' p m').congr fun c b hv => ?_⟩
  · refine (hs'.2.1 i).trans ?_
    by_cases hi : i = dim
    · subst hi; rw [cset_at]; omega
    · rw [cset_ne _ hi, show s.get i = _ from hs.2.1 i, cset_ne _ hi]
      have := h.2.2.1 k (by omega) i hi
      rw [hnth] at this; exact this.symm
  · have hc : c dim < sk.get dim := by
      have h1 := hv.1 dim
      rw [show s'.get dim = _ from hs'.2.1 dim, cset_at] at h1
      omega
    rw [hoff, hF k sk fk hk c (c dim) b hc, cset_self]

/-- C26: concatenating the pieces of a split gives the tensor back. -/
theorem C26_concat_split (hx : x.Holds d sx f) {dim n : Nat} (hd : dim < 8) (hn : n ≠ 0) (hdvd : n ∣ sx.get dim) (p : Profile)
    (m : Mem α) (m' : Nat → α) : Yields (do let ts ← TF.split p m x dim n; TF.concat p m' ts dim) d sx f := by
  have hpos := hx.wf.get_pos dim
  have hq0 : 0 < sx.get dim / n := Nat.div_pos (Nat.le_of_dvd hpos hdvd) (by omega)
  obtain ⟨s, hs⟩ := slice_shape hx.wf (dim := dim) (lower := 0) (upper := sx.get dim / n) hd hq0 (Nat.div_le_self _ _)
  obtain ⟨ts, e, ht⟩ := C26_split hx hd hn hdvd (s := s) hs p m
  rw [e, ok_bind]
  generalize hins : ((List.range n).map fun i => (s, fun c b => f (cset c dim (i * (sx.get dim / n) + c dim)) b)) = ins at ht
  have hl : ins.length = n := by rw [← hins]; simp
  have hlen : (ins.map Prod.fst).length = n := by simp [hl]
  have hnth : ∀ i, i < n → nth (ins.map Prod.fst) i = s := fun i hi => by
    rw [← hins]; exact nth_map_range (s := fun _ => s) (G := fun i c b => f (cset c dim (i * (sx.get dim / n) + c dim)) b) hi
  have hsdim : s.get dim = sx.get dim / n := by rw [show s.get dim = _ from hs.2.1 dim, cset_at]; rfl
  have hsum : ∀ k, k ≤ n → sumN (fun i => (nth (ins.map Prod.fst) i).get dim) k = k * (sx.get dim / n) := fun k hk => by
    rw [sumN_congr' (g := fun _ => sx.get dim / n) (fun i hi => by rw [hnth i (by omega), hsdim]), sumN_const]
  have hfit : CatFits dim (ins.map Prod.fst) := by
    refine ⟨hd, ?_, fun i hi a _ => ?_, fun i j hi hj => ?_⟩
    · intro h0; rw [h0] at hlen; simp at hlen; omega
    · rw [hnth i (by omega), hnth 0 (by omega)]
    · rw [hnth i (by omega), hnth j (by omega)]; exact .inl rfl
  have hcat : IsCat sx dim (ins.map Prod.fst) := by
    refine ⟨hx.wf, fun i => ?_, ?_⟩
    · rw [hlen, hsum n (le_refl _), Nat.mul_div_cancel' hdvd, hnth 0 (by omega)]
      by_cases hi : i = dim
      · subst hi; rw [cset_at]
      · rw [cset_ne _ hi, show s.get i = _ from hs.2.1 i, cset_ne _ hi]
    · rw [hlen, maxN_const hx.wf.batch_pos (by omega) (fun i hi => by rw [hnth i hi, hs.2.2])]
  obtain ⟨F, hy, hF⟩ := C26_concat ht hfit hcat hx.small p m'
  refine hy.congr fun c b hv => ?_
  have hc := hv.1 dim
  generalize hqq : sx.get dim / n = q at *
  have hnq : n * q = sx.get dim := by rw [← hqq]; exact Nat.mul_div_cancel' hdvd
  have hk : c dim / q < n := (Nat.div_lt_iff_lt_mul hq0).mpr (by omega)
  have hget : ins[c dim / q]? = some (s, fun c' b => f (cset c' dim (c dim / q * q + c' dim)) b) := by
    rw [← hins]; simp [hk]
  have h1 := hF (c dim / q) s _ hget c (c dim % q) b (by rw [hsdim]; exact Nat.mod_lt _ hq0)
  rw [hsum _ (by omega)] at h1
  have e1 : c dim / q * q + c dim % q = c dim := Nat.div_add_mod' _ _
  rw [e1, cset_self] at h1
  rw [h1]
  simp only [cset_at, cset_cset, e1, cset_self]
  unfold bb
  split
  · rename_i hb1; have := hv.2; rw [← hs.2.2, hb1] at this; rw [show b = 0 by omega]
  · rfl

/-! ### C27 -/

/-- C27: `pick(ids, dim)`: batch `b` of the result is the slice `ids[b]` of batch `b`; a single id and a tensor with batch 1 are repeated. -/
theorem C27_pick (hx : x.Holds d sx f) {ids : List Nat} {dim : Nat} (hd : dim < 8) (hne : ids ≠ [])
    (hb : sx.batch = ids.length ∨ sx.batch = 1 ∨ ids.length = 1) (hid : ∀ id, id ∈ ids → id < sx.get dim)
    (hs : s.Is (cset sx.get dim 1) (max sx.batch ids.length)) (hsz : s.size ≤ 2 ^ 31) (p : Profile) (m : Nat → α) :
    Yields (TF.pick p m x ids dim) d s (fun c b => f (cset c dim (ids.getD (if ids.length = 1 then 0 else b) 0)) (bb sx b)) :=
  TF.call1 (op := .pick ids dim) hx ((Shape.pick_iff hx.wf).mpr ⟨hd, hne, hb, hid, hs⟩) hsz trivial p m

/-- C27: otherwise `pick` panics. -/
theorem C27_pick_panics (hx : x.Holds d sx f) {ids : List Nat} {dim : Nat}
    (h : ¬ (dim < 8 ∧ ids ≠ [] ∧ (sx.batch = ids.length ∨ sx.batch = 1 ∨ ids.length = 1) ∧ ∀ id, id ∈ ids → id < sx.get dim)) (m : Nat → α) :
    TF.pick .debug m x ids dim = panic := by
  unfold TF.pick TF.call Tensor.dev unwrap
  rw [hx.device, ok_bind]
  refine Dev.fw_panics (op := .pick ids dim) (by simp [hx.fine]) trivial ?_ m
  rintro ⟨s, hp⟩
  have hs := hp.shape
  simp only [List.map, hx.shape] at hs
  obtain ⟨q1, q2, q3, q4, _⟩ := (Shape.pick_iff hx.wf).mp hs
  exact h ⟨q1, q2, q3, q4⟩

/-! ### C28 -/

/-- C28: `batch_slice(lower, upper)` selects a range of batches. -/
theorem C28_batch_slice (hx : x.Holds d sx f) {lower upper : Nat} (h1 : lower < upper) (h2 : upper ≤ sx.batch)
    (hs : s.Is sx.get (upper - lower)) (p : Profile) (m : Nat → α) :
    Yields (TF.batchSlice p m x lower upper) d s (fun c b => f c (lower + b)) := by
  refine TF.call1 (op := .batchSlice lower upper) hx ((Shape.batchSlice_iff hx.wf).mpr ⟨h1, h2, hs⟩) ?_ trivial p m
  exact (size_le_of_dims hs.1 hx.wf (fun i => (hs.2.1 i).le) (by rw [hs.2.2]; omega)).trans hx.small

/-- C28: `batch_pick(ids)`: batch `b` of the result is batch `ids[b]`. -/
theorem C28_batch_pick (hx : x.Holds d sx f) {ids : List Nat} (hne : ids ≠ []) (hid : ∀ id, id ∈ ids → id < sx.batch)
    (hs : s.Is sx.get ids.length) (hsz : s.size ≤ 2 ^ 31) (p : Profile) (m : Nat → α) :
    Yields (TF.batchPick p m x ids) d s (fun c b => f c (ids.getD b 0)) :=
  TF.call1 (op := .batchPick ids) hx ((Shape.batchPick_iff hx.wf).mpr ⟨hne, hid, hs⟩) hsz trivial p m

/-- C28: `batch_sum` adds the batches from first to last. -/
theorem C28_batch_sum (hx : x.Holds d sx f) (hs : s.Is sx.get 1) (p : Profile) (m : Nat → α) :
    Yields (TF.batchSum p m x) d s (fun c _ => sumTo sx.batch (fun b => f c b)) := by
  obtain ⟨t, e, ht⟩ := hx.wf.resizeBatch_is (b := 1) (le_refl _)
  have : t = s := Shape.Is.unique ht hs
  subst this
  exact TF.call1 (op := .batchSum) hx e ((size_le_of_dims hs.1 hx.wf (fun i => (hs.2.1 i).le) (by
    rw [hs.2.2]; exact hx.wf.batch_pos)).trans hx.small) trivial p m

theorem batch_shape (hx : sx.WF) {b : Nat} (hb : 1 ≤ b) : ∃ s : Shape, s.Is sx.get b :=
  Shape.exists_is hx.get_pos (fun i hi => hx.get_big hi) (by rw [← hx.vol]; exact hx.vol_lt) hb

/-- C28: `batch_split(n)` returns the `n` equal ranges of batches in order. -/
theorem C28_batch_split (hx : x.Holds d sx f) {n : Nat} (hn : n ≠ 0) (hdvd : n ∣ sx.batch) (hs : s.Is sx.get (sx.batch / n))
    (p : Profile) (m : Mem α) : ∃ ts, TF.batchSplit p m x n = ok ts ∧
      HoldAll d ts ((List.range n).map fun i => (s, fun c b => f c (i * (sx.batch / n) + b))) := by
  have hpos := hx.wf.batch_pos
  obtain ⟨q, hq⟩ := hdvd
  have hq1 : sx.batch / n = q := by rw [hq]; exact Nat.mul_div_cancel_left _ (by omega)
  have hq0 : 0 < q := by rcases q with _ | q <;> simp_all
  unfold TF.batchSplit
  simp only [hx.shape, hq1]
  rw [check_true _ hn, ok_bind, check_true _ (by rw [hq, Nat.mul_comm] : q * n = sx.batch), ok_bind]
  refine loop_pieces (F := fun i => TF.batchSlice p (m i) x (i * q) ((i + 1) * q)) (s := fun _ => s)
    (G := fun i c b => f c (i * q + b)) fun i hi => ?_
  have e : (i + 1) * q - i * q = q := by rw [Nat.add_mul]; omega
  refine C28_batch_slice hx ?_ ?_ ?_ p (m i)
  · rw [Nat.add_mul]; omega
  · rw [hq]; exact Nat.mul_le_mul_right _ (by omega)
  · rw [e]; rw [hq1] at hs; exact hs

theorem batchConcat_yields {xs : List (Tensor α)} {ins : List (Shape × Arr α)} (hx : HoldAll d xs ins) (hne : ins ≠ [])
    (hsame : ∀ i, i < ins.length → ∀ a, (nth (ins.map Prod.fst) i).get a = (nth (ins.map Prod.fst) 0).get a)
    (hs : s.Is (nth (ins.map Prod.fst) 0).get (sumN (fun i => (nth (ins.map Prod.fst) i).batch) ins.length)) (hsz : s.size ≤ 2 ^ 31)
    (p : Profile) (m : Nat → α) : Yields (TF.batchConcat p m xs) d s (batchCatAt ins) := by
  have hl := hx.length_eq
  have h0 : 0 < ins.length := List.length_pos_of_ne_nil hne
  obtain ⟨x, e, hx0⟩ := hx.get h0
  unfold TF.batchConcat
  have ex : ix xs 0 = ok x := by unfold ix; rw [e]
  rw [check_true _ (by omega), ok_bind, ex, ok_bind]
  refine TF.call_ok (op := .batchConcat) hx0.device hx ?_ hsz trivial p m
  show (check ((ins.map Prod.fst).length ≠ 0) >>= fun _ => ShapeOps.batchConcat .debug (ins.map Prod.fst)) = ok s
  rw [check_true _ (by simpa using hne), ok_bind]
  refine (Shape.batchConcat_iff hx.wf).mpr ⟨by simpa using hne, by simpa using hsame, .inr ?_, by simpa using hs⟩
  have h1 : s.batch ≤ 2 ^ 31 := le_trans (by unfold Shape.size; exact Nat.le_mul_of_pos_right _ hs.1.volume_pos) hsz
  rw [hs.2.2] at h1
  rw [List.length_map]
  exact lt_of_le_of_lt h1 (by decide)

/-- C28: `batch_concat` stacks the batches of its arguments. -/
theorem C28_batch_concat {xs : List (Tensor α)} {ins : List (Shape × Arr α)} (hx : HoldAll d xs ins) (hne : ins ≠ [])
    (hsame : ∀ i, i < ins.length → ∀ a, (nth (ins.map Prod.fst) i).get a = (nth (ins.map Prod.fst) 0).get a)
    (hs : s.Is (nth (ins.map Prod.fst) 0).get (sumN (fun i => (nth (ins.map Prod.fst) i).batch) ins.length)) (hsz : s.size ≤ 2 ^ 31)
    (p : Profile) (m : Nat → α) :
    ∃ F, Yields (TF.batchConcat p m xs) d s F ∧ ∀ k sk fk, ins[k]? = some (sk, fk) → ∀ c b, b < sk.batch →
      F c (sumN (fun i => (nth (ins.map Prod.fst) i).batch) k + b) = fk c b := by
  refine ⟨_, batchConcat_yields hx hne hsame hs hsz p m, fun k sk fk hk c b hb => ?_⟩
  have hkl := (List.getElem?_eq_some_iff.mp hk).1
  rw [← boffAt_eq ins (by omega)]
  exact batchCatAt_at hk hb

/-- C28: concatenating the pieces of a batch split gives the tensor back. -/
theorem C28_batch_concat_split (hx : x.Holds d sx f) {n : Nat} (hn : n ≠ 0) (hdvd : n ∣ sx.batch) (p : Profile) (m : Mem α) (m' : Nat → α) :
    Yields (do let ts ← TF.batchSplit p m x n; TF.batchConcat p m' ts) d sx f := by
  have hpos := hx.wf.batch_pos
  have hq0 : 0 < sx.batch / n := Nat.div_pos (Nat.le_of_dvd hpos hdvd) (by omega)
  obtain ⟨s, hs⟩ := batch_shape hx.wf hq0
  obtain ⟨ts, e, ht⟩ := C28_batch_split hx hn hdvd hs p m
  rw [e, ok_bind]
  generalize hins : ((List.range n).map fun i => (s, fun c b => f c (i * (sx.batch / n) + b))) = ins at ht
  have hl : ins.length = n := by rw [← hins]; simp
  have hnth : ∀ i, i < n → nth (ins.map Prod.fst) i = s := fun i hi => by
    rw [← hins]; exact nth_map_range (s := fun _ => s) (G := fun i c b => f c (i * (sx.batch / n) + b)) hi
  have hsum : ∀ k, k ≤ n → sumN (fun i => (nth (ins.map Prod.fst) i).batch) k = k * (sx.batch / n) := fun k hk => by
    rw [sumN_congr' (g := fun _ => sx.batch / n) (fun i hi => by rw [hnth i (by omega), hs.2.2]), sumN_const]
  obtain ⟨F, hy, hF⟩ := C28_batch_concat (s := sx) ht (by intro h0; rw [h0] at hl; simp at hl; omega)
    (fun i hi a => by rw [hnth i (by omega), hnth 0 (by omega)])
    ⟨hx.wf, fun i => by rw [hnth 0 (by omega)]; exact (hs.2.1 i).symm, by rw [hl, hsum n (le_refl _), Nat.mul_div_cancel' hdvd]⟩ hx.small p m'
  refine hy.congr fun c b hv => ?_
  have hc := hv.2
  generalize hqq : sx.batch / n = q at *
  have hnq : n * q = sx.batch := by rw [← hqq]; exact Nat.mul_div_cancel' hdvd
  have hk : b / q < n := (Nat.div_lt_iff_lt_mul hq0).mpr (by omega)
  have hget : ins[b / q]? = some (s, fun c b' => f c (b / q * q + b')) := by rw [← hins]; simp [hk]
  have h1 := hF (b / q) s _ hget c (b % q) (by rw [hs.2.2]; exact Nat.mod_lt _ hq0)
  rw [hsum _ (by omega)] at h1
  have e1 : b / q * q + b % q = b := Nat.div_add_mod' _ _
  rw [e1] at h1
  rw [h1]

/-! ### Concrete cases -/

/-- C25 – C28: a 2×4 tensor with two batches meets the hypotheses of transposing, slicing, splitting, picking and the batch functions. -/
example (v : List α) (hv : v.length = 16) (m : Nat → α) (mm : Mem α) : ∃ x, Dev.newBySlice .debug 0 m (matShape 2 4 2) v = ok x ∧
    (∃ y, TF.transpose .debug m x = ok y) ∧ (∃ y, TF.slice .debug m x 1 1 3 = ok y) ∧ (∃ ts, TF.split .debug mm x 1 2 = ok ts) ∧
    (∃ y, TF.pick .debug m x [3, 0] 1 = ok y) ∧ (∃ y, TF.batchSlice .debug m x 1 2 = ok y) ∧ (∃ ts, TF.batchSplit .debug mm x 2 = ok ts) ∧
    Yields (do let ts ← TF.split .debug mm x 1 2; TF.concat .debug m ts 1) 0 (matShape 2 4 2)
      (fun c b => v.getD ((matShape 2 4 2).offset c b) 0) := by
  have w : (matShape 2 4 2).WF := matShape_wf rfl
  obtain ⟨x, e, h⟩ := Dev.newBySlice_ok (α := α) w (by decide) .debug 0 m (v := v) hv
  have hmat : IsMat (matShape 2 4 2) := w.isMatrix_iff.mp rfl
  obtain ⟨_, _, y1, e1, -⟩ := C25_transpose h hmat .debug m
  obtain ⟨s2, hs2⟩ := slice_shape w (dim := 1) (lower := 1) (upper := 3) (by omega) (by omega) (by decide)
  obtain ⟨y2, e2, -⟩ := C26_slice h (by omega) (by omega) (by decide) hs2 .debug m
  obtain ⟨s3, hs3⟩ := slice_shape w (dim := 1) (lower := 0) (upper := 2) (by omega) (by omega) (by decide)
  obtain ⟨y3, e3, -⟩ := C26_split h (n := 2) (by omega) (by omega) (by decide) hs3 .debug mm
  obtain ⟨s4, hs4⟩ := slice_shape w (dim := 1) (lower := 0) (upper := 1) (by omega) (by omega) (by decide)
  have hsz : s4.size ≤ 2 ^ 31 := (size_le_of_dims hs4.1 w (fun i => by
    rw [show s4.get i = _ from hs4.2.1 i]; unfold cset; split
    · rename_i hi; subst hi; decide
    · exact le_refl _) hs4.2.2.le).trans (by decide)
  obtain ⟨y4, e4, -⟩ := C27_pick h (ids := [3, 0]) (dim := 1) (by omega) (by simp) (.inl rfl) (by decide) hs4 hsz .debug m
  obtain ⟨s5, hs5⟩ := batch_shape w (b := 1) (by omega)
  obtain ⟨y5, e5, -⟩ := C28_batch_slice h (lower := 1) (upper := 2) (by omega) (by decide) hs5 .debug m
  obtain ⟨y6, e6, -⟩ := C28_batch_split h (n := 2) (by omega) (by decide) hs5 .debug mm
  exact ⟨x, e, ⟨y1, e1⟩, ⟨y2, e2⟩, ⟨y3, e3⟩, ⟨y4, e4⟩, ⟨y5, e5⟩, ⟨y6, e6⟩, C26_concat_split h (by omega) (by omega) (by decide) .debug mm m⟩

end Verif
