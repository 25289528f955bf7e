import Verif.PropsFw4
import Verif.PropsMatmul

/-!
# C97: rearranging elements and computing with each of them can be exchanged, bit by bit
-/

set_option linter.unusedSectionVars false
set_option linter.style.haveILetI false

namespace Verif
open Res
variable {α : Type} [Flt α] {d : Nat} {x y : Tensor α} {s t sx sy : Shape} {f g : Arr α} {p : Profile}

/-- `Q` (with any memory it is given) maps tensors of shape `sx` to tensors of shape `s` and only moves elements: each element of the result is
the element at a certain place of the argument, the same place for all arguments. -/
def Rearranges (d : Nat) (sx s : Shape) (Q : (Nat → α) → Tensor α → Res (Tensor α)) : Prop :=
  ∃ (κ : (Nat → Nat) → Nat → Nat → Nat) (β : (Nat → Nat) → Nat → Nat), (∀ c b, s.Valid c b → sx.Valid (κ c b) (β c b)) ∧
    ∀ m z h, Tensor.Holds z d sx h → Yields (Q m z) d s (fun c b => h (κ c b) (β c b))

/-- `U` (with any memory) applies one function of a single element to all elements of tensors of any shape. -/
def Elementwise (d : Nat) (U : (Nat → α) → Tensor α → Res (Tensor α)) : Prop :=
  ∃ φ : α → α, ∀ m z s h, Tensor.Holds z d s h → Yields (U m z) d s (fun c b => φ (h c b))

/-- C97: an elementwise function may be applied before or after elements are rearranged: the results are the same bit by bit. -/
theorem C97_exchange {Q U : (Nat → α) → Tensor α → Res (Tensor α)} (hQ : Rearranges d sx s Q) (hU : Elementwise d U) (hx : x.Holds d sx f)
    (m₁ m₂ m₃ m₄ : Nat → α) :
    ∃ F : Arr α, Yields (do let z ← U m₁ x; Q m₂ z) d s F ∧ Yields (do let z ← Q m₃ x; U m₄ z) d s F := by
  obtain ⟨κ, β, _, hq⟩ := hQ
  obtain ⟨φ, hu⟩ := hU
  exact ⟨fun c b => φ (f (κ c b) (β c b)), (hu m₁ x sx f hx).bind fun z hz => hq m₂ z _ hz, (hq m₃ x f hx).bind fun z hz => hu m₄ z s _ hz⟩

/-- C97: so may `-` and `/` of two tensors of the same shape, and `+` and `*` where the operations on elements commute (as they do in f32). -/
theorem C97_exchange_binary (hadd : ∀ u v : α, u + v = v + u) (hmul : ∀ u v : α, u * v = v * u) {Q : (Nat → α) → Tensor α → Res (Tensor α)}
    (hQ : Rearranges d sx s Q) (hs : s.WF) (hsz : s.size ≤ 2 ^ 31) (hx : x.Holds d sx f) (hy : y.Holds d sx g)
    (m₁ m₂ m₃ m₄ m₅ : Nat → α) :
    ∀ B ∈ [TF.add p, TF.sub p, TF.mul p, TF.div p], ∃ F : Arr α,
      Yields (do let z ← B m₁ x y; Q m₂ z) d s F ∧ Yields (do let u ← Q m₃ x; let v ← Q m₄ y; B m₅ u v) d s F := by
  obtain ⟨κ, β, hκ, hq⟩ := hQ
  have fit : ∀ r : Shape, OpFits r r := fun r => ⟨.inl fun _ => rfl, .inl rfl⟩
  have key : ∀ (B : (Nat → α) → Tensor α → Tensor α → Res (Tensor α)) (φ : α → α → α),
      (∀ m (r : Shape) (u v : Tensor α) (h k : Arr α), r.WF → r.size ≤ 2 ^ 31 → u.Holds d r h → v.Holds d r k →
        Yields (B m u v) d r (fun c b => φ (h (bc r c) (bb r b)) (k (bc r c) (bb r b)))) →
      ∃ F : Arr α, Yields (do let z ← B m₁ x y; Q m₂ z) d s F ∧ Yields (do let u ← Q m₃ x; let v ← Q m₄ y; B m₅ u v) d s F := by
    intro B φ hB
    refine ⟨fun c b => φ (f (κ c b) (β c b)) (g (κ c b) (β c b)), (hB m₁ sx x y f g hx.wf hx.small hx hy).bind fun z hz => ?_,
      (hq m₃ x f hx).bind fun u hu => (hq m₄ y g hy).bind fun v hv => ?_⟩
    · refine (hq m₂ z _ hz).congr fun c b hv => ?_
      rw [bc_valid (hκ c b hv), bb_valid (hκ c b hv)]
    · refine (hB m₅ s u v _ _ hs hsz hu hv).congr fun c b hv => ?_
      rw [bc_valid hv, bb_valid hv]
  intro B hB
  simp only [List.mem_cons, List.not_mem_nil, or_false] at hB
  rcases hB with rfl | rfl | rfl | rfl
  · exact key _ (· + ·) fun m r u v h k hr hz hu hv => (C20_add_mul hadd hmul hu hv (fit r) (.self hr) hz p m).1
  · exact key _ (· - ·) fun m r u v h k hr hz hu hv => (C20_sub_div hu hv (fit r) (.self hr) hz p m).1
  · exact key _ (· * ·) fun m r u v h k hr hz hu hv => (C20_add_mul hadd hmul hu hv (fit r) (.self hr) hz p m).2
  · exact key _ (· / ·) fun m r u v h k hr hz hu hv => (C20_sub_div hu hv (fit r) (.self hr) hz p m).2

/-- C97: these functions are elementwise: the unary functions, those with a constant on either side, and the activation functions. -/
theorem C97_elementwise (d : Nat) (p : Profile) (k : α) :
    ∀ U ∈ [TF.neg p, TF.sqrt p, TF.abs p, TF.sin p, TF.cos p, TF.tan p, TF.exp p, TF.ln p, TF.tanh p, TF.sigmoid p, TF.softplus p, TF.relu p, TF.lrelu p,
        fun m x => TF.addC p m x k, fun m x => TF.cAdd p m k x, fun m x => TF.subC p m x k, fun m x => TF.cSub p m k x,
        fun m x => TF.mulC p m x k, fun m x => TF.cMul p m k x, fun m x => TF.divC p m x k, fun m x => TF.cDiv p m k x,
        fun m x => TF.powf p m x k, fun m x => TF.prelu p m x k, fun m x => TF.elu p m x k], Elementwise d U := by
  intro U hU
  simp only [List.mem_cons, List.not_mem_nil, or_false] at hU
  have un : ∀ u : Un, Elementwise (α := α) d fun m x => TF.call (.un u) p m x [x] :=
    fun u => ⟨u.fn, fun m z s h hz => TF.call1 (op := .un u) hz rfl hz.small trivial p m⟩
  have cn : ∀ (o : Cn) (k : α), Elementwise (α := α) d fun m x => TF.call (.cn o k) p m x [x] :=
    fun o k => ⟨fun a => o.fn a k, fun m z s h hz => TF.call1 (op := .cn o k) hz rfl hz.small trivial p m⟩
  rcases hU with rfl | rfl | rfl | rfl | rfl | rfl | rfl | rfl | rfl | rfl | rfl | rfl | rfl | rfl | rfl | rfl | rfl | rfl | rfl | rfl | rfl | rfl | rfl | rfl
  exacts [un .neg, un .sqrt, un .abs, un .sin, un .cos, un .tan, un .exp, un .ln, un .tanh, un .sigmoid, un .softplus, cn .prelu 0, cn .prelu Flt.cent,
    cn .add k, cn .add k, cn .subR k, cn .subL k, cn .mul k, cn .mul k, cn .divR k, cn .divL k, cn .powfR k, cn .prelu k, cn .elu k]

theorem moved_valid {c : Nat → Nat} {b dim j n : Nat} {q : Nat} (hs : s.Is (cset sx.get dim n) q) (hv : s.Valid c b) (hj : j < sx.get dim) :
    ∀ i, cset c dim j i < sx.get i := by
  intro i
  have := hv.1 i
  rw [show s.get i = cset sx.get dim n i from hs.2.1 i] at this
  unfold cset at this ⊢
  split
  · rename_i e; rw [e]; exact hj
  · rename_i e; rwa [if_neg e] at this

/-- C97: these functions only move elements: `transpose`, `slice`, `broadcast`, `pick`, `batch_slice`, `batch_pick`, `reshape` and `flatten`, with the
arguments they accept. -/
theorem C97_rearranging (hx : sx.WF) (p : Profile) :
    (IsMat sx → s.Is (fun i => if i = 0 then sx.get 1 else if i = 1 then sx.get 0 else 1) sx.batch →
      Rearranges (α := α) d sx s (TF.transpose p)) ∧
    (∀ dim lower upper, dim < 8 → lower < upper → upper ≤ sx.get dim → s.Is (cset sx.get dim (upper - lower)) sx.batch →
      Rearranges (α := α) d sx s (fun m x => TF.slice p m x dim lower upper)) ∧
    (∀ dim n, dim < 8 → sx.get dim = 1 → n ≠ 0 → sx.volume * n < U32 → sx.volume * n * sx.batch ≤ 2 ^ 31 → s.Is (cset sx.get dim n) sx.batch →
      Rearranges (α := α) d sx s (fun m x => TF.broadcast p m x dim n)) ∧
    (∀ ids dim, dim < 8 → ids ≠ [] → (sx.batch = ids.length ∨ sx.batch = 1 ∨ ids.length = 1) → (∀ id, id ∈ ids → id < sx.get dim) →
      s.Is (cset sx.get dim 1) (max sx.batch ids.length) → s.size ≤ 2 ^ 31 → Rearranges (α := α) d sx s (fun m x => TF.pick p m x ids dim)) ∧
    (∀ lower upper, lower < upper → upper ≤ sx.batch → s.Is sx.get (upper - lower) →
      Rearranges (α := α) d sx s (fun m x => TF.batchSlice p m x lower upper)) ∧
    (∀ ids, ids ≠ [] → (∀ id, id ∈ ids → id < sx.batch) → s.Is sx.get ids.length → s.size ≤ 2 ^ 31 →
      Rearranges (α := α) d sx s (fun m x => TF.batchPick p m x ids)) ∧
    (s.WF → s.size = sx.size → Rearranges (α := α) d sx s (fun m x => TF.reshape p m x s)) ∧
    (s.Is (fun i => if i = 0 then sx.volume else 1) sx.batch → Rearranges (α := α) d sx s (TF.flatten p)) := by
  refine ⟨fun hm hs => ?_, fun dim lower upper hd h1 h2 hs => ?_, fun dim n hd h1 hn hv hsz hs => ?_, fun ids dim hd hne hb hid hs hsz => ?_,
    fun lower upper h1 h2 hs => ?_, fun ids hne hid hs hsz => ?_, fun hs hsz => ?_, fun hs => ?_⟩
  · refine ⟨fun c _ => mat (c 1) (c 0), fun _ b => b, fun c b hv => ⟨fun i => ?_, ?_⟩, fun m z h hz => ?_⟩
    · show mat (c 1) (c 0) i < sx.get i
      unfold mat
      by_cases h0 : i = 0
      · subst h0; rw [if_pos rfl]; exact lt_of_lt_of_eq (hv.1 1) (hs.2.1 1)
      · by_cases h1 : i = 1
        · subst h1; rw [if_neg (by omega), if_pos rfl]; exact lt_of_lt_of_eq (hv.1 0) (hs.2.1 0)
        · rw [if_neg h0, if_neg h1]; exact hx.get_pos i
    · exact lt_of_lt_of_eq hv.2 hs.2.2
    · obtain ⟨s', hs', hy⟩ := C25_transpose hz hm p m
      obtain rfl : s' = s := Shape.Is.unique hs' hs
      exact hy
  · refine ⟨fun c _ => cset c dim (lower + c dim), fun _ b => b, fun c b hv => ⟨moved_valid hs hv ?_, lt_of_lt_of_eq hv.2 hs.2.2⟩,
      fun m z h hz => C26_slice hz hd h1 h2 hs p m⟩
    have := hv.1 dim
    rw [show s.get dim = cset sx.get dim (upper - lower) dim from hs.2.1 dim] at this
    unfold cset at this
    rw [if_pos rfl] at this
    omega
  · refine ⟨fun c _ => cset c dim 0, fun _ b => b, fun c b hv' => ⟨moved_valid hs hv' (by omega), lt_of_lt_of_eq hv'.2 hs.2.2⟩, fun m z h hz => ?_⟩
    obtain ⟨s', hs', hy⟩ := C23_broadcast hz hd h1 hn hv hsz p m
    obtain rfl : s' = s := Shape.Is.unique hs' hs
    exact hy
  · have hlen : 0 < ids.length := List.length_pos_of_ne_nil hne
    have hxb := hx.batch_pos
    refine ⟨fun c b => cset c dim (ids.getD (if ids.length = 1 then 0 else b) 0), fun _ b => bb sx b, fun c b hv => ⟨?_, ?_⟩,
      fun m z h hz => C27_pick hz hd hne hb hid hs hsz p m⟩
    · have hbl : b < max sx.batch ids.length := lt_of_lt_of_eq hv.2 hs.2.2
      have hi : (if ids.length = 1 then 0 else b) < ids.length := by
        split
        · omega
        · rcases hb with h | h | h <;> omega
      refine moved_valid hs hv (hid _ ?_)
      rw [List.getD_eq_getElem?_getD, List.getElem?_eq_getElem hi]
      exact List.getElem_mem hi
    · have hbl : b < max sx.batch ids.length := lt_of_lt_of_eq hv.2 hs.2.2
      show bb sx b < sx.batch
      unfold bb
      split
      · omega
      · rcases hb with h | h | h <;> omega
  · exact ⟨fun c _ => c, fun _ b => lower + b, fun c b hv => ⟨fun i => lt_of_lt_of_eq (hv.1 i) (hs.2.1 i), by
      have := hv.2; rw [hs.2.2] at this; show lower + b < sx.batch; omega⟩, fun m z h hz => C28_batch_slice hz h1 h2 hs p m⟩
  · refine ⟨fun c _ => c, fun _ b => ids.getD b 0, fun c b hv => ⟨fun i => lt_of_lt_of_eq (hv.1 i) (hs.2.1 i), hid _ ?_⟩,
      fun m z h hz => C28_batch_pick hz hne hid hs hsz p m⟩
    have hi : b < ids.length := lt_of_lt_of_eq hv.2 hs.2.2
    show ids.getD b 0 ∈ ids
    rw [List.getD_eq_getElem?_getD, List.getElem?_eq_getElem hi]
    exact List.getElem_mem hi
  · exact ⟨fun c b => sx.coord (s.offset c b % sx.volume), fun c b => s.offset c b / sx.volume,
      fun c b hv => (hx.offset_coord (hsz ▸ hs.offset_lt hv)).1, fun m z h hz => TF.reshape_ok hz hs hsz p m⟩
  · refine ⟨fun c b => sx.coord ((c 0 + b * sx.volume) % sx.volume), fun c b => (c 0 + b * sx.volume) / sx.volume,
      fun c b hv => (hx.offset_coord ?_).1, fun m z h hz => ?_⟩
    · have h0 : c 0 < sx.volume := lt_of_lt_of_eq (hv.1 0) (hs.2.1 0)
      have h1 : b + 1 ≤ sx.batch := lt_of_lt_of_eq hv.2 hs.2.2
      calc c 0 + b * sx.volume < (b + 1) * sx.volume := by rw [Nat.add_mul]; omega
        _ ≤ sx.batch * sx.volume := Nat.mul_le_mul_right _ h1
    · obtain ⟨s', hs', hy⟩ := TF.flatten_ok hz p m
      obtain rfl : s' = s := Shape.Is.unique hs' hs
      exact hy

/-- C97: the rearranging functions themselves can be chained: what is said above holds for every chain of them. -/
theorem C97_chain {Q R : (Nat → α) → Tensor α → Res (Tensor α)} (hQ : Rearranges d sx t Q) (hR : Rearranges d t s R) (m' : Nat → α) :
    Rearranges d sx s (fun m x => do let z ← Q m' x; R m z) := by
  obtain ⟨κ, β, h1, h2⟩ := hQ
  obtain ⟨κ', β', h3, h4⟩ := hR
  exact ⟨fun c b => κ (κ' c b) (β' c b), fun c b => β (κ' c b) (β' c b), fun c b hv => h1 _ _ (h3 c b hv),
    fun m z h hz => (h2 m' z h hz).bind fun w hw => h4 m w _ hw⟩

/-- A 3×2 matrix with two samples and arbitrary elements: `exp` of the transposed matrix is the transposed `exp`, and the transposed difference of
two matrices is the difference of the transposed ones. -/
example (u v : List α) (hu : u.length = 12) (hv : v.length = 12) (hadd : ∀ a b : α, a + b = b + a) (hmul : ∀ a b : α, a * b = b * a) (m : Nat → α) : ∃ x y F G,
    Dev.newBySlice .debug 0 m (matShape 3 2 2) u = ok x ∧ Dev.newBySlice .debug 0 m (matShape 3 2 2) v = ok y ∧
    Yields (do let z ← TF.exp .debug m x; TF.transpose .debug m z) 0 (matShape 2 3 2) F ∧
    Yields (do let z ← TF.transpose .debug m x; TF.exp .debug m z) 0 (matShape 2 3 2) F ∧
    Yields (do let z ← TF.sub .debug m x y; TF.transpose .debug m z) 0 (matShape 2 3 2) G ∧
    Yields (do let a ← TF.transpose .debug m x; let b ← TF.transpose .debug m y; TF.sub .debug m a b) 0 (matShape 2 3 2) G := by
  obtain ⟨x, e1, h1⟩ := Dev.newBySlice_ok (α := α) (s := matShape 3 2 2) (matShape_wf rfl) (by decide) .debug 0 m (v := u) hu
  obtain ⟨y, e2, h2⟩ := Dev.newBySlice_ok (α := α) (s := matShape 3 2 2) (matShape_wf rfl) (by decide) .debug 0 m (v := v) hv
  have w : (matShape 2 3 2).WF := matShape_wf rfl
  have hm : IsMat (matShape 3 2 2) := h1.wf.isMatrix_iff.mp rfl
  have hm' : IsMat (matShape 2 3 2) := w.isMatrix_iff.mp rfl
  have hQ := (C97_rearranging (α := α) (d := 0) (s := matShape 2 3 2) h1.wf .debug).1 hm ⟨w, fun i => by
    match i with
    | 0 => rfl
    | 1 => rfl
    | i + 2 => exact hm' (i + 2) (by omega), rfl⟩
  obtain ⟨F, a1, a2⟩ := C97_exchange hQ (C97_elementwise 0 .debug 0 _ (by simp : TF.exp .debug ∈ _)) h1 m m m m
  obtain ⟨G, b1, b2⟩ := C97_exchange_binary (p := .debug) hadd hmul hQ w (by decide) h1 h2 m m m m m _ (by simp : TF.sub .debug ∈ _)
  exact ⟨x, y, F, G, e1, e2, a1, a2, b1, b2⟩

section
variable [E : Ieee] {x y : Tensor (Fl f32)} {f g : Arr (Fl f32)}

/-- C97: in f32 all four operations may be exchanged with rearrangements. -/
theorem C97_exchange_binary_f32 {Q : (Nat → Fl f32) → Tensor (Fl f32) → Res (Tensor (Fl f32))}
    (hQ : Rearranges d sx s Q) (hs : s.WF) (hsz : s.size ≤ 2 ^ 31) (hx : x.Holds d sx f) (hy : y.Holds d sx g)
    (m₁ m₂ m₃ m₄ m₅ : Nat → Fl f32) :
    ∀ B ∈ [TF.add p, TF.sub p, TF.mul p, TF.div p], ∃ F : Arr (Fl f32),
      Yields (do let z ← B m₁ x y; Q m₂ z) d s F ∧ Yields (do let u ← Q m₃ x; let v ← Q m₄ y; B m₅ u v) d s F :=
  C97_exchange_binary add_comm32 mul_comm32 hQ hs hsz hx hy m₁ m₂ m₃ m₄ m₅
end

end Verif
