import Verif.GraphOrder
import Verif.PropsGraph2
import Verif.FloatGap
import Verif.PropsFloat4
import Lean.Elab.Tactic.Basic

/-!
# C74: are values and gradients the same in every execution?

`forward` and `backward` take operators from a heap that compares depths only; the order of operators of equal depth is that of the heap's implementation.
-/

set_option linter.unusedSectionVars false

namespace Verif
open Res Shape Graph

section
variable {T : Type} {C : TensorLike T}

/-- A chain of `n` operators, each an argument of the next, the last one of which is `i`. -/
inductive Graph.Chain (g : Graph T) : Nat → Nat → Prop
  | one {i : Nat} : i < g.length → Chain g i 1
  | next {i n : Nat} {a : Nat × Nat} : a ∈ g.argsOf i → Chain g a.1 n → Chain g i (n + 1)

/-- The operators whose longest chains have equal length. -/
def Graph.SameDepth (g : Graph T) (i j : Nat) : Prop := ∀ n, (g.Chain i n ∧ ∀ k, g.Chain i k → k ≤ n) ↔ (g.Chain j n ∧ ∀ k, g.Chain j k → k ≤ n)

/-- The recorded depths follow the recurrence of graph.rs:80. -/
def Graph.DepthEq (g : Graph T) : Prop :=
  ∀ (i : Nat) (o : OpInfo T), g[i]? = some o → o.depth = (o.args.map fun a => g.depthOf a.1).foldl max 0 + 1

theorem depthEq_of_same {g g' : Graph T} (hs : SameOps g.length g g') (hl : g'.length = g.length) (hw : WF g) (h : g.DepthEq) : g'.DepthEq := by
  intro i o' ho'
  have hi : i < g.length := hl ▸ mem_lt ho'
  obtain ⟨o, ho⟩ : ∃ o, g[i]? = some o := ⟨g[i], by simp [hi]⟩
  have e1 := hs.argsOf hi
  have e2 := hs.depthOf hi
  rw [argsOf_some ho, argsOf_some ho'] at e1
  rw [depthOf_some ho, depthOf_some ho'] at e2
  rw [← e2, ← e1, h i o ho]
  congr 2
  apply List.map_congr_left
  intro a ha
  exact hs.depthOf ((hw.args i o ho a ha).1.trans hi)

theorem Graph.Hist.depthEq {g : Graph T} {tr : List Nat} (h : Hist C g tr) : g.DepthEq := by
  induction h with
  | empty => intro i o ho; cases ho
  | @create g g' tr op sink args h hc ih =>
    have hw' := (Hist.create h hc).inv.wf
    simp only [Graph.create, Res.bind_eq_ok, Res.ok.injEq] at hc
    obtain ⟨xs, _, ss, _, rfl⟩ := hc
    have hold : ∀ k, k < g.length → ∀ x : OpInfo T, depthOf (g ++ [x]) k = g.depthOf k := fun k hk x => by
      simp [depthOf, List.getElem?_append_left hk]
    intro i o ho
    rcases Nat.lt_trichotomy i g.length with hi | hi | hi
    · rw [List.getElem?_append_left hi] at ho
      rw [ih i o ho]
      congr 2
      apply List.map_congr_left
      intro a ha
      exact (hold _ ((h.inv.wf.args i o ho a ha).1.trans hi) _).symm
    · subst hi
      have ho0 := ho
      rw [List.getElem?_append_right le_rfl, Nat.sub_self] at ho
      obtain rfl := Option.some.inj ho
      show _ + 1 = _ + 1
      congr 2
      apply List.map_congr_left
      intro a ha
      exact (hold _ (hw'.args _ _ ho0 a ha).1 _).symm
    · rw [List.getElem?_eq_none (by simp; omega)] at ho; cases ho
  | forward h hr hf ih =>
    obtain ⟨_, popped, _, _, _, hran, _⟩ := forward_spec h.inv hr hf
    exact depthEq_of_same (hran.same _) hran.len h.inv.wf ih
  | backward h hr hf hb ih =>
    obtain ⟨hinv, popped, _, _, _, hran, _⟩ := forward_spec h.inv hr hf
    have hd := depthEq_of_same (hran.same _) hran.len h.inv.wf ih
    obtain ⟨_, _, _, hacc⟩ := backward_spec hinv.wf (by rw [hran.len]; exact hr) hb
    exact depthEq_of_same (hacc.same.same _) hacc.same.1.symm hinv.wf hd
  | backwardPanic h hr hf hb hs ih =>
    obtain ⟨hinv, popped, _, _, _, hran, _⟩ := forward_spec h.inv hr hf
    have hd := depthEq_of_same (hran.same _) hran.len h.inv.wf ih
    exact depthEq_of_same (hs.same _) hs.1.symm hinv.wf hd

theorem foldl_max_mem (l : List Nat) (b : Nat) : l.foldl max b = b ∨ l.foldl max b ∈ l := by
  induction l generalizing b with
  | nil => exact .inl rfl
  | cons x l ih =>
    rcases ih (max b x) with h | h
    · rcases max_choice b x with e | e
      · rw [List.foldl_cons, h, e]; exact .inl rfl
      · rw [List.foldl_cons, h, e]; exact .inr List.mem_cons_self
    · rw [List.foldl_cons]; exact .inr (List.mem_cons_of_mem _ h)

/-- The recorded depth is the length of the longest chain. -/
theorem Graph.Hist.depth_longest {g : Graph T} {tr : List Nat} (h : Hist C g tr) : ∀ {i : Nat}, i < g.length →
    g.Chain i (g.depthOf i) ∧ ∀ k, g.Chain i k → k ≤ g.depthOf i := by
  intro i hi
  refine ⟨?_, fun k hk => ?_⟩
  · induction i using Nat.strongRecOn with
    | ind i ih =>
      obtain ⟨o, ho⟩ : ∃ o, g[i]? = some o := ⟨g[i], by simp [hi]⟩
      rw [depthOf_some ho, h.depthEq i o ho]
      rcases foldl_max_mem (o.args.map fun a => g.depthOf a.1) 0 with e | e
      · rw [e]; exact .one hi
      · obtain ⟨a, ha, e'⟩ := List.mem_map.mp e
        rw [← e']
        have hlt := (h.inv.wf.args i o ho a ha).1
        exact .next (by rw [argsOf_some ho]; exact ha) (ih a.1 hlt (hlt.trans hi))
  · induction hk with
    | @one j hj =>
      obtain ⟨o, ho⟩ : ∃ o, g[j]? = some o := ⟨g[j], by simp [hj]⟩
      rw [depthOf_some ho, h.depthEq _ o ho]
      omega
    | next ha _ ih =>
      have h1 := h.inv.wf.depth ha
      have h2 := ih ((h.inv.wf.lt ha).trans hi)
      omega

theorem Graph.Hist.sameDepth {g : Graph T} {tr : List Nat} (h : Hist C g tr) {i j : Nat} (hi : i < g.length) (hj : j < g.length)
    (e : g.depthOf i = g.depthOf j) : g.SameDepth i j := by
  have h1 := h.depth_longest hi
  have h2 := h.depth_longest hj
  intro n
  constructor
  · rintro ⟨a, b⟩
    have : n = g.depthOf i := le_antisymm (h1.2 n a) (b _ h1.1)
    rw [this, e]; exact h2
  · rintro ⟨a, b⟩
    have : n = g.depthOf j := le_antisymm (h2.2 n a) (b _ h2.1)
    rw [this, ← e]; exact h1

/-- C74: all executions of `forward` end with the same graph, when the needed operators can be evaluated. -/
theorem C74_values_reproducible {g : Graph T} {tr : List Nat} (h : Hist C g tr) {root : Nat} (hr : root < g.length) (hev : Evaluable g root)
    {g1 : Graph T} {t1 : List Nat} {r1 : Res Unit} (h1 : Forward g root g1 t1 r1) {g2 : Graph T} {t2 : List Nat} {r2 : Res Unit} (h2 : Forward g root g2 t2 r2) :
    r1 = ok () ∧ r2 = ok () ∧ g1 = g2 := by
  obtain ⟨a1, a2, a3, a4⟩ := C30_forward_evaluates h hr hev h1
  obtain ⟨b1, b2, b3, b4⟩ := C30_forward_evaluates h hr hev h2
  refine ⟨a1, b1, List.ext_getElem? fun j => ?_⟩
  by_cases hj : Needs g root j
  · have hjl : j < g.length := by have := hj.le h.inv.wf; omega
    obtain ⟨o, ho⟩ : ∃ o, g[j]? = some o := ⟨g[j], by simp [hjl]⟩
    obtain ⟨ys, e1, e2⟩ := a3 j o hj ho
    obtain ⟨zs, e3, e4⟩ := b3 j o hj ho
    rw [e1] at e3
    obtain rfl := Res.ok.inj e3
    rw [e2, e4]
  · rw [a4 j hj, b4 j hj]

/-- C74: if no value is used by two operators of equal depth, all executions of `backward` end with the same graph - the same values, gradients and parameter
gradients, whatever the type of the numbers - or none of them completes. -/
theorem C74_gradients_reproducible {g : Graph T} {tr : List Nat} (h : Hist C g tr) {root : Nat} (hr : root < g.length) (hev : Evaluable g root)
    (hshare : ∀ i j a, Needs g root i → Needs g root j → i ≠ j → g.SameDepth i j → a ∈ g.argsOf i → a ∉ g.argsOf j)
    {t1 o1 : List Nat} {g1 : Graph T} (h1 : Backward C g root t1 o1 (ok g1)) {t2 o2 : List Nat} {r : Res (Graph T)} (h2 : Backward C g root t2 o2 r) :
    r = ok g1 := by
  obtain ⟨f1, s1, hf1, b1⟩ := h1
  obtain ⟨f2, s2, hf2, b2⟩ := h2
  obtain ⟨rfl, rfl, rfl⟩ := C74_values_reproducible h hr hev hf1 hf2
  rcases b1 with ⟨_, b1⟩ | ⟨e, _⟩ | ⟨e, _⟩
  rotate_left
  · cases e
  · cases e
  rcases b2 with ⟨_, b2⟩ | ⟨e, _⟩ | ⟨e, _⟩
  rotate_left
  · cases e
  · cases e
  obtain ⟨hinv, _, _, _, _, hran, _⟩ := forward_spec h.inv hr hf1
  have hs0 := hran.same g.length
  have hr1 : root < f1.length := by rw [hran.len]; exact hr
  obtain ⟨p1, c1, m1, e1⟩ := b1
  obtain ⟨p2, c2, m2, e2⟩ := b2
  rw [c1] at c2
  obtain rfl := Option.some.inj c2
  obtain ⟨nd, mem, -⟩ := popsMax_spec hinv.wf hr1 c1 m1
  rw [← e2]
  simp only [Res.bind_eq_ok] at e1
  obtain ⟨gs, es, e1⟩ := e1
  have hss := (seed_spec es).1.sameValues
  rw [es, Res.ok_bind]
  refine foldR_reorder (SameValues f1) (fun s a s' hs e => hs.trans (bwOne_spec e).1) f1.depthOf (m1.1.trans m2.1.symm) nd m1.2 m2.2 ?_ hss e1
  intro x hx y hy hxy hd s w1 w2 hs q1 q2
  have nx : Needs g root x := (hs0.needs_iff h.inv.wf hinv.wf hr).mpr ((mem x).mp hx)
  have ny : Needs g root y := (hs0.needs_iff h.inv.wf hinv.wf hr).mpr ((mem y).mp hy)
  have lx : x < g.length := by have := nx.le h.inv.wf; omega
  have ly : y < g.length := by have := ny.le h.inv.wf; omega
  have ax : s.argsOf x = g.argsOf x := by rw [hs.argsOf, ← hs0.argsOf lx]
  have ay : s.argsOf y = g.argsOf y := by rw [hs.argsOf, ← hs0.argsOf ly]
  have hd' : g.depthOf y = g.depthOf x := by rw [hs0.depthOf lx, hs0.depthOf ly, hd]
  refine bwOne_swaps (Ne.symm hxy) ?_ ?_ ?_ q1 q2
  · rw [ax, ay]
    exact fun a ha => hshare y x a ny nx (Ne.symm hxy) (h.sameDepth ly lx hd') ha
  · rw [ax]
    intro a ha e
    have := h.inv.wf.depth ha
    rw [e] at this; omega
  · rw [ay]
    intro a ha e
    have := h.inv.wf.depth ha
    rw [e] at this; omega

end

/-! ### Instances -/

section
variable {α : Type} [Flt α]

open Lean Meta Elab Tactic in
/-- Proves an equation by evaluation; the kernel checks it. -/
elab "kernel_rfl" : tactic => do
  let g ← getMainGoal
  match (← instantiateMVars (← g.getType)).eq? with
  | some (_, a, _) => g.assign (← mkEqRefl a)
  | none => throwError "no equation"

instance (g : Graph (Tensor α)) (a b : List Nat) : Decidable (g.PopsMin a b) := inferInstanceAs (Decidable (_ ∧ _))
instance (g : Graph (Tensor α)) (a b : List Nat) : Decidable (g.PopsMax a b) := inferInstanceAs (Decidable (_ ∧ _))

/-- A tensor with one element as the library makes it. -/
def single (a : α) : Tensor α := ⟨some 0, vecShape 1 1, some ([a] ++ List.replicate 63 0), none⟩

/-- A parameter `x` (0), `k1 x` (1), `k2 x` (2), `k3 x` (3), `k1 x + k2 x` (4), `(k1 x + k2 x) + k3 x` (5). -/
def thriceOps (x k1 k2 k3 : α) : List (NodeOp α × Option (Tensor α) × List (Nat × Nat)) :=
  [(.parameter (single x), some (single 0), []), (.cn .mul k1, none, [(0, 0)]), (.cn .mul k2, none, [(0, 0)]), (.cn .mul k3, none, [(0, 0)]),
   (.bi .add, none, [(1, 0), (2, 0)]), (.bi .add, none, [(4, 0), (3, 0)])]

/-- Its graph. -/
def thrice (x k1 k2 k3 : α) : Graph (Tensor α) := gOf (build .debug [] (thriceOps x k1 k2 k3))

/-- After `forward`. -/
def thriceFw (x k1 k2 k3 : α) : Graph (Tensor α) := (fwRun [0, 1, 2, 3, 4, 5] (thrice x k1 k2 k3)).1

/-- The differentiating part of `backward`, in the given order. -/
def thriceBw (x k1 k2 k3 : α) (l : List Nat) : Res (Graph (Tensor α)) :=
  do let g ← (thriceFw x k1 k2 k3).seed (tensorLike .debug fun _ => 0) 5; foldR (bwOne (tensorLike .debug fun _ => 0)) l g

/-- What `to_vec` returns for the gradient of the parameter of operator `i`. -/
def sinkVec (g : Graph (Tensor α)) (i : Nat) : Option (Res (List α)) := (g.sinkOf i).map fun t => t.toVec .debug

theorem thrice_built (x k1 k2 k3 : α) : build .debug [] (thriceOps x k1 k2 k3) = ok (thrice x k1 k2 k3) := gOf_eq (by kernel_rfl)

theorem thrice_forward (x k1 k2 k3 : α) : Forward (thrice x k1 k2 k3) 5 (thriceFw x k1 k2 k3) [0, 1, 2, 3, 4, 5] (ok ()) :=
  ⟨[5, 4, 3, 1, 2, 0], [0, 1, 2, 3, 4, 5], by kernel_rfl, of_decide_eq_true (by kernel_rfl),
    Prod.ext rfl (show (fwRun [0, 1, 2, 3, 4, 5] (thrice x k1 k2 k3)).2 = ([0, 1, 2, 3, 4, 5], ok ()) by kernel_rfl)⟩

theorem thrice_backward (x k1 k2 k3 : α) (l : List Nat) (hl : (thriceFw x k1 k2 k3).PopsMax [5, 4, 3, 1, 2, 0] l)
    (hb : isOk (thriceBw x k1 k2 k3 l) = true) :
    Backward (tensorLike .debug fun _ => 0) (thrice x k1 k2 k3) 5 [0, 1, 2, 3, 4, 5] l (ok (gOf (thriceBw x k1 k2 k3 l))) :=
  ⟨_, ok (), thrice_forward x k1 k2 k3, .inl ⟨rfl, [5, 4, 3, 1, 2, 0], by kernel_rfl, hl, gOf_eq hb⟩⟩

/-- Two executions of `backward` that differ in the order of the operators 1, 2, 3. -/
theorem thrice_orders (x k1 k2 k3 : α) : ∃ g ga gb : Graph (Tensor α), build .debug [] (thriceOps x k1 k2 k3) = ok g ∧
    Backward (tensorLike .debug fun _ => 0) g 5 [0, 1, 2, 3, 4, 5] [5, 4, 1, 2, 3, 0] (ok ga) ∧
    Backward (tensorLike .debug fun _ => 0) g 5 [0, 1, 2, 3, 4, 5] [5, 4, 2, 3, 1, 0] (ok gb) ∧
    sinkVec ga 0 = some (ok [0 + (((0 + k1 * (0 + (0 + 1))) + k2 * (0 + (0 + 1))) + k3 * (0 + 1))]) ∧
    sinkVec gb 0 = some (ok [0 + (((0 + k2 * (0 + (0 + 1))) + k3 * (0 + 1)) + k1 * (0 + (0 + 1)))]) :=
  ⟨_, _, _, thrice_built x k1 k2 k3, thrice_backward x k1 k2 k3 _ (of_decide_eq_true (by kernel_rfl)) (by kernel_rfl),
    thrice_backward x k1 k2 k3 _ (of_decide_eq_true (by kernel_rfl)) (by kernel_rfl), by kernel_rfl, by kernel_rfl⟩

end

section
variable [E : Ieee]
open Fmt

theorem exact_add {x y : Fl f32} {a b c : ℝ} (hx : x.Is a) (hy : y.Is b) (hc : f32.Has c) (e : a + b = c) : (x + y).Is c := by
  obtain ⟨z, ez⟩ := Fl.add_eq (N := E.near32) hx hy
  show (Fl.add E.near32 x y).In c c
  rw [ez, e]
  exact Fl.round_in hc hc le_rfl le_rfl

theorem exact_mul {x y : Fl f32} {a b c : ℝ} (hx : x.Is a) (hy : y.Is b) (hc : f32.Has c) (e : a * b = c) : (x * y).Is c := by
  obtain ⟨z, ez⟩ := Fl.mul_eq (N := E.near32) hx hy
  show (Fl.mul E.near32 x y).In c c
  rw [ez, e]
  exact Fl.round_in hc hc le_rfl le_rfl

theorem absorbed_add {x y : Fl f32} {a b c : ℝ} (hx : x.Is a) (hy : y.Is b) (hc : f32.Has c) (h : |a + b - c| < |c| / 2 ^ 24 / 2) : (x + y).Is c := by
  obtain ⟨z, ez⟩ := Fl.add_eq (N := E.near32) hx hy
  have h1 := E.near32.absorbs (by decide) hc.1 (t := a + b - c) h
  rw [add_sub_cancel] at h1
  have h2 := Fl.round_eq (N := E.near32) z (a + b) (by rw [h1]; exact hc.2)
  rw [h1] at h2
  show (Fl.add E.near32 x y).In c c
  rw [ez]
  exact h2

theorem hasBig : f32.Has (2 ^ 26 - 4 : ℝ) := by
  refine ⟨⟨2 ^ 24 - 1, 2, by norm_num [f32], by norm_num [f32], by norm_num [f32], by norm_num⟩, ?_⟩
  rw [top32]; norm_num

theorem hasThreeHalves : f32.Has (3 / 2 : ℝ) := by
  refine ⟨⟨3, -1, by norm_num [f32], by norm_num [f32], by norm_num [f32], by norm_num⟩, ?_⟩
  rw [top32]; norm_num

theorem hasThree : f32.Has (3 : ℝ) := by
  refine ⟨⟨3, 0, by norm_num [f32], by norm_num [f32], by norm_num [f32], by norm_num⟩, ?_⟩
  rw [top32]; norm_num

/-- C74, limit: with three operators of equal depth that use the same parameter, two executions that the heap allows give different f32 gradients:
the derivative of `k1 x + k2 x + k3 x` with `k1 = 2^26 - 4` and `k2 = k3 = 3/2` comes out as `2^26 - 4` or as `2^26` (exactly it is `2^26 - 1`). -/
theorem C74_order_matters (x : Fl f32) : ∃ (k1 k2 k3 : Fl f32) (g ga gb : Graph (Tensor (Fl f32))) (ta oa tb ob : List Nat) (u w : Fl f32),
    k1.Is (2 ^ 26 - 4) ∧ k2.Is (3 / 2) ∧ k3.Is (3 / 2) ∧ build .debug [] (thriceOps x k1 k2 k3) = ok g ∧
    Hist (tensorLike .debug fun _ => 0) g [] ∧ Library .debug g ∧
    Backward (tensorLike .debug fun _ => 0) g 5 ta oa (ok ga) ∧ Backward (tensorLike .debug fun _ => 0) g 5 tb ob (ok gb) ∧
    sinkVec ga 0 = some (ok [u]) ∧ u.Is (2 ^ 26 - 4) ∧ sinkVec gb 0 = some (ok [w]) ∧ w.Is (2 ^ 26) := by
  have i1 : (flPos hasBig (by norm_num) : Fl f32).Is (2 ^ 26 - 4) := flPos_is _ _
  have i2 : (flPos hasThreeHalves (by norm_num) : Fl f32).Is (3 / 2) := flPos_is _ _
  generalize flPos hasBig (by norm_num) = k1 at i1
  generalize flPos hasThreeHalves (by norm_num) = k2 at i2
  obtain ⟨g, ga, gb, hb, h1, h2, e1, e2⟩ := thrice_orders x k1 k2 k2
  obtain ⟨hh, hl⟩ := build_hist (p := .debug) .empty (fun i o h => by cases h) hb
  refine ⟨k1, k2, k2, g, ga, gb, _, _, _, _, _, _, i1, i2, i2, hb, hh, hl, h1, h2, e1, ?_, e2, ?_⟩
  all_goals
    have z : (0 : Fl f32).Is 0 := zero_is
    have o : (1 : Fl f32).Is 1 := ⟨le_rfl, le_rfl⟩
    have o1 := exact_add z o has1 (zero_add 1)
    have o2 := exact_add z o1 has1 (zero_add 1)
    have m1 := exact_add z (exact_mul i1 o2 hasBig (mul_one _)) hasBig (zero_add _)
    have m2 := exact_mul i2 o2 hasThreeHalves (mul_one _)
    have m3 := exact_mul i2 o1 hasThreeHalves (mul_one _)
  · refine exact_add z (absorbed_add (absorbed_add m1 m2 hasBig ?_) m3 hasBig ?_) hasBig (zero_add _)
    · norm_num [abs_lt]
    · norm_num [abs_lt]
  · have n1 := exact_add z m2 hasThreeHalves (zero_add _)
    have n2 := exact_add n1 m3 hasThree (by norm_num)
    refine exact_add z (absorbed_add n2 (exact_mul i1 o2 hasBig (mul_one _)) has26 ?_) has26 (zero_add _)
    norm_num [abs_lt]

end
/-- Parameters `x` (0) and `y` (1), `5 x` (2), `7 y` (3), `5 x + 7 y` (4). -/
def twoOps : List (NodeOp ℤ × Option (Tensor ℤ) × List (Nat × Nat)) :=
  [(.parameter (vec2 2 3), some (vec2 0 0), []), (.parameter (vec2 4 5), some (vec2 0 0), []), (.cn .mul 5, none, [(0, 0)]), (.cn .mul 7, none, [(1, 0)]),
   (.bi .add, none, [(2, 0), (3, 0)])]

attribute [local instance] intFlt

/-- Its graph. -/
def twoG : Graph (Tensor ℤ) := gOf (build .debug [] twoOps)

theorem twoG_built : build .debug [] twoOps = ok twoG := gOf_eq (by decide +kernel)

/-- The hypotheses of `C74_gradients_reproducible` hold of this graph, which has operators of equal depth that are taken in two orders; whatever the order, the gradients are 5 and 7. -/
example : (∃ ta oa ga tb ob gb, oa ≠ ob ∧ Backward (tensorLike .debug fun _ => 0) twoG 4 ta oa (ok ga) ∧
    Backward (tensorLike .debug fun _ => 0) twoG 4 tb ob (ok gb)) ∧
    ∀ t o r, Backward (tensorLike .debug fun _ => 0) twoG 4 t o r → ∃ g', r = ok g' ∧ sinkShows g' 0 = some (ok [5, 5]) ∧ sinkShows g' 1 = some (ok [7, 7]) := by
  obtain ⟨hh, -⟩ := build_hist (p := .debug) .empty (fun i o h => by cases h) twoG_built
  have hf : Forward twoG 4 (fwd twoG [0, 1, 2, 3, 4]) [0, 1, 2, 3, 4] (ok ()) :=
    Forward.mk' (pushed := [4, 2, 3, 0, 1]) (by decide +kernel) (by decide +kernel) (by decide +kernel)
  have h1 : Backward (tensorLike .debug fun _ => 0) twoG 4 [0, 1, 2, 3, 4] [4, 2, 3, 0, 1] (ok (gOf (bwd (fwd twoG [0, 1, 2, 3, 4]) 4 [4, 2, 3, 0, 1]))) :=
    Backward.mk' hf (pushed := [4, 2, 3, 0, 1]) (by decide +kernel) (by decide +kernel) (by decide +kernel)
  have h2 : Backward (tensorLike .debug fun _ => 0) twoG 4 [0, 1, 2, 3, 4] [4, 3, 2, 1, 0] (ok (gOf (bwd (fwd twoG [0, 1, 2, 3, 4]) 4 [4, 3, 2, 1, 0]))) :=
    Backward.mk' hf (pushed := [4, 2, 3, 0, 1]) (by decide +kernel) (by decide +kernel) (by decide +kernel)
  have hfresh : ∀ j, isForwarded twoG j = false := by
    intro j
    by_cases hj : j < 5
    · have : ∀ j < 5, isForwarded twoG j = false := by decide +kernel
      exact this j hj
    · have hl : twoG.length = 5 := by decide +kernel
      have : twoG[j]? = none := List.getElem?_eq_none (by omega)
      simp [isForwarded, this]
  have hev : Evaluable twoG 4 := by
    by_contra hc
    exact C30_forward_fails hh (root := 4) (by decide +kernel) hf hc (fun j _ h => by rw [hfresh] at h; cases h) rfl
  refine ⟨⟨_, _, _, _, _, _, by decide, h1, h2⟩, fun t o r hb => ⟨gOf (bwd (fwd twoG [0, 1, 2, 3, 4]) 4 [4, 2, 3, 0, 1]), ?_, ?_⟩⟩
  · refine C74_gradients_reproducible hh (by decide +kernel) hev (fun i j a hi hj hij _ ha => ?_) h1 hb
    have hil := hi.le hh.inv.wf
    have hjl := hj.le hh.inv.wf
    have : ∀ i ∈ List.range 5, ∀ j ∈ List.range 5, i ≠ j → ∀ a ∈ twoG.argsOf i, ¬ (twoG.argsOf j).contains a = true := by decide +kernel
    exact fun hc => this i (List.mem_range.mpr (by omega)) j (List.mem_range.mpr (by omega)) hij a ha (List.contains_iff_mem.mpr hc)
  · exact ⟨by decide +kernel, by decide +kernel⟩

end Verif
