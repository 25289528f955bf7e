import Verif.PropsNode
import Verif.PropsNode2

/-!
# Composing node functions: what a node evaluates to, as an array
-/

set_option linter.unusedSectionVars false

namespace Verif
open Res
variable {α : Type} [Flt α]

namespace NF

/-- The node `x` of `g` evaluates, whenever and however `forward` is run, to a tensor on device `d` of shape `s` with elements `f`. -/
def Evals (p : Profile) (g : Graph (Tensor α)) (x : Node) (d : Nat) (s : Shape) (f : Arr α) : Prop :=
  IsNode p g x ∧ ∃ t, Computes g x t ∧ t.Holds d s f

/-- The node function extends the graph `g` and returns a node that evaluates to the array `f`. -/
def NYields (p : Profile) (m0 : Nat → α) (g : Graph (Tensor α)) (r : Res (Graph (Tensor α) × Node)) (d : Nat) (s : Shape) (f : Arr α) : Prop :=
  ∃ g' n, r = ok (g', n) ∧ Ready p m0 g' ∧ g <+: g' ∧ Evals p g' n d s f

variable {p : Profile} {m0 : Nat → α} {g : Graph (Tensor α)} {x y : Node} {d : Nat} {s s' sx sy : Shape} {f f' F : Arr α}

theorem NodeVal.prefix {g g' : Graph (Tensor α)} {x : Node} {t : Tensor α} (h : NodeVal g x t) (hp : g <+: g') : NodeVal g' x t := by
  obtain ⟨l, rfl⟩ := hp
  induction l using List.reverseRecOn with
  | nil => rw [List.append_nil]; exact h
  | append_singleton l a ih => rw [← List.append_assoc]; exact ih.grow a

theorem IsNode.prefix {g g' : Graph (Tensor α)} {x : Node} (h : IsNode p g x) (hp : g <+: g') : IsNode p g' x := by
  obtain ⟨o', m', op', ho, h1, h2⟩ := h
  obtain ⟨l, rfl⟩ := hp
  exact ⟨o', m', op', by rw [List.getElem?_append_left (Graph.mem_lt ho)]; exact ho, h1, h2⟩

theorem Evals.mono {g g' : Graph (Tensor α)} (hr : Ready p m0 g) (hr' : Ready p m0 g') (hp : g <+: g') (h : Evals p g x d s f) : Evals p g' x d s f := by
  obtain ⟨h1, t, h2, h3⟩ := h
  exact ⟨h1.prefix hp, t, hr'.computes ((hr.nodeVal h1 h2).prefix hp), h3⟩

theorem Evals.congr (h : Evals p g x d s f) (hg : ∀ c b, s.Valid c b → f' c b = f c b) : Evals p g x d s f' := by
  obtain ⟨h1, t, h2, h3⟩ := h
  exact ⟨h1, t, h2, h3.congr hg⟩

theorem NYields.congr {r} (h : NYields p m0 g r d s f) (hg : ∀ c b, s.Valid c b → f' c b = f c b) : NYields p m0 g r d s f' := by
  obtain ⟨g', n, e, h1, h2, h3⟩ := h
  exact ⟨g', n, e, h1, h2, h3.congr hg⟩

theorem NYields.bind {r : Res (Graph (Tensor α) × Node)} {k : Graph (Tensor α) × Node → Res (Graph (Tensor α) × Node)}
    (h : NYields p m0 g r d s f) (hk : ∀ g' n, Ready p m0 g' → g <+: g' → Evals p g' n d s f → NYields p m0 g' (k (g', n)) d s' F) :
    NYields p m0 g (r >>= k) d s' F := by
  obtain ⟨g', n, e, h1, h2, h3⟩ := h
  obtain ⟨g'', n', e', h1', h2', h3'⟩ := hk g' n h1 h2 h3
  exact ⟨g'', n', by rw [e, ok_bind, e'], h1', h2.trans h2', h3'⟩

theorem create1_prefix {m : Mem α} {g' : Graph (Tensor α)} {d : Nat} {op : NodeOp α} {xs : List Node} {n : Node}
    (h : create1 p m g d op xs = ok (g', n)) : g <+: g' := by
  obtain ⟨ns, hc, _⟩ := create1_create h
  obtain ⟨o, ss, rfl, _⟩ := create_spec hc
  exact List.prefix_append _ _

theorem ab_prefix {fw : Bi} {l r : Sc} {m : Mem α} {x y : Node} {g' : Graph (Tensor α)} {n : Node} (h : ab fw l r p m g x y = ok (g', n)) :
    g <+: g' := by
  simp only [ab, Res.bind_eq_ok] at h
  obtain ⟨_, _, h⟩ := h
  split at h
  · exact create1_prefix h
  · simp only [Res.bind_eq_ok] at h
    obtain ⟨_, _, h⟩ := h
    split at h <;> exact create1_prefix h

theorem unary_prefix {F : Profile → Mem α → Graph (Tensor α) → Node → Res (Graph (Tensor α) × Node)} {f : Profile → Mem α → Tensor α → Res (Tensor α)}
    (hF : Unary F f) {m : Mem α} {x : Node} {g' : Graph (Tensor α)} {n : Node} (h : F p m g x = ok (g', n)) : g <+: g' := by
  cases hF
  case flatten =>
    simp only [NF.flatten, NF.reshape, Res.bind_eq_ok] at h
    obtain ⟨_, _, s, _, h⟩ := h
    exact create1_prefix (op := .reshape s) h
  all_goals exact create1_prefix h

theorem Evals.shape (hr : Ready p m0 g) (h : Evals p g x d s f) : NF.shape g x = ok s := by
  obtain ⟨h1, t, h2, h3⟩ := h
  rw [(hr.nodeVal h1 h2).shape, h3.shape]

theorem Evals.dev (hr : Ready p m0 g) (h : Evals p g x d s f) : x.dev = d := by
  obtain ⟨h1, t, h2, h3⟩ := h
  have := (hr.nodeVal h1 h2).dev
  rw [h3.device] at this
  exact (Option.some.inj this).symm

theorem Evals.wf (h : Evals p g x d s f) : s.WF := by
  obtain ⟨h1, t, h2, h3⟩ := h
  exact h3.wf

theorem Evals.small (h : Evals p g x d s f) : s.size ≤ 2 ^ 31 := by
  obtain ⟨h1, t, h2, h3⟩ := h
  exact h3.small

/-- A function of one node. -/
theorem unary_yields {N : Profile → Mem α → Graph (Tensor α) → Node → Res (Graph (Tensor α) × Node)} {T : Profile → Mem α → Tensor α → Res (Tensor α)}
    (hN : Unary N T) (hr : Ready p m0 g) (hx : Evals p g x d s f) (m : Mem α) (h : ∀ t : Tensor α, t.Holds d s f → Yields (T p m t) d s' F) :
    NYields p m0 g (N p m g x) d s' F := by
  obtain ⟨h1, t, h2, h3⟩ := hx
  obtain ⟨y, e, hy⟩ := h t h3
  obtain ⟨g', n, e', r', i', c'⟩ := (C38_unary hr h1 h2 hN m).1 y e
  exact ⟨g', n, e', r', unary_prefix hN e', i', y, c', hy⟩

theorem ab_yields {o : Bi} {l r : Sc} (hl : ∀ u v : α, l.fn u v = o.fn v u) (hr' : ∀ u v : α, r.fn u v = o.fn u v) (hr : Ready p m0 g)
    (hx : Evals p g x d sx f) (hy : Evals p g y d sy f') (hk : sx.isScalar = sy.isScalar) (h : OpFits sx sy) (hs : s.IsJoin sx sy)
    (hsz : s.size ≤ 2 ^ 31) (m : Mem α) :
    NYields p m0 g (ab o l r p m g x y) d s (fun c b => o.fn (f (bc sx c) (bb sx b)) (f' (bc sy c) (bb sy b))) := by
  obtain ⟨h1, t, h2, h3⟩ := hx
  obtain ⟨k1, u, k2, k3⟩ := hy
  obtain ⟨z, hz, hh⟩ := abOp_yields hl hr' h3 k3 h hs hsz p (m 0)
  have hn := hr.nodeVal h1 h2
  have hn' := hr.nodeVal k1 k2
  have ha : Agrees p m0 (ab o l r p m g x y) (TF.abOp o l r p (m 0) t u) :=
    .of hr (fun _ _ e => ab_made e) (fun _ => ab_iff hn hn' (by rw [h3.shape, k3.shape]; exact hk) _ _ _)
  obtain ⟨g', n, e', r', i', c'⟩ := ha.1 z hz
  exact ⟨g', n, e', r', ab_prefix e', i', z, c', hh⟩

theorem owned_yields (hr : Ready p m0 g) {t : Tensor α} (ht : t.Holds d s f) (m : Mem α) : NYields p m0 g (ofOwned p m g t) d s f := by
  obtain ⟨g', n, y, e, r', i', c', hh⟩ := C38_owned hr ht m
  refine ⟨g', n, e, r', ?_, i', y, c', hh⟩
  simp only [ofOwned, Res.bind_eq_ok] at e
  obtain ⟨_, _, e⟩ := e
  exact create1_prefix e

/-- `self - rhs` and the like with exactly one scalar operand cannot be created. -/
theorem ab_panics {o : Bi} {l r : Sc} (hr : Ready p m0 g) (hx : Evals p g x d sx f) (hy : Evals p g y d sy f') (hk : sx.isScalar ≠ sy.isScalar) (m : Mem α) :
    ab o l r p m g x y = panic := by
  obtain ⟨h1, t, h2, h3⟩ := hx
  obtain ⟨k1, u, k2, k3⟩ := hy
  exact ab_mixed (hr.nodeVal h1 h2) (hr.nodeVal k1 k2) (by rw [h3.shape, k3.shape]; exact hk) _ _ _

end NF
end Verif
