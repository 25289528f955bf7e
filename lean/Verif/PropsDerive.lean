import Verif.Derive
import Verif.PropsModel

/-!
# Properties of the derive macro (C64)
-/

namespace Verif
namespace Derive
open Res

/-! ## Specification -/

/-- The field carries an attribute `#[parameter(.., skip, ..)]`. -/
def Field.Marked (f : Field) : Prop :=
  ∃ nested : List Nested, some (Meta.list ⟨false, ["parameter"]⟩ nested) ∈ f.attrs ∧ Nested.item (.path ⟨false, ["skip"]⟩) ∈ nested

/-- How a generic parameter is written as an argument: `'a`, `T`, `{N}`. -/
def GParam.asArg : GParam → GArg
  | .lifetime x => .lifetime x
  | .type x => .type x
  | .const x => .block x

/-- `a` may stand before `b`: lifetimes before types before constants. -/
def GParam.before : GParam → GParam → Prop
  | .lifetime _, _ => True
  | .type _, .lifetime _ => False
  | .type _, _ => True
  | .const _, .const _ => True
  | .const _, _ => False

variable {α : Type}

/-- The value is built as its declarations say: each struct has named fields with different names, and one value for each of them. -/
inductive Typed : Val α → Prop
  | param (q : Param α) : Typed (.param q)
  | vec {vs : List (Val α)} : (∀ v ∈ vs, Typed v) → Typed (.vec vs)
  | struct {it : Item} {fs : List Field} {vs : List (Val α)} : it.data = .struct (.named fs) → (fs.map Field.ident).Nodup →
    vs.length = fs.length → (∀ v ∈ vs, Typed v) → Typed (.struct it vs)
  | other : Typed .other

/-- The value is a model: a parameter, a vector of models, or a value of a type on which the macro succeeds and whose unmarked fields are models. -/
inductive IsModel : Val α → Prop
  | param (q : Param α) : IsModel (.param q)
  | vec {vs : List (Val α)} : (∀ v ∈ vs, IsModel v) → IsModel (.vec vs)
  | struct {it : Item} {fs : List Field} {vs : List (Val α)} : it.data = .struct (.named fs) → (∃ x, GParam.lifetime x ∈ it.generics) →
    (∀ (i : Nat) (f : Field) (v : Val α), fs[i]? = some f → vs[i]? = some v → ¬f.Marked → IsModel v) → IsModel (.struct it vs)

/-- The parameter `q` is at the place `path` of the value, and no field on the way is marked. -/
inductive Reach : Val α → List Nat → Param α → Prop
  | here (q : Param α) : Reach (.param q) [] q
  | elem {vs : List (Val α)} {i : Nat} {v : Val α} {path : List Nat} {q : Param α} :
    vs[i]? = some v → Reach v path q → Reach (.vec vs) (i :: path) q
  | field {it : Item} {fs : List Field} {vs : List (Val α)} {i : Nat} {f : Field} {v : Val α} {path : List Nat} {q : Param α} :
    it.data = .struct (.named fs) → fs[i]? = some f → vs[i]? = some v → ¬f.Marked → Reach v path q → Reach (.struct it vs) (i :: path) q

/-! ## Lemmas -/

theorem isIdent_iff {p : Path} {s : String} : p.isIdent s = true ↔ p = ⟨false, [s]⟩ := by
  cases p
  simp [Path.isIdent]

theorem childSkips_iff : ∀ {l : List Nested}, childSkips l = true ↔ Nested.item (.path ⟨false, ["skip"]⟩) ∈ l
  | [] => by simp [childSkips]
  | .lit :: l => by simp [childSkips, childSkips_iff (l := l)]
  | .item (.list _ _) :: l => by simp [childSkips, childSkips_iff (l := l)]
  | .item (.nameValue _) :: l => by simp [childSkips, childSkips_iff (l := l)]
  | .item (.path p) :: l => by
    simp only [childSkips]
    by_cases h : p.isIdent "skip" = true
    · rw [if_pos h]
      rw [isIdent_iff] at h
      simp [h]
    · rw [if_neg h, childSkips_iff (l := l)]
      rw [isIdent_iff] at h
      simp [Ne.symm h]

theorem attrsSkip_iff : ∀ {l : List (Option Meta)}, attrsSkip l = true ↔
    ∃ nested : List Nested, some (Meta.list ⟨false, ["parameter"]⟩ nested) ∈ l ∧ Nested.item (.path ⟨false, ["skip"]⟩) ∈ nested
  | [] => by simp [attrsSkip]
  | none :: l => by simp [attrsSkip, attrsSkip_iff (l := l)]
  | some (.path _) :: l => by simp [attrsSkip, attrsSkip_iff (l := l)]
  | some (.nameValue _) :: l => by simp [attrsSkip, attrsSkip_iff (l := l)]
  | some (.list p ns) :: l => by
    simp only [attrsSkip]
    by_cases h : (p.isIdent "parameter" && childSkips ns) = true
    · rw [if_pos h]
      rw [Bool.and_eq_true, isIdent_iff, childSkips_iff] at h
      simp only [true_iff]
      exact ⟨ns, by rw [h.1]; exact List.mem_cons_self, h.2⟩
    · rw [if_neg h, attrsSkip_iff (l := l)]
      rw [Bool.and_eq_true, isIdent_iff, childSkips_iff] at h
      constructor
      · rintro ⟨n, h1, h2⟩
        exact ⟨n, List.mem_cons_of_mem _ h1, h2⟩
      · rintro ⟨n, h1, h2⟩
        rcases List.mem_cons.mp h1 with h1 | h1
        · simp only [Option.some.injEq, Meta.list.injEq] at h1
          exact absurd ⟨h1.1.symm, h1.2 ▸ h2⟩ h
        · exact ⟨n, h1, h2⟩

theorem marked_iff {f : Field} : attrsSkip f.attrs = true ↔ f.Marked := attrsSkip_iff

theorem glifetimes_mem : ∀ {l : List GParam} {x : String}, x ∈ glifetimes l ↔ GParam.lifetime x ∈ l
  | [], _ => by simp [glifetimes]
  | .type _ :: l, x => by simp [glifetimes, glifetimes_mem (l := l)]
  | .const _ :: l, x => by simp [glifetimes, glifetimes_mem (l := l)]
  | .lifetime y :: l, x => by simp [glifetimes, glifetimes_mem (l := l)]

theorem glifetimes_first : ∀ {l : List GParam} {x : String} {xs : List String}, glifetimes l = x :: xs →
    ∃ pre post, l = pre ++ .lifetime x :: post ∧ ∀ y, GParam.lifetime y ∉ pre
  | [], x, xs, h => by simp [glifetimes] at h
  | .type t :: l, x, xs, h => by
    obtain ⟨pre, post, e, hp⟩ := glifetimes_first (l := l) h
    exact ⟨.type t :: pre, post, by rw [e]; rfl, fun y => by simp [hp y]⟩
  | .const t :: l, x, xs, h => by
    obtain ⟨pre, post, e, hp⟩ := glifetimes_first (l := l) h
    exact ⟨.const t :: pre, post, by rw [e]; rfl, fun y => by simp [hp y]⟩
  | .lifetime t :: l, x, xs, h => by
    simp only [glifetimes, List.cons.injEq] at h
    exact ⟨[], l, by rw [h.1]; rfl, fun y => by simp⟩

/-- The arguments in the order of the header. -/
def headerArgs (l : List GParam) : List GArg :=
  (glifetimes l).map .lifetime ++ (gtypes l).map .type ++ (gconsts l).map .block

theorem headerArgs_perm : ∀ l : List GParam, (headerArgs l).Perm (l.map GParam.asArg)
  | [] => by simp [headerArgs, glifetimes, gtypes, gconsts]
  | .lifetime x :: l => by
    have := headerArgs_perm l
    simp only [headerArgs, glifetimes, gtypes, gconsts, List.map_cons, List.cons_append, GParam.asArg]
    exact this.cons _
  | .type x :: l => by
    have := headerArgs_perm l
    simp only [headerArgs, glifetimes, gtypes, gconsts, List.map_cons, GParam.asArg] at *
    refine List.Perm.trans ?_ (this.cons _)
    rw [List.append_assoc, List.append_assoc]
    exact List.perm_middle
  | .const x :: l => by
    have := headerArgs_perm l
    simp only [headerArgs, glifetimes, gtypes, gconsts, List.map_cons, GParam.asArg] at *
    exact List.Perm.trans List.perm_middle (this.cons _)

/-- The rank of an argument. -/
def GArg.rank : GArg → Nat
  | .lifetime _ => 0
  | .type _ => 1
  | .block _ => 2

theorem before_iff (a b : GParam) : a.before b ↔ a.asArg.rank ≤ b.asArg.rank := by
  cases a <;> cases b <;> simp [GParam.before, GParam.asArg, GArg.rank]

theorem headerArgs_sorted (l : List GParam) : (headerArgs l).Pairwise (fun a b => a.rank ≤ b.rank) := by
  simp only [headerArgs, List.pairwise_append, List.pairwise_map, GArg.rank, List.mem_append, List.mem_map]
  refine ⟨⟨List.pairwise_of_forall (fun _ _ => le_refl _), List.pairwise_of_forall (fun _ _ => le_refl _), ?_⟩,
    List.pairwise_of_forall (fun _ _ => le_refl _), ?_⟩
  · rintro _ ⟨_, _, rfl⟩ _ ⟨_, _, rfl⟩; simp
  · rintro _ (⟨_, _, rfl⟩ | ⟨_, _, rfl⟩) _ ⟨_, _, rfl⟩ <;> simp

theorem headerArgs_of_sorted : ∀ {l : List GParam}, l.Pairwise GParam.before → headerArgs l = l.map GParam.asArg
  | [], _ => rfl
  | .lifetime x :: l, h => by
    have := headerArgs_of_sorted (List.pairwise_cons.mp h).2
    simp only [headerArgs, glifetimes, gtypes, gconsts, List.map_cons, List.cons_append, GParam.asArg] at *
    rw [this]
  | .type x :: l, h => by
    obtain ⟨h1, h2⟩ := List.pairwise_cons.mp h
    have := headerArgs_of_sorted h2
    have e : glifetimes l = [] := by
      rw [List.eq_nil_iff_forall_not_mem]
      intro y hy
      exact h1 _ (glifetimes_mem.mp hy)
    simp only [headerArgs, glifetimes, gtypes, gconsts, List.map_cons, GParam.asArg, e, List.map_nil, List.nil_append] at *
    rw [← this]; rfl
  | .const x :: l, h => by
    obtain ⟨h1, h2⟩ := List.pairwise_cons.mp h
    have := headerArgs_of_sorted h2
    have e : glifetimes l = [] := by
      rw [List.eq_nil_iff_forall_not_mem]
      intro y hy
      exact h1 _ (glifetimes_mem.mp hy)
    have e' : gtypes l = [] := by
      clear this h
      induction l with
      | nil => rfl
      | cons a l ih =>
        cases a with
        | type y => exact absurd (h1 _ List.mem_cons_self) (by simp [GParam.before])
        | lifetime y => exact absurd (h1 _ List.mem_cons_self) (by simp [GParam.before])
        | const y => exact ih (fun b hb => h1 b (List.mem_cons_of_mem _ hb)) (List.pairwise_cons.mp h2).2 e
    simp only [headerArgs, glifetimes, gtypes, gconsts, List.map_cons, GParam.asArg, e, e', List.map_nil, List.nil_append] at *
    rw [← this]

theorem fieldUpdater_eq : ∀ fs : List Field, fieldUpdater fs = (fs.filter fun f => !attrsSkip f.attrs).map Field.ident
  | [] => rfl
  | f :: fs => by
    simp only [fieldUpdater, List.filter_cons, fieldUpdater_eq fs]
    by_cases h : attrsSkip f.attrs = true <;> simp [h]

/-! ## The references of a value -/

mutual
/-- The references into a tree (for the proofs). -/
def treeRefs : ModelTree α → List (Ref α)
  | .param q => [([], q)]
  | .node fs => treeRefsL 0 fs
  | .skip _ => []
/-- The same for the parts (for the proofs). -/
def treeRefsL : Nat → List (ModelTree α) → List (Ref α)
  | _, [] => []
  | i, t :: ts => ((treeRefs t).map fun e => (i :: e.1, e.2)) ++ treeRefsL (i + 1) ts
end

mutual
theorem treeRefs_fst : ∀ t : ModelTree α, (treeRefs t).map (·.1) = t.paths
  | .param _ => rfl
  | .node fs => treeRefsL_fst 0 fs
  | .skip _ => rfl
theorem treeRefsL_fst : ∀ (i : Nat) (ts : List (ModelTree α)), (treeRefsL i ts).map (·.1) = ModelTree.pathsL i ts
  | _, [] => rfl
  | i, t :: ts => by
    simp only [treeRefsL, ModelTree.pathsL, List.map_append, List.map_map, ← treeRefs_fst t, treeRefsL_fst (i + 1) ts]
    rfl
end

mutual
theorem treeRefs_snd : ∀ t : ModelTree α, (treeRefs t).map (·.2) = t.parameters
  | .param _ => rfl
  | .node fs => treeRefsL_snd 0 fs
  | .skip _ => rfl
theorem treeRefsL_snd : ∀ (i : Nat) (ts : List (ModelTree α)), (treeRefsL i ts).map (·.2) = ModelTree.parametersL ts
  | _, [] => rfl
  | i, t :: ts => by
    simp only [treeRefsL, ModelTree.parametersL, List.map_append, List.map_map, ← treeRefs_snd t, treeRefsL_snd (i + 1) ts]
    rfl
end

/-- Marks the fields of a struct value. -/
def mark : List Field → List (ModelTree α) → List (ModelTree α)
  | f :: fs, t :: ts => (if attrsSkip f.attrs then .skip [t] else t) :: mark fs ts
  | [], _ => []
  | _ :: _, [] => []

mutual
/-- The tree of C45 of a value: marked fields are skipped. -/
def Val.tree : Val α → ModelTree α
  | .param q => .param q
  | .vec vs => .node (treeL vs)
  | .struct it vs => .node (mark it.fields (treeL vs))
  | .other => .node []
/-- The same for the parts. -/
def treeL : List (Val α) → List (ModelTree α)
  | [] => []
  | v :: vs => v.tree :: treeL vs
end

theorem treeL_get : ∀ (vs : List (Val α)) (i : Nat), (treeL vs)[i]? = (vs[i]?).map Val.tree
  | [], i => by simp [treeL]
  | v :: vs, 0 => by simp [treeL]
  | v :: vs, i + 1 => by simp [treeL, treeL_get vs i]

theorem mark_get : ∀ (fs : List Field) (ts : List (ModelTree α)) (i : Nat) (t : ModelTree α), (mark fs ts)[i]? = some t ↔
    ∃ f u, fs[i]? = some f ∧ ts[i]? = some u ∧ t = if attrsSkip f.attrs then .skip [u] else u
  | [], ts, i, t => by simp [mark]
  | f :: fs, [], i, t => by simp [mark]
  | f :: fs, u :: ts, 0, t => by
    simp only [mark, List.getElem?_cons_zero, Option.some.injEq]
    constructor
    · intro h; exact ⟨f, u, rfl, rfl, h.symm⟩
    · rintro ⟨_, _, rfl, rfl, rfl⟩; rfl
  | f :: fs, u :: ts, i + 1, t => by
    simp only [mark, List.getElem?_cons_succ]
    exact mark_get fs ts i t

mutual
theorem reach_tree : ∀ (v : Val α) (x : List Nat) (q : Param α), v.tree.Has x q ↔ Reach v x q
  | .param q0, x, q => by
    constructor
    · intro h; cases h; exact .here _
    · intro h; cases h; exact .here _
  | .other, x, q => by
    constructor
    · intro h; cases h with | field h _ => simp at h
    · intro h; cases h
  | .vec vs, x, q => by
    constructor
    · intro h
      cases h with
      | field h1 h2 =>
        rw [treeL_get, Option.map_eq_some_iff] at h1
        obtain ⟨v, h1, rfl⟩ := h1
        exact .elem h1 ((reachL_tree vs _ v h1 _ q).mp h2)
    · intro h
      cases h with
      | elem h1 h2 => exact .field (by rw [treeL_get, h1]; rfl) ((reachL_tree vs _ _ h1 _ q).mpr h2)
  | .struct it vs, x, q => by
    constructor
    · intro h
      cases h with
      | field h1 h2 =>
        obtain ⟨f, u, e1, e2, e3⟩ := (mark_get _ _ _ _).mp h1
        rw [treeL_get, Option.map_eq_some_iff] at e2
        obtain ⟨v, e2, rfl⟩ := e2
        by_cases hm : attrsSkip f.attrs = true
        · rw [if_pos hm] at e3
          subst e3
          cases h2
        · rw [if_neg hm] at e3
          subst e3
          have hf : ∃ fs, it.data = .struct (.named fs) ∧ it.fields = fs := by
            unfold Item.fields at e1 ⊢
            split at e1
            · rename_i fs h; exact ⟨fs, h, rfl⟩
            all_goals simp at e1
          obtain ⟨fs, hf1, hf2⟩ := hf
          rw [hf2] at e1
          exact .field hf1 e1 e2 (fun h => hm (marked_iff.mpr h)) ((reachL_tree vs _ v e2 _ q).mp h2)
    · intro h
      cases h with
      | field h0 h1 h2 h3 h4 =>
        rename_i fs i f v path
        have hf : it.fields = fs := by simp only [Item.fields, h0]
        have hm : ¬attrsSkip f.attrs = true := fun h => h3 (marked_iff.mp h)
        exact .field ((mark_get _ _ _ _).mpr ⟨f, v.tree, by rw [hf]; exact h1, by rw [treeL_get, h2]; rfl, by rw [if_neg hm]⟩)
          ((reachL_tree vs _ v h2 _ q).mpr h4)
theorem reachL_tree : ∀ (vs : List (Val α)) (i : Nat) (v : Val α), vs[i]? = some v → ∀ (x : List Nat) (q : Param α), v.tree.Has x q ↔ Reach v x q
  | [], i, v, h, _, _ => by simp at h
  | w :: vs, 0, v, h, x, q => by
    simp only [List.getElem?_cons_zero, Option.some.injEq] at h
    subst h
    exact reach_tree w x q
  | w :: vs, i + 1, v, h, x, q => reachL_tree vs i v (by simpa using h) x q
end

/-- What the statements of a body give, field by field (for the proofs). -/
def bodyRefs : List Field → List (Option (List (Ref α))) → Nat → Option (List (Ref α))
  | f :: fs, r :: rs, i =>
    if attrsSkip f.attrs then bodyRefs fs rs (i + 1)
    else match r with
      | none => none
      | some l => match bodyRefs fs rs (i + 1) with
        | none => none
        | some l' => some ((l.map fun e => (i :: e.1, e.2)) ++ l')
  | [], _, _ => some []
  | _ :: _, [], _ => none

theorem runBody_eq : ∀ (fs : List Field) (rs : List (Option (List (Ref α)))) (i : Nat) (env : String → Option (List (Ref α))),
    rs.length = fs.length → (fs.map Field.ident).Nodup → (∀ f ∈ fs, env f.ident = lookup fs rs i f.ident) →
    runBody (fieldUpdater fs) env = bodyRefs fs rs i
  | [], rs, i, env, _, _, _ => by simp [fieldUpdater, runBody, bodyRefs]
  | f :: fs, [], i, env, h, _, _ => by simp at h
  | f :: fs, r :: rs, i, env, h, hn, he => by
    simp only [List.map_cons, List.nodup_cons] at hn
    have ih := runBody_eq fs rs (i + 1) env (by simpa using h) hn.2 (fun g hg => by
      rw [he g (List.mem_cons_of_mem _ hg)]
      simp only [lookup]
      rw [if_neg]
      intro e
      exact hn.1 (e ▸ List.mem_map_of_mem hg))
    have hf := he f List.mem_cons_self
    simp only [lookup, if_true] at hf
    simp only [fieldUpdater, bodyRefs]
    by_cases hm : attrsSkip f.attrs = true
    · rw [if_pos hm, if_pos hm, ih]
    · rw [if_neg hm, if_neg hm]
      simp only [runBody, hf, ih]
      cases r with
      | none => rfl
      | some l =>
        simp only [Option.map_some]
        cases bodyRefs fs rs (i + 1) <;> rfl

theorem bodyRefs_some : ∀ (fs : List Field) (vs : List (Val α)) (rs : List (Option (List (Ref α)))) (i : Nat) (l : List (Ref α)),
    rs.length = vs.length → (∀ (k : Nat) v r, vs[k]? = some v → rs[k]? = some (some r) → r = treeRefs v.tree) →
    bodyRefs fs rs i = some l → l = treeRefsL i (mark fs (treeL vs))
  | [], vs, rs, i, l, _, _, h => by
    simp only [bodyRefs, Option.some.injEq] at h
    simp [mark, treeRefsL, ← h]
  | f :: fs, vs, [], i, l, _, _, h => by simp [bodyRefs] at h
  | f :: fs, [], r :: rs, i, l, hl, _, h => by simp at hl
  | f :: fs, v :: vs, r :: rs, i, l, hl, hr, h => by
    have hr' : ∀ (k : Nat) v r, vs[k]? = some v → rs[k]? = some (some r) → r = treeRefs v.tree := fun k v r e1 e2 =>
      hr (k + 1) v r (by simpa using e1) (by simpa using e2)
    simp only [bodyRefs] at h
    simp only [treeL, mark, treeRefsL]
    by_cases hm : attrsSkip f.attrs = true
    · rw [if_pos hm] at h
      rw [if_pos hm, bodyRefs_some fs vs rs (i + 1) l (by simpa using hl) hr' h]
      rfl
    · rw [if_neg hm] at h
      rw [if_neg hm]
      cases r with
      | none => simp at h
      | some r =>
        simp only at h
        cases hb : bodyRefs fs rs (i + 1) with
        | none => rw [hb] at h; simp at h
        | some l' =>
          rw [hb] at h
          simp only [Option.some.injEq] at h
          rw [← h, bodyRefs_some fs vs rs (i + 1) l' (by simpa using hl) hr' hb, hr 0 v r rfl rfl]

theorem bodyRefs_isSome : ∀ (fs : List Field) (rs : List (Option (List (Ref α)))) (i : Nat), rs.length = fs.length →
    ((∃ l, bodyRefs fs rs i = some l) ↔ ∀ (k : Nat) f r, fs[k]? = some f → rs[k]? = some r → ¬f.Marked → ∃ l, r = some l)
  | [], rs, i, h => by simp [bodyRefs]
  | f :: fs, [], i, h => by simp at h
  | f :: fs, r :: rs, i, h => by
    have ih := bodyRefs_isSome fs rs (i + 1) (by simpa using h)
    have hsplit : (∀ (k : Nat) g s, (f :: fs)[k]? = some g → (r :: rs)[k]? = some s → ¬g.Marked → ∃ l, s = some l) ↔
        (¬f.Marked → ∃ l, r = some l) ∧ ∀ (k : Nat) f r, fs[k]? = some f → rs[k]? = some r → ¬f.Marked → ∃ l, r = some l := by
      constructor
      · intro h
        exact ⟨h 0 f r rfl rfl, fun k g s e1 e2 => h (k + 1) g s (by simpa using e1) (by simpa using e2)⟩
      · rintro ⟨h1, h2⟩ k g s e1 e2
        cases k with
        | zero =>
          simp only [List.getElem?_cons_zero, Option.some.injEq] at e1 e2
          subst e1 e2
          exact h1
        | succ k => exact h2 k g s (by simpa using e1) (by simpa using e2)
    rw [hsplit, ← ih]
    simp only [bodyRefs]
    by_cases hm : attrsSkip f.attrs = true
    · rw [if_pos hm]
      simp [marked_iff.mp hm]
    · rw [if_neg hm]
      have : ¬f.Marked := fun h => hm (marked_iff.mpr h)
      cases r with
      | none => simp [this]
      | some r =>
        cases hb : bodyRefs fs rs (i + 1) with
        | none => simp
        | some l' => simp

theorem chain_some : ∀ (vs : List (Val α)) (rs : List (Option (List (Ref α)))) (i : Nat) (l : List (Ref α)),
    rs.length = vs.length → (∀ (k : Nat) v r, vs[k]? = some v → rs[k]? = some (some r) → r = treeRefs v.tree) →
    chain rs i = some l → l = treeRefsL i (treeL vs)
  | [], [], i, l, _, _, h => by
    simp only [chain, Option.some.injEq] at h
    simp [treeL, treeRefsL, ← h]
  | [], r :: rs, i, l, hl, _, h => by simp at hl
  | v :: vs, [], i, l, hl, _, h => by simp at hl
  | v :: vs, none :: rs, i, l, hl, hr, h => by simp [chain] at h
  | v :: vs, some r :: rs, i, l, hl, hr, h => by
    simp only [chain] at h
    cases hb : chain rs (i + 1) with
    | none => rw [hb] at h; simp at h
    | some l' =>
      rw [hb] at h
      simp only [Option.some.injEq] at h
      simp only [treeL, treeRefsL]
      rw [← h, chain_some vs rs (i + 1) l' (by simpa using hl)
        (fun k v r e1 e2 => hr (k + 1) v r (by simpa using e1) (by simpa using e2)) hb, hr 0 v r rfl rfl]

theorem chain_isSome : ∀ (rs : List (Option (List (Ref α)))) (i : Nat), (∃ l, chain rs i = some l) ↔ ∀ r ∈ rs, ∃ l, r = some l
  | [], i => by simp [chain]
  | none :: rs, i => by simp [chain]
  | some r :: rs, i => by
    have ih := chain_isSome rs (i + 1)
    simp only [List.mem_cons, forall_eq_or_imp, ← ih, chain]
    cases hb : chain rs (i + 1) <;> simp

theorem refsL_eq : ∀ vs : List (Val α), refsL vs = vs.map refs
  | [] => by simp [refsL]
  | v :: vs => by simp [refsL, refsL_eq vs]

mutual
theorem refsMut_eq : ∀ v : Val α, refsMut v = refs v
  | .param q => by simp [refs, refsMut]
  | .other => by simp [refs, refsMut]
  | .vec vs => by simp only [refs, refsMut, refsMutL_eq vs]
  | .struct it vs => by
    simp only [refs, refsMut, refsMutL_eq vs]
    cases h : deriveModel it with
    | ok im =>
      simp only
      have : im.parametersMut = im.parameters := by
        unfold deriveModel at h
        split at h
        · split at h
          · cases h
          · cases h; rfl
        all_goals cases h
      rw [this]
    | panic => rfl
    | ub => rfl
theorem refsMutL_eq : ∀ vs : List (Val α), refsMutL vs = refsL vs
  | [] => by simp [refsL, refsMutL]
  | v :: vs => by simp only [refsL, refsMutL, refsMut_eq v, refsMutL_eq vs]
end

theorem deriveModel_named {it : Item} {fs : List Field} (h : it.data = .struct (.named fs)) :
    ((∃ x, GParam.lifetime x ∈ it.generics) ∧ ∃ im, deriveModel it = ok im ∧ im.parameters = fieldUpdater fs) ∨
      ((¬∃ x, GParam.lifetime x ∈ it.generics) ∧ deriveModel it = Res.panic) := by
  simp only [deriveModel, h]
  cases hg : glifetimes it.generics with
  | nil =>
    right
    refine ⟨?_, rfl⟩
    rintro ⟨x, hx⟩
    have := glifetimes_mem.mpr hx
    rw [hg] at this
    simp at this
  | cons x xs => exact .inl ⟨⟨x, glifetimes_mem.mp (by rw [hg]; exact List.mem_cons_self)⟩, _, rfl, rfl⟩

theorem refs_tree {v : Val α} (ht : Typed v) : ∀ l, refs v = some l → l = treeRefs v.tree := by
  induction ht with
  | param q => intro l h; simp only [refs, Option.some.injEq] at h; rw [← h]; rfl
  | other => intro l h; simp [refs] at h
  | vec hv ih =>
    rename_i vs
    intro l h
    simp only [refs, refsL_eq] at h
    refine chain_some vs _ 0 l (by simp) (fun k v r e1 e2 => ?_) h
    rw [List.getElem?_map, e1] at e2
    simp only [Option.map_some, Option.some.injEq] at e2
    exact ih v (List.mem_of_getElem? e1) r e2
  | struct hd hn hl hv ih =>
    rename_i it fs vs
    intro l h
    simp only [refs, refsL_eq] at h
    have hf : it.fields = fs := by simp only [Item.fields, hd]
    rcases deriveModel_named hd with ⟨_, im, e1, e2⟩ | ⟨_, e1⟩
    · rw [e1] at h
      simp only [e2, hf] at h
      rw [runBody_eq fs _ 0 _ (by simpa using hl) hn (fun _ _ => rfl)] at h
      simp only [Val.tree, treeRefs, hf]
      refine bodyRefs_some fs vs _ 0 l (by simp) (fun k v r e1 e2 => ?_) h
      rw [List.getElem?_map, e1] at e2
      simp only [Option.map_some, Option.some.injEq] at e2
      exact ih v (List.mem_of_getElem? e1) r e2
    · rw [e1] at h
      simp at h

theorem refs_isSome {v : Val α} (ht : Typed v) : (∃ l, refs v = some l) ↔ IsModel v := by
  induction ht with
  | param q => exact ⟨fun _ => .param q, fun _ => ⟨_, by rw [refs]⟩⟩
  | other => exact ⟨fun ⟨l, h⟩ => (by simp [refs] at h), fun h => (by cases h)⟩
  | vec hv ih =>
    rename_i vs
    simp only [refs, refsL_eq, chain_isSome, List.mem_map, forall_exists_index, and_imp, forall_apply_eq_imp_iff₂]
    constructor
    · intro h
      exact .vec fun v hv => (ih v hv).mp (h v hv)
    · intro h
      cases h with
      | vec h => exact fun v hv => (ih v hv).mpr (h v hv)
  | struct hd hn hl hv ih =>
    rename_i it fs vs
    simp only [refs, refsL_eq]
    have hf : it.fields = fs := by simp only [Item.fields, hd]
    rcases deriveModel_named hd with ⟨h0, im, e1, e2⟩ | ⟨h0, e1⟩
    · rw [e1]
      simp only [e2, hf]
      rw [runBody_eq fs _ 0 _ (by simpa using hl) hn (fun _ _ => rfl), bodyRefs_isSome fs _ 0 (by simpa using hl)]
      constructor
      · intro h
        exact .struct hd h0 fun i f v a b c => (ih v (List.mem_of_getElem? b)).mp
          (h i f (refs v) a (by rw [List.getElem?_map, b]; rfl) c)
      · intro h
        cases h with
        | struct hd' _ h =>
          rw [hd] at hd'
          cases hd'
          intro k f r a b c
          rw [List.getElem?_map, Option.map_eq_some_iff] at b
          obtain ⟨v, b, rfl⟩ := b
          exact (ih v (List.mem_of_getElem? b)).mpr (h k f v a b c)
    · rw [e1]
      constructor
      · rintro ⟨l, h⟩
        simp at h
      · intro h
        cases h with
        | struct _ h0' _ => exact absurd h0' h0

/-! ## The properties -/

/-- C64: the macro accepts exactly the structs with named fields and at least one lifetime parameter; on everything else it panics. -/
theorem C64_accepts (it : Item) :
    ((∃ im, deriveModel it = ok im) ↔ (∃ fs, it.data = .struct (.named fs)) ∧ ∃ x, GParam.lifetime x ∈ it.generics) ∧
      ((¬∃ im, deriveModel it = ok im) → deriveModel it = Res.panic) := by
  cases hd : it.data with
  | struct fs =>
    cases fs with
    | named fs =>
      rcases deriveModel_named hd with ⟨h0, im, e1, _⟩ | ⟨h0, e1⟩
      · exact ⟨⟨fun _ => ⟨⟨fs, rfl⟩, h0⟩, fun _ => ⟨im, e1⟩⟩, fun h => absurd ⟨im, e1⟩ h⟩
      · refine ⟨⟨fun ⟨im, h⟩ => ?_, fun h => absurd h.2 h0⟩, fun _ => e1⟩
        rw [e1] at h
        cases h
    | unnamed n => simp [deriveModel, hd]
    | unit => simp [deriveModel, hd]
  | enum => simp [deriveModel, hd]
  | union => simp [deriveModel, hd]

/-- C64: the header of the generated block: generic parameters, name and where clause are those of the declaration, the trait's lifetime is the
first declared one, and the arguments of the type are the declared parameters, each once, lifetimes first, then types, then constants. -/
theorem C64_header {it : Item} {im : Impl} (h : deriveModel it = ok im) :
    im.implParams = it.generics ∧ im.selfName = it.name ∧ im.whereClause = it.whereClause ∧
      (∃ pre post, it.generics = pre ++ .lifetime im.traitLifetime :: post ∧ ∀ y, GParam.lifetime y ∉ pre) ∧
      im.selfArgs.Perm (it.generics.map GParam.asArg) := by
  unfold deriveModel at h
  split at h
  · split at h
    · cases h
    · rename_i l ls hg
      cases h
      refine ⟨rfl, rfl, rfl, glifetimes_first hg, ?_⟩
      have := headerArgs_perm it.generics
      unfold headerArgs at this
      rw [hg] at this
      exact this
  all_goals cases h

/-- C64: the type in the header is the declared type (its arguments are the parameters in the declared order) if and only if the declaration has
no lifetime after a type or a constant and no type after a constant.  So the macro does not work on `struct S<'a, const N: usize, T>`. -/
theorem C64_header_order {it : Item} {im : Impl} (h : deriveModel it = ok im) :
    im.selfArgs = it.generics.map GParam.asArg ↔ it.generics.Pairwise GParam.before := by
  have hargs : im.selfArgs = headerArgs it.generics := by
    unfold deriveModel at h
    split at h
    · split at h
      · cases h
      · rename_i l ls hg
        cases h
        simp only [headerArgs, hg]
    all_goals cases h
  rw [hargs]
  constructor
  · intro e
    have := headerArgs_sorted it.generics
    rw [e, List.pairwise_map] at this
    exact this.imp fun h => (before_iff _ _).mpr h
  · exact headerArgs_of_sorted

open Classical in
/-- C64: both methods visit exactly the fields without `#[parameter(.., skip, ..)]`, in the declared order. -/
theorem C64_fields {it : Item} {im : Impl} {fs : List Field} (h : deriveModel it = ok im) (hd : it.data = .struct (.named fs)) :
    im.parameters = (fs.filter fun f => ¬f.Marked).map Field.ident ∧
      im.parametersMut = (fs.filter fun f => ¬f.Marked).map Field.ident := by
  have e : fieldUpdater fs = (fs.filter fun f => ¬f.Marked).map Field.ident := by
    rw [fieldUpdater_eq]
    congr 1
    refine List.filter_congr fun f _ => ?_
    by_cases hm : f.Marked
    · simp [hm, marked_iff.mpr hm]
    · have : attrsSkip f.attrs = false := by
        rw [Bool.eq_false_iff]
        exact fun h => hm (marked_iff.mp h)
      simp [hm, this]
  simp only [deriveModel, hd] at h
  split at h
  · cases h
  · cases h
    exact ⟨e, e⟩

/-- C64: no other attribute skips a field: a field whose attributes are all of the forms `#[parameter]`, `#[parameter = ..]`, another path, an
unparsable one, or `#[parameter(..)]` around literals, `skip = ..`, `skip(..)` and paths other than `skip` is visited. -/
theorem C64_other_attributes {f : Field}
    (h : ∀ a ∈ f.attrs, ∀ p nested, a = some (.list p nested) → p = ⟨false, ["parameter"]⟩ →
      ∀ n ∈ nested, n = .lit ∨ (∃ p ns, n = .item (.list p ns)) ∨ (∃ p, n = .item (.nameValue p)) ∨
        ∃ p, n = .item (.path p) ∧ p ≠ ⟨false, ["skip"]⟩) : ¬f.Marked := by
  rintro ⟨ns, h1, h2⟩
  rcases h _ h1 _ ns rfl rfl _ h2 with h | ⟨p, ns, h⟩ | ⟨p, h⟩ | ⟨p, h, hp⟩
  · cases h
  · cases h
  · cases h
  · cases h
    exact hp rfl

/-- C64: on every value, `parameters()` compiles exactly if all its unmarked parts are models; it then lists exactly the reachable parameters,
each once, in the order of the places; and `parameters_mut()` lists the same. -/
theorem C64_enumeration {v : Val α} (ht : Typed v) :
    refsMut v = refs v ∧ ((∃ l, refs v = some l) ↔ IsModel v) ∧
      ∀ l, refs v = some l → (l.map (·.1)).Pairwise (· < ·) ∧ ∀ x q, (x, q) ∈ l ↔ Reach v x q := by
  refine ⟨refsMut_eq v, refs_isSome ht, fun l hl => ?_⟩
  obtain rfl := refs_tree ht l hl
  refine ⟨by rw [treeRefs_fst]; exact ModelTree.paths_sorted _, fun x q => ?_⟩
  rw [← reach_tree, ModelTree.has_iff, ← treeRefs_fst, ← treeRefs_snd]
  constructor
  · intro h
    obtain ⟨k, hk⟩ := List.mem_iff_getElem?.mp h
    exact ⟨k, by rw [List.getElem?_map, hk]; rfl, by rw [List.getElem?_map, hk]; rfl⟩
  · rintro ⟨k, h1, h2⟩
    rw [List.getElem?_map, Option.map_eq_some_iff] at h1 h2
    obtain ⟨e, h1, rfl⟩ := h1
    obtain ⟨e', h2, rfl⟩ := h2
    rw [h1] at h2
    cases h2
    exact List.mem_iff_getElem?.mpr ⟨k, h1⟩

/-- C64: the generated code agrees with the enumeration of C45 on the tree in which the marked fields are the skipped ones, so everything proved
there about moving, configuring and updating whole models holds for derived types. -/
theorem C64_agrees {v : Val α} (ht : Typed v) {l : List (Ref α)} (hl : refs v = some l) :
    l.map (·.2) = v.tree.parameters ∧ ∀ x q, v.tree.Has x q ↔ Reach v x q := by
  obtain rfl := refs_tree ht l hl
  exact ⟨treeRefs_snd _, reach_tree v⟩

/-! ## Examples -/

/-- `#[parameter(skip)]`. -/
def skipAttr : Option Meta := some (.list ⟨false, ["parameter"]⟩ [.lit, .item (.path ⟨false, ["skip"]⟩)])

/-- `struct M<'d, T> { a: .., #[parameter(skip)] b: .., #[parameter] c: .. }`. -/
def exItem : Item :=
  { name := "M", generics := [.lifetime "d", .type "T"], whereClause := none
    data := .struct (.named [⟨"a", []⟩, ⟨"b", [skipAttr]⟩, ⟨"c", [none, some (.path ⟨false, ["parameter"]⟩)]⟩]) }

example : deriveModel exItem = ok
    { implParams := [.lifetime "d", .type "T"], traitLifetime := "d", selfName := "M", selfArgs := [.lifetime "d", .type "T"]
      whereClause := none, parameters := ["a", "c"], parametersMut := ["a", "c"] } := by decide +kernel

/-- Without a lifetime the macro panics, and with a constant before a type the header names another type. -/
example : deriveModel { exItem with generics := [.type "T"] } = Res.panic := by decide +kernel
example : (∃ im, deriveModel { exItem with generics := [.lifetime "d", .const "N", .type "T"] } = ok im) ∧
    ¬([.lifetime "d", .const "N", .type "T"] : List GParam).Pairwise GParam.before :=
  ⟨⟨_, rfl⟩, by simp [GParam.before]⟩
example : deriveModel { exItem with data := .enum } = Res.panic := by decide +kernel

/-- A field with `#[parameter(skip = true)]` is visited. -/
example : ¬(Field.mk "x" [some (.list ⟨false, ["parameter"]⟩ [.item (.nameValue ⟨false, ["skip"]⟩)])]).Marked :=
  C64_other_attributes fun a ha p ns e _ n hn => by
    simp only [List.mem_singleton] at ha
    subst ha
    simp only [Option.some.injEq, Meta.list.injEq] at e
    rw [← e.2] at hn
    simp only [List.mem_singleton] at hn
    exact .inr (.inr (.inl ⟨_, hn⟩))

/-- A value of that type: its first field is a vector of parameters, its last one a value of the same type. -/
example (q q' : Param α) :
    let v : Val α := .struct exItem [.vec [.param q, .param q'], .other, .struct exItem [.param q', .other, .vec []]]
    Typed v ∧ refs v = some [([0, 0], q), ([0, 1], q'), ([2, 0], q')] := by
  have hfs : exItem.data = .struct (.named [⟨"a", []⟩, ⟨"b", [skipAttr]⟩, ⟨"c", [none, some (.path ⟨false, ["parameter"]⟩)]⟩]) := rfl
  refine ⟨.struct hfs (by simp) rfl ?_, rfl⟩
  have hp : ∀ q : Param α, Typed (.param q) := .param
  intro v hv
  simp only [List.mem_cons, List.not_mem_nil, or_false] at hv
  rcases hv with rfl | rfl | rfl
  · refine .vec fun v hv => ?_
    simp only [List.mem_cons, List.not_mem_nil, or_false] at hv
    rcases hv with rfl | rfl <;> exact hp _
  · exact .other
  · refine .struct hfs (by simp) rfl ?_
    intro v hv
    simp only [List.mem_cons, List.not_mem_nil, or_false] at hv
    rcases hv with rfl | rfl | rfl
    · exact hp _
    · exact .other
    · exact .vec fun v hv => (by simp at hv)

end Derive
end Verif
