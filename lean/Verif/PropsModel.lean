import Verif.OptLemmas2
import Verif.PropsSerde
import Verif.PropsOpt

/-!
# Properties of models (C45)

A place in a model is named by the numbers of the fields (or elements of a `Vec`) on the way to it.
-/

set_option linter.unusedSectionVars false

namespace Verif
open Res

namespace ModelTree
variable {α : Type}

/-- The parameter `q` is at the place `path` of the model, not inside a field that is marked `#[parameter(skip)]`. -/
inductive Has : ModelTree α → List Nat → Param α → Prop
  | here (q : Param α) : Has (param q) [] q
  | field {fs : List (ModelTree α)} {i : Nat} {t : ModelTree α} {path : List Nat} {q : Param α} :
    fs[i]? = some t → Has t path q → Has (node fs) (i :: path) q

/-- The field at the place `path` of the model is marked `#[parameter(skip)]` and contains `c`. -/
inductive Skips : ModelTree α → List Nat → List (ModelTree α) → Prop
  | here (c : List (ModelTree α)) : Skips (skip c) [] c
  | field {fs : List (ModelTree α)} {i : Nat} {t : ModelTree α} {path : List Nat} {c : List (ModelTree α)} :
    fs[i]? = some t → Skips t path c → Skips (node fs) (i :: path) c

mutual
/-- The places of the parameters (for the proofs). -/
def paths : ModelTree α → List (List Nat)
  | param _ => [[]]
  | node fs => pathsL 0 fs
  | skip _ => []
/-- The places in a list of fields (for the proofs). -/
def pathsL : Nat → List (ModelTree α) → List (List Nat)
  | _, [] => []
  | i, t :: ts => (paths t).map (i :: ·) ++ pathsL (i + 1) ts
end

mutual
theorem paths_length : ∀ t : ModelTree α, t.paths.length = t.parameters.length
  | param _ => rfl
  | node fs => pathsL_length 0 fs
  | skip _ => rfl
theorem pathsL_length : ∀ (i : Nat) (fs : List (ModelTree α)), (pathsL i fs).length = (parametersL fs).length
  | _, [] => rfl
  | i, t :: ts => by
    simp only [pathsL, parametersL, List.length_append, List.length_map, paths_length t, pathsL_length (i + 1) ts]
end

theorem pathsL_ge : ∀ (i : Nat) (fs : List (ModelTree α)) (x : List Nat), x ∈ pathsL i fs → ∃ j l, x = j :: l ∧ i ≤ j
  | _, [], x, h => by simp [pathsL] at h
  | i, t :: ts, x, h => by
    simp only [pathsL, List.mem_append, List.mem_map] at h
    rcases h with ⟨l, _, rfl⟩ | h
    · exact ⟨i, l, rfl, le_refl _⟩
    · obtain ⟨j, l, rfl, hj⟩ := pathsL_ge (i + 1) ts x h
      exact ⟨j, l, rfl, by omega⟩

mutual
theorem paths_sorted : ∀ t : ModelTree α, t.paths.Pairwise (· < ·)
  | param _ => by simp [paths]
  | node fs => pathsL_sorted 0 fs
  | skip _ => by simp [paths]
theorem pathsL_sorted : ∀ (i : Nat) (fs : List (ModelTree α)), (pathsL i fs).Pairwise (· < ·)
  | _, [] => by simp [pathsL]
  | i, t :: ts => by
    simp only [pathsL]
    rw [List.pairwise_append]
    refine ⟨?_, pathsL_sorted (i + 1) ts, ?_⟩
    · rw [List.pairwise_map]
      exact (paths_sorted t).imp fun h => List.Lex.cons h
    · intro a ha b hb
      obtain ⟨l, _, rfl⟩ := List.mem_map.mp ha
      obtain ⟨j, l', rfl, hj⟩ := pathsL_ge (i + 1) ts b hb
      exact List.Lex.rel (by omega)
end

mutual
theorem has_iff : ∀ (t : ModelTree α) (x : List Nat) (q : Param α),
    t.Has x q ↔ ∃ k : Nat, t.paths[k]? = some x ∧ t.parameters[k]? = some q
  | param q0, x, q => by
    constructor
    · intro h; cases h; exact ⟨0, rfl, rfl⟩
    · rintro ⟨k, h1, h2⟩
      cases k with
      | zero =>
        simp only [paths, parameters, List.getElem?_cons_zero, Option.some.injEq] at h1 h2
        subst h1 h2; exact .here _
      | succ k => simp [paths] at h1
  | node fs, x, q => by
    rw [show (node fs).paths = pathsL 0 fs from rfl, show (node fs).parameters = parametersL fs from rfl, ← hasL_iff 0 fs x q]
    constructor
    · intro h; cases h with
      | field h1 h2 => exact ⟨_, _, _, (Nat.zero_add _).symm ▸ rfl, h1, h2⟩
    · rintro ⟨i, t, l, rfl, h1, h2⟩
      rw [Nat.zero_add]
      exact .field h1 h2
  | skip c, x, q => by
    constructor
    · intro h; cases h
    · rintro ⟨k, h1, _⟩; simp [paths] at h1
theorem hasL_iff : ∀ (n : Nat) (fs : List (ModelTree α)) (x : List Nat) (q : Param α),
    (∃ (i : Nat) (t : ModelTree α) (l : List Nat), x = (n + i) :: l ∧ fs[i]? = some t ∧ t.Has l q) ↔
      ∃ k : Nat, (pathsL n fs)[k]? = some x ∧ (parametersL fs)[k]? = some q
  | n, [], x, q => by simp [pathsL]
  | n, t :: ts, x, q => by
    have hl : (t.paths.map (n :: ·)).length = t.parameters.length := by rw [List.length_map, paths_length]
    simp only [pathsL, parametersL]
    constructor
    · rintro ⟨i, t', l, rfl, h1, h2⟩
      cases i with
      | zero =>
        simp only [List.getElem?_cons_zero, Option.some.injEq] at h1
        subst h1
        obtain ⟨k, e1, e2⟩ := (has_iff t l q).mp h2
        have hk := (List.getElem?_eq_some_iff.mp e2).1
        exact ⟨k, by rw [List.getElem?_append_left (by omega), List.getElem?_map, e1]; rfl, by rw [List.getElem?_append_left hk, e2]⟩
      | succ i =>
        obtain ⟨k, e1, e2⟩ := (hasL_iff (n + 1) ts ((n + (i + 1)) :: l) q).mp ⟨i, t', l, by congr 1; omega, by simpa using h1, h2⟩
        refine ⟨t.parameters.length + k, ?_, ?_⟩
        · rw [List.getElem?_append_right (by omega), hl, Nat.add_sub_cancel_left, e1]
        · rw [List.getElem?_append_right (by omega), Nat.add_sub_cancel_left, e2]
    · rintro ⟨k, e1, e2⟩
      by_cases hk : k < t.parameters.length
      · rw [List.getElem?_append_left (by omega), List.getElem?_map, Option.map_eq_some_iff] at e1
        rw [List.getElem?_append_left hk] at e2
        obtain ⟨l, e1, rfl⟩ := e1
        exact ⟨0, t, l, rfl, rfl, (has_iff t l q).mpr ⟨k, e1, e2⟩⟩
      · rw [List.getElem?_append_right (by omega), hl] at e1
        rw [List.getElem?_append_right (by omega)] at e2
        obtain ⟨i, t', l, rfl, h1, h2⟩ := (hasL_iff (n + 1) ts x q).mpr ⟨_, e1, e2⟩
        exact ⟨i + 1, t', l, by congr 1; omega, by simpa using h1, h2⟩
end

mutual
theorem assign_spec : ∀ (t : ModelTree α) (l l' : List (Param α)), l.length = t.parameters.length →
    (t.assign (l ++ l')).2 = l' ∧ (t.assign (l ++ l')).1.parameters = l ∧ (t.assign (l ++ l')).1.paths = t.paths ∧
      ∀ x c, (t.assign (l ++ l')).1.Skips x c ↔ t.Skips x c
  | param q, l, l', h => by
    obtain ⟨q', rfl⟩ : ∃ q', l = [q'] := List.length_eq_one_iff.mp h
    refine ⟨rfl, rfl, rfl, fun x c => Iff.intro (fun h => ?_) (fun h => ?_)⟩
    · change (ModelTree.param q').Skips x c at h
      cases h
    · cases h
  | node fs, l, l', h => by
    obtain ⟨h1, h2, h3, h4⟩ := assignL_spec fs l l' h
    refine ⟨h1, h2, h3 0, fun x c => ⟨fun h => ?_, fun h => ?_⟩⟩
    · cases h with
      | field e1 e2 =>
        obtain ⟨t, e3, e4⟩ := (h4 _ _ c).mp ⟨_, e1, e2⟩
        exact .field e3 e4
    · cases h with
      | field e1 e2 =>
        obtain ⟨t, e3, e4⟩ := (h4 _ _ c).mpr ⟨_, e1, e2⟩
        exact .field e3 e4
  | skip c, l, l', h => by
    obtain rfl : l = [] := List.length_eq_zero_iff.mp h
    exact ⟨rfl, rfl, rfl, fun x c => Iff.rfl⟩
theorem assignL_spec : ∀ (fs : List (ModelTree α)) (l l' : List (Param α)), l.length = (parametersL fs).length →
    (assignL fs (l ++ l')).2 = l' ∧ parametersL (assignL fs (l ++ l')).1 = l ∧ (∀ i, pathsL i (assignL fs (l ++ l')).1 = pathsL i fs) ∧
      ∀ (i : Nat) x c, (∃ t, (assignL fs (l ++ l')).1[i]? = some t ∧ t.Skips x c) ↔ ∃ t, fs[i]? = some t ∧ t.Skips x c
  | [], l, l', h => by
    obtain rfl : l = [] := List.length_eq_zero_iff.mp h
    exact ⟨rfl, rfl, fun _ => rfl, fun i x c => Iff.rfl⟩
  | t :: ts, l, l', h => by
    simp only [parametersL, List.length_append] at h
    obtain ⟨l1, l2, rfl, hl1⟩ : ∃ l1 l2, l = l1 ++ l2 ∧ l1.length = t.parameters.length :=
      ⟨l.take t.parameters.length, l.drop t.parameters.length, (List.take_append_drop _ _).symm, by rw [List.length_take]; omega⟩
    rw [List.length_append] at h
    obtain ⟨h1, h2, h3, h4⟩ := assign_spec t l1 (l2 ++ l') hl1
    obtain ⟨k1, k2, k3, k4⟩ := assignL_spec ts l2 l' (by omega)
    simp only [assignL, List.append_assoc]
    rw [h1]
    refine ⟨k1, by simp only [parametersL, h2, k2], fun i => by simp only [pathsL, h3, k3], fun i x c => ?_⟩
    cases i with
    | zero => simpa using h4 x c
    | succ i => simpa using k4 i x c
end

theorem assign_whole (t : ModelTree α) (l : List (Param α)) (h : l.length = t.parameters.length) :
    (t.assign l).1.parameters = l ∧ (t.assign l).1.paths = t.paths ∧ ∀ x c, (t.assign l).1.Skips x c ↔ t.Skips x c := by
  have := (assign_spec t l [] h).2
  rwa [List.append_nil] at this

end ModelTree

section
variable {α : Type}
open ModelTree

/-- C45: `parameters()` of any nesting of models lists exactly the parameters that are not in a skipped field, each place once, in the order of
the declaration (the lexicographic order of the places); and `parameters_mut()` gives access to the same places in the same order: writing `l`
through its references puts the k-th new parameter where the k-th parameter was, and leaves the structure and all skipped fields as they are. -/
theorem C45_enumeration (t : ModelTree α) :
    ∃ places : List (List Nat), places.length = t.parameters.length ∧ places.Pairwise (· < ·) ∧
      (∀ x q, t.Has x q ↔ ∃ k : Nat, places[k]? = some x ∧ t.parameters[k]? = some q) ∧
      ∀ l : List (Param α), l.length = t.parameters.length →
        (∀ x q, (t.assign l).1.Has x q ↔ ∃ k : Nat, places[k]? = some x ∧ l[k]? = some q) ∧
        ∀ x c, (t.assign l).1.Skips x c ↔ t.Skips x c := by
  refine ⟨t.paths, paths_length t, paths_sorted t, has_iff t, fun l hl => ?_⟩
  obtain ⟨h1, h2, h3⟩ := assign_whole t l hl
  refine ⟨fun x q => ?_, h3⟩
  rw [has_iff, h1, h2]

/-- The same places hold parameters and the same fields are skipped, with the same contents. -/
def ModelTree.Same (t t' : ModelTree α) : Prop :=
  (∀ x, (∃ q, t'.Has x q) ↔ ∃ q, t.Has x q) ∧ ∀ x c, t'.Skips x c ↔ t.Skips x c

theorem ModelTree.assign_same (t : ModelTree α) (l : List (Param α)) (hl : l.length = t.parameters.length) : t.Same (t.assign l).1 := by
  obtain ⟨h1, h2, h3⟩ := assign_whole t l hl
  refine ⟨fun x => ?_, h3⟩
  constructor
  · rintro ⟨q, h⟩
    obtain ⟨k, e1, e2⟩ := (has_iff _ x q).mp h
    rw [h2] at e1
    rw [h1] at e2
    have hk : k < t.parameters.length := by rw [← hl]; exact (List.getElem?_eq_some_iff.mp e2).1
    exact ⟨_, (has_iff t x _).mpr ⟨k, e1, List.getElem?_eq_getElem hk⟩⟩
  · rintro ⟨q, h⟩
    obtain ⟨k, e1, e2⟩ := (has_iff _ x q).mp h
    have hk : k < l.length := by rw [hl]; exact (List.getElem?_eq_some_iff.mp e2).1
    exact ⟨_, (has_iff _ x _).mpr ⟨k, by rw [h2]; exact e1, by rw [h1]; exact List.getElem?_eq_getElem hk⟩⟩

theorem forEach_length (f : Nat → Param α → Res (Param α)) : ∀ (i : Nat) (qs : List (Param α)), (Opt.forEach f i qs).1.length ≤ qs.length
  | _, [] => le_refl _
  | i, q :: qs => by
    have := forEach_length f (i + 1) qs
    simp only [Opt.forEach]
    split <;> simp
    exact this

theorem forEach_done {f : Nat → Param α → Res (Param α)} : ∀ {i : Nat} {qs : List (Param α)} {r : List (Param α)}, Opt.forEach f i qs = (r, ok ()) →
    r.length = qs.length
  | _, [], r, h => by simp only [Opt.forEach, Prod.mk.injEq] at h; rw [← h.1]
  | i, q :: qs, r, h => by
    simp only [Opt.forEach] at h
    split at h
    · rename_i q' _
      have e : Opt.forEach f (i + 1) qs = ((Opt.forEach f (i + 1) qs).1, ok ()) := by
        rw [Prod.ext_iff]; exact ⟨rfl, (Prod.ext_iff.mp h).2⟩
      have h1 := forEach_done e
      have h2 : q' :: (Opt.forEach f (i + 1) qs).1 = r := (Prod.ext_iff.mp h).1
      rw [← h2]
      simp [h1]
    · simp at h
    · simp at h

theorem drop_all {β : Type} {l r : List β} (h : r.length = l.length) : r ++ l.drop r.length = r := by
  rw [h, List.drop_length, List.append_nil]

variable [Flt α] {d : Nat}

/-- C45: `update_model` updates every parameter of the model that is not in a skipped field, and nothing else. -/
theorem C45_update (hmul : ∀ u v : α, u * v = v * u) (o : Opt α) (he : o.epoch + 1 < U32) (t : ModelTree α) {as : List (PArr α)}
    (h : Params d t.parameters as) (hr : ∀ a, a ∈ as → a.Ready o.kind) (p : Profile) (m : Nat → Nat → Mem α) :
    ∃ t', t.update p m o = (t', ok (o.epoch + 1)) ∧ t.Same t' ∧ Params d t'.parameters (PArr.updated o as) := by
  obtain ⟨qs', e, hq⟩ := updateParameters_ok hmul o he h hr p m
  have hl : qs'.length = t.parameters.length := by
    rw [hq.length_eq, h.length_eq]
    unfold PArr.updated PArr.clipped
    split <;> simp
  refine ⟨(t.assign qs').1, ?_, t.assign_same qs' hl, ?_⟩
  · unfold ModelTree.update; simp only [e]
  · rw [(assign_whole t qs' hl).1]; exact hq

/-- C45: `configure_model` configures every parameter of the model that is not in a skipped field, and nothing else. -/
theorem C45_configure (o : Opt α) (t : ModelTree α) {as : List (PArr α)} (h : Params d t.parameters as) (p : Profile) (m : Nat → Mem α) :
    ∃ t', t.configure p m o = (t', ok ()) ∧ t.Same t' ∧ Params d t'.parameters (as.map fun a => a.configured o.kind.names) := by
  obtain ⟨qs', e, hq, -⟩ := C44_configure o h p m
  have hl : qs'.length = t.parameters.length := by rw [hq.length_eq, h.length_eq, List.length_map]
  refine ⟨(t.assign qs').1, ?_, t.assign_same qs' hl, ?_⟩
  · unfold ModelTree.configure; simp only [e, drop_all hl]
  · rw [(assign_whole t qs' hl).1]; exact hq

/-- C45: a model whose parameters have all been loaded from saved ones is moved to a device by `move_to_device`: afterwards every
parameter that is not in a skipped field is on that device with the saved contents. -/
theorem C45_move (t : ModelTree α) {qs : List (Param α)} {as : List (PArr α)} (h : Params d qs as) {p : Profile}
    (hload : List.Forall₂ (fun q q' => ∃ r, q.serialize p = ok r ∧ Param.deserialize p r = ok q') qs t.parameters) (d' : Nat) (m : Nat → Mem α) :
    ∃ t', t.moveToDevice p d' m = (t', ok ()) ∧ t.Same t' ∧ Params d' t'.parameters as := by
  have h2 : List.Forall₂ (fun (q' : Param α) a => ∃ q : Param α, q.Is d a ∧ ∃ r, q.serialize p = ok r ∧ Param.deserialize p r = ok q') t.parameters as := by
    generalize t.parameters = ps at hload
    induction hload generalizing as with
    | nil => cases h; exact .nil
    | cons h1 _ ih =>
      cases h with
      | cons hq hrest => exact .cons ⟨_, hq, h1⟩ (ih hrest)
  obtain ⟨qs', e, hq⟩ := forEach_ok (R' := fun q a => q.Is d' a) (h := fun a => a) h2 (f := fun i q => q.moveToDevice p d' (m i)) (fun i q' a _ hq => by
    obtain ⟨q, hq, r, e1, e2⟩ := hq
    obtain ⟨q2, e3, h3⟩ := Param.reload_ok hq p d' (m i)
    refine ⟨q2, ?_, h3⟩
    rw [← e3]
    unfold Param.reload
    rw [e1, ok_bind, e2, ok_bind]) 0
  rw [List.map_id'] at hq
  have hl := forEach_done e
  refine ⟨(t.assign qs').1, ?_, t.assign_same qs' hl, ?_⟩
  · unfold ModelTree.moveToDevice; simp only [e, drop_all hl]
  · rw [(assign_whole t qs' hl).1]; exact hq
/-- The hypotheses of C45 can be met: a model with a parameter, a `Vec` of a parameter and a nested model, and a skipped field; the parameters are on
device 0 and ready for MomentumSGD; and another one with loaded parameters. -/
example : ∃ (q : Param Int) (t t' : ModelTree Int) (as : List (PArr Int)), let _ := intFlt
    t = node [param q, skip [param q], node [param q, node [param q]]] ∧ Params 0 t.parameters as ∧ as.length = 3 ∧
      (∀ a, a ∈ as → a.Ready (.momentum 1 1)) ∧ t.Has [2, 1, 0] q ∧ t.Skips [1] [param q] ∧
      List.Forall₂ (fun q q' => ∃ r, Param.serialize .debug q = ok r ∧ Param.deserialize .debug r = ok q') t.parameters t'.parameters := by
  let _ := intFlt
  obtain ⟨q, hq⟩ := exists_param (α := Int) (s := matShape 2 3 1) (matShape_wf (n := 2) (m := 3) (b := 1) rfl) (by decide) rfl 0 (fun k => k) (fun k => 2 * k)
    (fun k => 3 * k) "MomentumSGD.m"
  obtain ⟨q', e', _⟩ := Param.reload_ok hq .debug 0 (fun _ _ => 0)
  unfold Param.reload at e'
  simp only [Res.bind_eq_ok] at e'
  obtain ⟨r, e1, q1, e2, _⟩ := e'
  refine ⟨q, _, node [param q1, param q1, param q1], [_, _, _], rfl, .cons hq (.cons hq (.cons hq .nil)), rfl, ?_, ?_, ?_, ?_⟩
  · intro a ha
    simp only [List.mem_cons, List.not_mem_nil, or_false, or_self] at ha
    subst ha
    refine ⟨fun c b => 3 * (((matShape 2 3 1).offset c b : Nat) : Int), ?_⟩
    unfold PArr.Has
    simp only [if_true]
  · exact .field rfl (.field rfl (.field rfl (.here q)))
  · exact .field rfl (.here _)
  · exact .cons ⟨r, e1, e2⟩ (.cons ⟨r, e1, e2⟩ (.cons ⟨r, e1, e2⟩ .nil))

end
end Verif
