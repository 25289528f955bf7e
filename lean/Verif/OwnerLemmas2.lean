import Verif.OwnerLemmas

/-! # Reference counts over the history of a graph -/

namespace Verif
open Res
namespace Own

theorem SameBoxes.reach {h h' : Heap} (e : SameBoxes h h') {i j : Nat} (p : Reach h i j) : Reach h' i j := by
  induction p with
  | refl i => exact .refl i
  | arg hb ha _ ih =>
    obtain ⟨b', hb', ha', _⟩ := e.get hb
    exact .arg hb' (ha' ▸ ha) ih

theorem Inv.live_same {h h' : Heap} {R : List Nat} (hi : Inv h R) (hi' : Inv h' R) (e : SameBoxes h h') (k : Nat) : Live h k ↔ Live h' k := by
  rw [hi.live_iff, hi'.live_iff]
  exact ⟨fun ⟨i, hr, p⟩ => ⟨i, hr, e.reach p⟩, fun ⟨i, hr, p⟩ => ⟨i, hr, SameBoxes.reach (Eq.symm e) p⟩⟩

theorem refs_congr {h h' : Heap} (e : SameBoxes h h') (hl : ∀ k, Live h k ↔ Live h' k) (i : Nat) : refs h i = refs h' i := by
  unfold refs
  congr 1
  apply List.ext_getElem?
  intro k
  rw [List.getElem?_map, List.getElem?_map]
  cases hb : h.boxes[k]? with
  | none =>
    have : h'.boxes[k]? = none := by
      rw [List.getElem?_eq_none_iff] at hb ⊢
      rw [← e.length]; exact hb
    rw [this]
  | some b =>
    obtain ⟨b', hb', ha, _⟩ := e.get hb
    rw [hb']
    simp only [Option.map_some, Option.some.injEq]
    have := hl k
    unfold Live at this
    rw [hb, hb'] at this
    simp only [Option.some.injEq, exists_eq_left', ne_eq] at this
    unfold refsOf
    rw [ha]
    by_cases q : b.strong = 0
    · have q' : b'.strong = 0 := by
        by_cases q' : b'.strong = 0
        · exact q'
        · exact absurd q (this.mpr q')
      simp [q, q']
    · simp [q, this.mp q]

/-- The counts are determined by the references that are held. -/
theorem Inv.unique {h h' : Heap} {R : List Nat} (hi : Inv h R) (hi' : Inv h' R) (e : SameBoxes h h') : h.boxes = h'.boxes := by
  apply List.ext_getElem?
  intro k
  cases hb : h.boxes[k]? with
  | none =>
    rw [List.getElem?_eq_none_iff] at hb
    rw [e.length] at hb
    rw [List.getElem?_eq_none_iff.mpr hb]
  | some b =>
    obtain ⟨b', hb', ha, hr⟩ := e.get hb
    rw [hb']
    have h1 := hi.cnt k b hb
    have h2 := hi'.cnt k b' hb'
    rw [refs_congr e (hi.live_same hi' e)] at h1
    cases b; cases b'
    simp only at ha hr h1 h2
    subst ha; subst hr
    rw [h1, h2]

theorem walk_spec {h : Heap} {R : List Nat} (hi : Inv h R) {pushed popped : List Nat} (hp : ∀ i ∈ pushed, Live h i) (pm : popped.Perm pushed) :
    walk h pushed popped = ok h := by
  obtain ⟨h1, e1, hi1, r1, rel1, lv1⟩ := clones_spec pushed hi hp
  obtain ⟨h2, e2, hi2, r2⟩ := drops_spec popped (hi1.perm (pm.symm.append_right R))
  have e : walk h pushed popped = ok h2 := by simp only [walk, e1, Res.ok_bind, e2]
  rw [e]
  have hs : SameBoxes h h2 := r1.same.trans r2.same
  have hb := hi.unique hi2 hs
  obtain ⟨l, hl, _, hm⟩ := r2.log
  have : l = [] := by
    apply List.eq_nil_iff_forall_not_mem.mpr
    intro i hin
    have := (hm i).mp hin
    exact this.2 ((hi.live_same hi2 hs i).mp ((lv1 i).mp this.1))
  subst this
  cases h; cases h2
  simp at hb hl rel1
  subst hb
  rw [hl, rel1]

theorem refs_append {h : Heap} (b : RcBox) (i : Nat) : refs { h with boxes := h.boxes ++ [b] } i = refs h i + refsOf i b := by
  simp [refs]

theorem live_append {h : Heap} (b : RcBox) (hb : b.strong ≠ 0) (i : Nat) :
    Live { h with boxes := h.boxes ++ [b] } i ↔ Live h i ∨ i = h.boxes.length := by
  unfold Live
  simp only [List.getElem?_append]
  by_cases hl : i < h.boxes.length
  · simp only [hl, if_true]
    constructor
    · exact Or.inl
    · rintro (p | p)
      · exact p
      · omega
  · have hn : h.boxes[i]? = none := List.getElem?_eq_none_iff.mpr (by omega)
    simp only [hl, if_false, hn]
    constructor
    · rintro ⟨c, hc, _⟩
      rw [List.getElem?_singleton] at hc
      split at hc
      · right; omega
      · simp at hc
    · rintro (⟨c, hc, _⟩ | p)
      · simp at hc
      · subst p; exact ⟨b, by simp, hb⟩

/-- What `create` does. -/
theorem create_spec {h : Heap} {R : List Nat} (hi : Inv h R) {args : List Nat} (ha : ∀ a ∈ args, a ∈ R) (rets : Nat) :
    ∃ h', create h args rets = ok h' ∧ Inv h' (R ++ List.replicate rets h.boxes.length) ∧
      h'.boxes.map (fun b => (b.args, b.rets)) = h.boxes.map (fun b => (b.args, b.rets)) ++ [(args, rets)] ∧
      (∀ i, i < h.boxes.length → (Live h' i ↔ Live h i)) ∧
      ∃ l, h'.released = h.released ++ l ∧ l.Nodup ∧ ∀ i, i ∈ l ↔ i = h.boxes.length ∧ rets = 0 := by
  obtain ⟨h1, e1, hi1, r1, rel1, lv1⟩ := clones_spec args hi (fun a p => hi.live_held (ha a p))
  have hlen : h1.boxes.length = h.boxes.length := r1.same.length.symm
  have hlt : ∀ a ∈ args, a < h.boxes.length := fun a p => hi.inR a (ha a p)
  have hi2 : Inv { h1 with boxes := h1.boxes ++ [⟨1, args, rets⟩] } (h.boxes.length :: R) := by
    refine ⟨?_, ?_, ?_⟩
    · intro i b hb
      simp only [List.getElem?_append] at hb
      split at hb
      · exact hi1.acyc i b hb
      · rw [List.getElem?_singleton] at hb
        split at hb
        · cases hb
          intro a p
          have := hlt a p
          omega
        · simp at hb
    · intro a p
      simp only [List.length_append, List.length_singleton]
      rcases List.mem_cons.mp p with rfl | p
      · omega
      · have := hi.inR a p; omega
    · intro i b hb
      rw [refs_append]
      have e' : refsOf i ⟨1, args, rets⟩ = args.count i := by simp [refsOf]
      rw [e']
      simp only [List.getElem?_append] at hb
      split at hb
      · have := hi1.cnt i b hb
        rw [List.count_append] at this
        rw [List.count_cons_of_ne (by omega)]
        omega
      · rw [List.getElem?_singleton] at hb
        split at hb
        · cases hb
          have hie : i = h.boxes.length := by omega
          subst hie
          have c1 : R.count h.boxes.length = 0 := List.count_eq_zero.mpr fun p => Nat.lt_irrefl _ (hi.inR _ p)
          have c2 : args.count h.boxes.length = 0 := List.count_eq_zero.mpr fun p => Nat.lt_irrefl _ (hlt _ p)
          have c3 : refs h1 h.boxes.length = 0 := by
            by_cases z : refs h1 h.boxes.length = 0
            · exact z
            · obtain ⟨m, c, hm, hc⟩ := pos_sum _ _ (Nat.pos_of_ne_zero z)
              have : h.boxes.length ∈ c.args := by
                unfold refsOf at hc
                split at hc
                · omega
                · exact List.count_pos_iff.mp hc
              have h1 := hi1.acyc m c hm _ this
              have h2 := (List.getElem?_eq_some_iff.mp hm).1
              omega
          simp [c1, c2, c3]
        · simp at hb
  have hlive2 := live_append (h := h1) ⟨1, args, rets⟩ (by simp)
  obtain ⟨h3, e3, hi3, r3, rel3, lv3⟩ := clones_spec (List.replicate rets h.boxes.length) hi2 (fun a p => by
    rw [List.eq_of_mem_replicate p, hlive2]; right; exact hlen.symm)
  obtain ⟨h4, e4, hi4, r4⟩ := drop_spec (hi3.perm List.perm_middle)
  have hlv : ∀ i, Live h4 i ↔ (Live h i ∨ (i = h.boxes.length ∧ rets ≠ 0)) := by
    intro i
    have hdown : Live h4 i → Live h i ∨ i = h.boxes.length := by
      intro p
      have := (hlive2 i).mp ((lv3 i).mp (r4.dead i p))
      rw [lv1, hlen] at this
      exact this
    constructor
    · intro p
      rcases hdown p with q | q
      · exact Or.inl q
      · by_cases q2 : Live h i
        · exact Or.inl q2
        · right
          refine ⟨q, fun z => ?_⟩
          subst z
          obtain ⟨j, hj, pr⟩ := (hi4.live_iff i).mp p
          simp only [List.replicate_zero, List.nil_append] at hj
          have hle : ∀ i j, Reach h4 i j → j ≤ i := by
            intro i j p
            induction p with
            | refl => exact Nat.le_refl _
            | arg hb ha _ ih => have := hi4.acyc _ _ hb _ ha; omega
          have := hle _ _ pr
          have := hi.inR j hj
          omega
    · rintro (p | ⟨p, z⟩)
      · obtain ⟨j, hj, pr⟩ := (hi.live_iff i).mp p
        refine (hi4.live_iff i).mpr ⟨j, by simp [hj], ?_⟩
        have hs : ∀ (k : Nat) (b : RcBox), h.boxes[k]? = some b → ∃ b', h4.boxes[k]? = some b' ∧ b'.args = b.args := by
          intro k b hb
          obtain ⟨b1, hb1, ha1, _⟩ := r1.same.get hb
          have hl := (List.getElem?_eq_some_iff.mp hb1).1
          have : ({ h1 with boxes := h1.boxes ++ [⟨1, args, rets⟩] } : Heap).boxes[k]? = some b1 := by
            simp only [List.getElem?_append, hl, if_true, hb1]
          obtain ⟨b3, hb3, ha3, _⟩ := r3.same.get this
          obtain ⟨b4, hb4, ha4, _⟩ := r4.same.get hb3
          exact ⟨b4, hb4, (ha4.trans ha3).trans ha1⟩
        clear hj p hdown
        induction pr with
        | refl => exact .refl _
        | arg hb ha _ ih =>
          obtain ⟨b', hb', ha'⟩ := hs _ _ hb
          exact .arg hb' (ha' ▸ ha) ih
      · subst p
        exact hi4.live_held (by simp [z])
  have hnl : ¬ Live h h.boxes.length := fun ⟨b, hb, _⟩ => Nat.lt_irrefl _ (List.getElem?_eq_some_iff.mp hb).1
  refine ⟨h4, ?_, hi4.perm List.perm_append_comm, ?_, ?_, ?_⟩
  · rw [create, e1, Res.ok_bind]
    simp only [hlen, e3, Res.ok_bind, e4]
  · have := r3.same.trans r4.same
    rw [← this, List.map_append, r1.same]; rfl
  · intro i hil
    rw [hlv]
    constructor
    · rintro (p | ⟨p, _⟩)
      · exact p
      · omega
    · exact Or.inl
  · obtain ⟨l, el, nd, hm⟩ := r4.log
    refine ⟨l, by rw [el, rel3, rel1], nd, fun i => ?_⟩
    rw [hm, lv3, hlive2, lv1, hlen, hlv]
    constructor
    · rintro ⟨p | p, q⟩
      · exact absurd (Or.inl p) q
      · refine ⟨p, ?_⟩
        by_cases z : rets = 0
        · exact z
        · exact absurd (Or.inr ⟨p, z⟩) q
    · rintro ⟨p, z⟩
      refine ⟨Or.inr p, ?_⟩
      rintro (q | ⟨_, q⟩)
      · subst p; exact hnl q
      · exact q z

variable {T : Type} {C : TensorLike T}

/-- What holds after every history. -/
structure Sound (g : Graph T) (h : Heap) (ns : List (Nat × Nat)) : Prop where
  wf : Graph.WF g
  inv : Inv h (ns.map (·.1))
  same : h.boxes.map (fun b => (b.args, b.rets)) = g.map fun o => (o.args.map (·.1), o.init.length)
  nodup : h.released.Nodup
  log : ∀ i, i ∈ h.released ↔ i < g.length ∧ ¬ Live h i

theorem Sound.length {g : Graph T} {h : Heap} {ns : List (Nat × Nat)} (s : Sound g h ns) : h.boxes.length = g.length := by
  have := congrArg List.length s.same; simpa using this

theorem Sound.box {g : Graph T} {h : Heap} {ns : List (Nat × Nat)} (s : Sound g h ns) {i : Nat} {b : RcBox} (hb : h.boxes[i]? = some b) :
    b.args = (g.argsOf i).map (·.1) := by
  have := congrArg (fun l => l[i]?) s.same
  simp only [List.getElem?_map, hb, Option.map_some] at this
  cases q : g[i]? with
  | none => simp [q] at this
  | some o =>
    simp only [q, Option.map_some, Option.some.injEq, Prod.mk.injEq] at this
    rw [Graph.argsOf_some q]; exact this.1

theorem Sound.reach_iff {g : Graph T} {h : Heap} {ns : List (Nat × Nat)} (s : Sound g h ns) (i j : Nat) : Reach h i j ↔ Graph.Needs g i j := by
  constructor
  · intro p
    induction p with
    | refl => exact .refl _
    | arg hb ha _ ih =>
      rw [s.box hb] at ha
      obtain ⟨a, ha', rfl⟩ := List.mem_map.mp ha
      exact .arg ha' ih
  · intro p
    induction p with
    | refl => exact .refl _
    | @arg i j a ha _ ih =>
      have hl : i < g.length := by
        cases q : g[i]? with
        | none => simp [Graph.argsOf, q] at ha
        | some o => exact Graph.mem_lt q
      obtain ⟨b, hb⟩ : ∃ b, h.boxes[i]? = some b := ⟨_, List.getElem?_eq_getElem (by rw [s.length]; exact hl)⟩
      exact .arg hb (by rw [s.box hb]; exact List.mem_map.mpr ⟨a, ha, rfl⟩) ih

theorem Sound.live_iff {g : Graph T} {h : Heap} {ns : List (Nat × Nat)} (s : Sound g h ns) (i : Nat) : Live h i ↔ ∃ a ∈ ns, Graph.Needs g a.1 i := by
  rw [s.inv.live_iff]
  constructor
  · rintro ⟨k, hk, p⟩
    obtain ⟨a, ha, rfl⟩ := List.mem_map.mp hk
    exact ⟨a, ha, (s.reach_iff _ _).mp p⟩
  · rintro ⟨a, ha, p⟩
    exact ⟨a.1, List.mem_map.mpr ⟨a, ha, rfl⟩, (s.reach_iff _ _).mpr p⟩

theorem Sound.lt {g : Graph T} {h : Heap} {ns : List (Nat × Nat)} (s : Sound g h ns) {a : Nat × Nat} (ha : a ∈ ns) : a.1 < g.length := by
  rw [← s.length]
  exact s.inv.inR _ (List.mem_map.mpr ⟨a, ha, rfl⟩)

theorem Sound.walk {g : Graph T} {h : Heap} {ns : List (Nat × Nat)} (s : Sound g h ns) {a : Nat × Nat} (ha : a ∈ ns) {pushed popped : List Nat}
    (hc : g.collect a.1 = some pushed) (pm : popped.Perm pushed) : Own.walk h pushed popped = ok h := by
  apply walk_spec s.inv _ pm
  intro i hi
  obtain ⟨pushed', e, _, hm⟩ := Graph.collect_spec s.wf (s.lt ha)
  rw [hc] at e; cases e
  exact (s.live_iff i).mpr ⟨a, ha, (hm i).mp hi⟩

theorem Sound.drop {g : Graph T} {h : Heap} {ns : List (Nat × Nat)} (s : Sound g h ns) {a : Nat × Nat} (ha : a ∈ ns) :
    ∃ h', Own.drop h a.1 = ok h' ∧ Sound g h' (ns.erase a) ∧ Released h h' := by
  have pm : (ns.map (·.1)).Perm (a.1 :: (ns.erase a).map (·.1)) := (List.perm_cons_erase ha).map (·.1)
  obtain ⟨h', e, hi, r⟩ := drop_spec (s.inv.perm pm)
  refine ⟨h', e, ⟨s.wf, hi, ?_, ?_, ?_⟩, r⟩
  · rw [← s.same]; exact r.same.symm
  · obtain ⟨l, el, nd, hm⟩ := r.log
    rw [el, List.nodup_append]
    refine ⟨s.nodup, nd, fun x hx y hy q => ?_⟩
    subst q
    exact ((s.log x).mp hx).2 ((hm x).mp hy).1
  · intro i
    obtain ⟨l, el, nd, hm⟩ := r.log
    rw [el, List.mem_append, s.log, hm]
    constructor
    · rintro (⟨p, q⟩ | ⟨p, q⟩)
      · exact ⟨p, fun z => q (r.dead i z)⟩
      · refine ⟨?_, q⟩
        obtain ⟨b, hb, _⟩ := p
        rw [← s.length]; exact (List.getElem?_eq_some_iff.mp hb).1
    · rintro ⟨p, q⟩
      by_cases z : Live h i
      · exact Or.inr ⟨z, q⟩
      · exact Or.inl ⟨p, z⟩

theorem static_eq {g g' : Graph T} (hl : g'.length = g.length) (hs : Graph.SameOps g.length g g') :
    (g'.map fun o => (o.args.map (·.1), o.init.length)) = g.map fun o => (o.args.map (·.1), o.init.length) := by
  apply List.ext_getElem?
  intro i
  rw [List.getElem?_map, List.getElem?_map]
  by_cases hi : i < g.length
  · obtain ⟨o, ho⟩ : ∃ o, g[i]? = some o := ⟨_, List.getElem?_eq_getElem hi⟩
    obtain ⟨o', ho', _, ha, hin, _⟩ := hs.some hi ho
    simp [ho, ho', ha, hin]
  · rw [List.getElem?_eq_none_iff.mpr (by omega), List.getElem?_eq_none_iff.mpr (by omega)]

/-- Another graph with the same operators. -/
theorem Sound.congr {g g' : Graph T} {h : Heap} {ns : List (Nat × Nat)} (s : Sound g h ns) (hl : g'.length = g.length) (hs : Graph.SameOps g.length g g')
    (hw : Graph.WF g') : Sound g' h ns :=
  ⟨hw, s.inv, by rw [s.same, static_eq hl hs], s.nodup, by rw [hl]; exact s.log⟩

theorem nodes_fst (i : Nat) (o : OpInfo T) : (Graph.nodesOf i o).map (·.1) = List.replicate o.vals.length i := by
  unfold Graph.nodesOf
  rw [List.map_map]
  apply List.ext_getElem <;> simp

theorem Sound.create {g g' : Graph T} {h : Heap} {ns args : List (Nat × Nat)} {op : Oper T} {sink : Option T} {o : OpInfo T} (s : Sound g h ns)
    (ha : ∀ a ∈ args, a ∈ ns) (hc : g.create C op sink args = ok g') (ho : g'[g.length]? = some o) :
    ∃ h', Own.create h (args.map (·.1)) o.vals.length = ok h' ∧ Sound g' h' (ns ++ Graph.nodesOf g.length o) ∧
      h'.released = h.released ++ (if o.vals.length = 0 then [g.length] else []) := by
  have ha' : ∀ a ∈ args.map (·.1), a ∈ ns.map (·.1) := fun a p => by
    obtain ⟨b, hb, rfl⟩ := List.mem_map.mp p
    exact List.mem_map.mpr ⟨b, ha b hb, rfl⟩
  obtain ⟨h', e, hi, hb, hlv, l, el, nd, hm⟩ := create_spec s.inv ha' o.vals.length
  rw [s.length] at hi hm hlv
  have hw := Graph.create_wf s.wf hc
  have hl : l = if o.vals.length = 0 then [g.length] else [] := by
    by_cases z : o.vals.length = 0
    · rw [if_pos z]
      cases l with
      | nil => have := (hm g.length).mpr ⟨rfl, z⟩; simp at this
      | cons x l =>
        have hx := (hm x).mp (by simp)
        cases l with
        | nil => rw [hx.1]
        | cons y l =>
          have hy := (hm y).mp (by simp)
          rw [hx.1, hy.1] at nd
          simp at nd
    · rw [if_neg z]
      apply List.eq_nil_iff_forall_not_mem.mpr
      intro i hi
      exact z ((hm i).mp hi).2
  have hnew : ∃ o', g' = g ++ [o'] ∧ o' = o ∧ o.args = args := by
    simp only [Graph.create, Res.bind_eq_ok, Res.ok.injEq] at hc
    obtain ⟨xs, _, ss, _, rfl⟩ := hc
    simp at ho
    subst ho
    exact ⟨_, rfl, rfl, rfl⟩
  obtain ⟨o', rfl, rfl, hargs⟩ := hnew
  have hlen : o'.vals.length = o'.init.length := (hw.lens g.length o' (by simp)).1
  have hnotin : ∀ i, i ∈ h.released → i < g.length := fun i p => ((s.log i).mp p).1
  refine ⟨h', e, ⟨hw, ?_, ?_, ?_, ?_⟩, by rw [el, hl]⟩
  · rw [List.map_append, nodes_fst]; exact hi
  · rw [hb, s.same, List.map_append, hlen, ← hargs]; rfl
  · rw [el, List.nodup_append]
    refine ⟨s.nodup, nd, fun x hx y hy q => ?_⟩
    subst q
    have := hnotin x hx
    have := ((hm x).mp hy).1
    omega
  · intro i
    rw [el, List.mem_append, hm, s.log]
    simp only [List.length_append, List.length_singleton]
    by_cases hil : i < g.length
    · have hni : i ≠ g.length := by omega
      have : i < g.length + 1 := by omega
      simp [hil, hni, hlv i hil, this]
    · have hlen' : h'.boxes.length = g.length + 1 := by
        have := congrArg List.length hb
        simp [s.length] at this; exact this
      by_cases hie : i = g.length
      · subst hie
        simp only [Nat.lt_irrefl, false_and, false_or, true_and, Nat.lt_succ_self]
        constructor
        · intro z p
          obtain ⟨k, hk, pr⟩ := (hi.live_iff _).mp p
          rw [z] at hk
          simp only [List.replicate_zero, List.append_nil] at hk
          have hle : ∀ i j, Reach h' i j → j ≤ i := by
            intro i j p
            induction p with
            | refl => exact Nat.le_refl _
            | arg hb ha _ ih => have := hi.acyc _ _ hb _ ha; omega
          have h1 := hle _ _ pr
          have h2 := s.inv.inR k hk
          rw [s.length] at h2
          omega
        · intro p
          by_cases z : o'.vals.length = 0
          · exact z
          · exact absurd (hi.live_held (by simp [z])) p
      · have : ¬ i < g.length + 1 := by omega
        simp [hil, hie, this]

theorem Hist.sound {g : Graph T} {h : Heap} {ns : List (Nat × Nat)} (H : Hist C g h ns) : Sound g h ns := by
  induction H with
  | empty =>
    refine ⟨⟨fun i o e => by simp at e, fun i o e => by simp at e⟩, ⟨fun i b e => by simp [Heap.empty] at e, by simp, fun i b e => by simp [Heap.empty] at e⟩, rfl, by simp [Heap.empty], fun i => by simp [Heap.empty]⟩
  | create _ ha hc ho e ih =>
    obtain ⟨h', e', s, _⟩ := ih.create ha hc ho
    rw [e] at e'; cases e'; exact s
  | drop _ ha e ih =>
    obtain ⟨h', e', s, _⟩ := ih.drop ha
    rw [e] at e'; cases e'; exact s
  | forward _ ha hf hc pm e ih =>
    rw [ih.walk ha hc pm] at e; cases e
    exact ih.congr hf.step.len (hf.step.sameOps _) (hf.step.wf ih.wf)
  | backward _ ha hb hc e ih =>
    have hb' := hb
    obtain ⟨pushed', hc', hp, _⟩ := hb'
    rw [hc] at hc'; cases hc'
    rw [ih.walk ha hc hp.1] at e; cases e
    have hs := (Graph.backward_spec ih.wf (ih.lt ha) hb).2.2.2.same
    exact ih.congr hs.1.symm (hs.same _) (hs.wf ih.wf)
  | backwardPanic _ ha hb hs hc pm e ih =>
    rw [ih.walk ha hc pm] at e; cases e
    exact ih.congr hs.1.symm (hs.same _) (hs.wf ih.wf)

end Own
end Verif
