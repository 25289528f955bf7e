import Verif.Safety8
import Verif.GraphFw

/-!
# Memory safety of graphs of the operators of the library
-/

set_option linter.unusedSectionVars false

namespace Verif
open Res
variable {α : Type} [Flt α]

theorem mapR_safe {A B : Type} {f : A → Res B} {l : List A} (h : ∀ a ∈ l, (f a).Safe) : (mapR f l).Safe := by
  induction l with
  | nil => exact safe_ok _
  | cons a l ih =>
    exact Res.Safe.bind (h a (by simp)) fun b _ => Res.Safe.bind (ih fun c hc => h c (by simp [hc])) fun _ _ => safe_ok _

theorem foldR_safe_inv {A S : Type} {f : S → A → Res S} {l : List A} {s : S} (P : S → Prop) (h0 : P s)
    (hstep : ∀ a ∈ l, ∀ s, P s → (f s a).Safe ∧ ∀ s', f s a = ok s' → P s') : (foldR f l s).Safe ∧ ∀ s', foldR f l s = ok s' → P s' := by
  induction l generalizing s with
  | nil => exact ⟨safe_ok _, fun s' h => by cases h; exact h0⟩
  | cons a l ih =>
    obtain ⟨h1, h2⟩ := hstep a (by simp) s h0
    have h3 := fun t ht => ih (s := t) (h2 t ht) fun b hb => hstep b (by simp [hb])
    refine ⟨Res.Safe.bind h1 fun t ht => (h3 t ht).1, fun s' h => ?_⟩
    simp only [foldR, Res.bind_eq_ok] at h
    obtain ⟨t, ht, h⟩ := h
    exact (h3 t ht).2 s' h

theorem mapR_all {A B : Type} {f : A → Res B} {l : List A} {bs : List B} (h : mapR f l = ok bs) {P : B → Prop} (hP : ∀ a b, f a = ok b → P b) :
    ∀ b ∈ bs, P b := by
  induction l generalizing bs with
  | nil => cases h; simp
  | cons a l ih =>
    simp only [mapR, Res.bind_eq_ok, Res.ok.injEq] at h
    obtain ⟨b, hb, bs', hbs, rfl⟩ := h
    intro c hc
    rcases List.mem_cons.mp hc with rfl | hc
    · exact hP a _ hb
    · exact ih hbs c hc

theorem mapR_map {A B C : Type} {f : A → Res B} {h : A → Res C} {k : B → C} {l : List A} {bs : List B} (e : mapR f l = ok bs)
    (hk : ∀ a ∈ l, ∀ b, f a = ok b → h a = ok (k b)) : mapR h l = ok (bs.map k) := by
  induction l generalizing bs with
  | nil => cases e; rfl
  | cons a l ih =>
    simp only [mapR, Res.bind_eq_ok, Res.ok.injEq] at e
    obtain ⟨b, hb, bs', hbs, rfl⟩ := e
    simp only [mapR, hk a (by simp) b hb, ok_bind, ih hbs fun c hc => hk c (by simp [hc])]
    rfl

namespace Graph

/-- The shape of a node; `D` are the shapes of the results of the operators. -/
def look (D : List (List Shape)) (a : Nat × Nat) : Res Shape := do
  let l ← at' D a.1
  at' l a.2

/-- Fine tensors with the shapes `outs`. -/
def Fits (outs : List Shape) (l : List (Tensor α)) : Prop := l.map Tensor.shape = outs ∧ ∀ t ∈ l, t.Fine

/-- What is known of an operator. -/
structure OpFine (D : List (List Shape)) (op : NodeOp α) (outs : List Shape) (o : OpInfo (Tensor α)) : Prop where
  oper : ∃ d m, o.oper = op.oper .debug d m
  args : ∃ ss, mapR (look D) o.args = ok ss ∧ op.Proper ∧ (∀ s ∈ ss, s.WF) ∧ op.shapes .debug ss = ok outs
  init : Fits outs o.init
  vals : Fits outs o.vals
  grads : Fits outs o.grads
  sink : ∀ t, o.sink = some t → t.Fine ∧ outs[0]? = some t.shape

/-- What is known of a graph of the operators `ops`. -/
structure GFine (ops : List (NodeOp α)) (D : List (List Shape)) (g : Graph (Tensor α)) : Prop where
  len : g.length = D.length
  len' : ops.length = D.length
  at' : ∀ (i : Nat) (o : OpInfo (Tensor α)), g[i]? = some o → ∃ op outs, ops[i]? = some op ∧ D[i]? = some outs ∧ OpFine D op outs o

variable {ops : List (NodeOp α)} {D : List (List Shape)} {g : Graph (Tensor α)}

theorem Fits.get {outs : List Shape} {l : List (Tensor α)} (h : Fits outs l) {i : Nat} {t : Tensor α} (ht : l[i]? = some t) :
    t.Fine ∧ outs[i]? = some t.shape := ⟨h.2 t (List.mem_of_getElem? ht), by rw [← h.1, List.getElem?_map, ht]; rfl⟩

theorem Fits.set {outs : List Shape} {l : List (Tensor α)} (h : Fits outs l) {i : Nat} {t t' : Tensor α} (ht : l[i]? = some t) (hf : t'.Fine)
    (hs : t'.shape = t.shape) : Fits outs (l.set i t') := by
  refine ⟨by rw [map_set_same _ ht hs, h.1], fun z hz => ?_⟩
  rcases List.mem_or_eq_of_mem_set hz with hz | rfl
  · exact h.2 z hz
  · exact hf

theorem GFine.val (h : GFine ops D g) {a : Nat × Nat} {t : Tensor α} (ht : g.val a = ok t) : t.Fine ∧ look D a = ok t.shape := by
  obtain ⟨o, h1, h2⟩ := val_eq_ok.mp ht
  obtain ⟨op, outs, _, h3, h4⟩ := h.at' a.1 o h1
  obtain ⟨h5, h6⟩ := h4.vals.get h2
  exact ⟨h5, by simp only [look, at'_eq_ok.mpr h3, ok_bind]; exact at'_eq_ok.mpr h6⟩

theorem GFine.grad (h : GFine ops D g) {a : Nat × Nat} {t : Tensor α} (ht : g.grad a = ok t) : t.Fine ∧ look D a = ok t.shape := by
  obtain ⟨o, h1, h2⟩ := grad_eq_ok.mp ht
  obtain ⟨op, outs, _, h3, h4⟩ := h.at' a.1 o h1
  obtain ⟨h5, h6⟩ := h4.grads.get h2
  exact ⟨h5, by simp only [look, at'_eq_ok.mpr h3, ok_bind]; exact at'_eq_ok.mpr h6⟩

theorem GFine.shapeOf {m : Nat → α} (h : GFine ops D g) {a : Nat × Nat} {s : Shape} (ht : Graph.shapeOf (tensorLike .debug m) g a = ok s) : look D a = ok s := by
  simp only [Graph.shapeOf, Res.bind_eq_ok, at'_eq_ok, Res.ok.injEq] at ht
  obtain ⟨o, h1, t, h2, rfl⟩ := ht
  obtain ⟨op, outs, _, h3, h4⟩ := h.at' a.1 o h1
  obtain ⟨h5, h6⟩ := h4.init.get h2
  simp only [look, at'_eq_ok.mpr h3, ok_bind]; exact at'_eq_ok.mpr h6

theorem GFine.set (h : GFine ops D g) {i : Nat} {o o' : OpInfo (Tensor α)} (ho : g[i]? = some o)
    (hk : ∀ op outs, OpFine D op outs o → OpFine D op outs o') : GFine ops D (g.set i o') := by
  refine ⟨by rw [List.length_set]; exact h.len, h.len', fun j oj hj => ?_⟩
  by_cases hij : i = j
  · subst hij
    have hi := mem_lt ho
    simp [hi] at hj
    subst hj
    obtain ⟨op, outs, h1, h2, h3⟩ := h.at' i o ho
    exact ⟨op, outs, h1, h2, hk _ _ h3⟩
  · rw [List.getElem?_set_ne hij] at hj
    exact h.at' j oj hj

theorem GFine.modify (h : GFine ops D g) {i : Nat} {f : OpInfo (Tensor α) → OpInfo (Tensor α)}
    (hk : ∀ o, g[i]? = some o → ∀ op outs, OpFine D op outs o → OpFine D op outs (f o)) : GFine ops D (g.modify i f) := by
  refine ⟨by rw [List.length_modify]; exact h.len, h.len', fun j oj hj => ?_⟩
  by_cases hij : i = j
  · subst hij
    rw [List.getElem?_modify] at hj
    simp at hj
    obtain ⟨o, ho, rfl⟩ := hj
    obtain ⟨op, outs, h1, h2, h3⟩ := h.at' i o ho
    exact ⟨op, outs, h1, h2, hk o ho _ _ h3⟩
  · rw [List.getElem?_modify] at hj
    simp [hij] at hj
    exact h.at' j oj hj

theorem val_safe (g : Graph (Tensor α)) (a : Nat × Nat) : (g.val a).Safe := Res.Safe.bind (at_safe _ _) fun _ _ => at_safe _ _
theorem grad_safe (g : Graph (Tensor α)) (a : Nat × Nat) : (g.grad a).Safe := Res.Safe.bind (at_safe _ _) fun _ _ => at_safe _ _

/-! ### create -/

theorem look_append {D D' : List (List Shape)} {a : Nat × Nat} {s : Shape} (h : look D a = ok s) : look (D ++ D') a = ok s := by
  simp only [look, Res.bind_eq_ok, at'_eq_ok] at h ⊢
  obtain ⟨l, h1, h2⟩ := h
  exact ⟨l, by rw [List.getElem?_append_left (List.getElem?_eq_some_iff.mp h1).1]; exact h1, h2⟩

theorem mapR_look_append {D D' : List (List Shape)} {l : List (Nat × Nat)} {ss : List Shape} (h : mapR (look D) l = ok ss) :
    mapR (look (D ++ D')) l = ok ss := by
  have := mapR_map (h := look (D ++ D')) (k := id) h fun a _ s hs => look_append hs
  simpa using this

theorem create_safe (g : Graph (Tensor α)) (op : NodeOp α) (d : Nat) (m0 : Nat → α) (m : Mem α) (sink : Option (Tensor α)) (args : List (Nat × Nat)) :
    (Graph.create (tensorLike .debug m0) g (op.oper .debug d m) sink args).Safe :=
  Res.Safe.bind (mapR_safe fun a _ => val_safe g a) fun _ _ => Res.Safe.bind (op.shapes_safe _) fun _ _ => safe_ok _

theorem GFine.create (h : GFine ops D g) {op : NodeOp α} {d : Nat} {m0 : Nat → α} {m : Mem α} {sink : Option (Tensor α)} {args : List (Nat × Nat)}
    {xs : List (Tensor α)} (hxs : mapR g.val args = ok xs) (hp : op.Proper)
    (hs : ∀ t, sink = some t → t.Fine ∧ ∃ v, op = .parameter v ∧ t.shape = v.shape) {g' : Graph (Tensor α)}
    (hc : Graph.create (tensorLike .debug m0) g (op.oper .debug d m) sink args = ok g') : ∃ outs, GFine (ops ++ [op]) (D ++ [outs]) g' := by
  simp only [Graph.create, Res.bind_eq_ok, Res.ok.injEq] at hc
  obtain ⟨xs', hx', outs, ho, rfl⟩ := hc
  obtain rfl := Res.ok.inj (hx'.symm.trans hxs)
  refine ⟨outs, by simp [h.len], by simp [h.len'], fun i o hi => ?_⟩
  have hw : ∀ s ∈ xs'.map Tensor.shape, s.WF := by
    intro s hs
    obtain ⟨x, hx, rfl⟩ := List.mem_map.mp hs
    exact (mapR_all hxs (P := Tensor.Fine) (fun a b hb => (h.val hb).1) x hx).wf
  by_cases hig : i < g.length
  · rw [List.getElem?_append_left hig] at hi
    obtain ⟨op', outs', h1, h2, h3⟩ := h.at' i o hi
    have := h.len; have := h.len'
    refine ⟨op', outs', by rw [List.getElem?_append_left (by omega)]; exact h1, by rw [List.getElem?_append_left (by omega)]; exact h2, ?_⟩
    obtain ⟨ss, e1, e2⟩ := h3.args
    exact ⟨h3.oper, ⟨ss, mapR_look_append e1, e2⟩, h3.init, h3.vals, h3.grads, h3.sink⟩
  · have hl : i = g.length := by have := mem_lt hi; simp at this; omega
    subst hl
    simp at hi
    subst hi
    have hfit : Fits outs (outs.map (op.oper .debug d m).null) := by
      refine ⟨?_, fun t ht => ?_⟩
      · rw [List.map_map]; conv_rhs => rw [← List.map_id outs]
        rfl
      · obtain ⟨s, hs, rfl⟩ := List.mem_map.mp ht
        exact ⟨NodeOp.shapes_wf hp hw ho s hs, fun _ => rfl, fun l hl => by cases hl⟩
    refine ⟨op, outs, by rw [h.len, ← h.len']; simp, by rw [h.len]; simp, ⟨d, m, rfl⟩, ?_, hfit, hfit, hfit, fun t ht => ?_⟩
    · refine ⟨xs'.map Tensor.shape, mapR_look_append (mapR_map hxs fun a _ b hb => (h.val hb).2), hp, hw, ho⟩
    · obtain ⟨h1, v, rfl, h2⟩ := hs t ht
      cases ho
      exact ⟨h1, by rw [h2]; rfl⟩

/-! ### forward -/

theorem fwOne_fine (h : GFine ops D g) (i : Nat) : GFine ops D (fwOne g i).1 ∧ (fwOne g i).2.2.Safe := by
  unfold fwOne
  cases ho : g[i]? with
  | none => exact ⟨h, safe_panic⟩
  | some o =>
    simp only
    split
    · exact ⟨h, safe_ok _⟩
    · obtain ⟨op, outs, h1, h2, h3⟩ := h.at' i o ho
      obtain ⟨d, m, hop⟩ := h3.oper
      obtain ⟨ss, e1, e2, e3, e4⟩ := h3.args
      have hg : FwGood o.vals (do let xs ← mapR g.val o.args; o.oper.fw xs o.vals) := by
        refine FwGood.bind (mapR_safe fun a _ => val_safe g a) fun xs hxs => ?_
        rw [hop]
        exact NodeOp.fw_good e2 (mapR_all hxs fun a b hb => (h.val hb).1) h3.vals.2 m
      split
      · rename_i ys hys
        obtain ⟨f1, f2, -⟩ := hg.2 ys hys
        exact ⟨h.set ho fun op outs hk => ⟨hk.oper, hk.args, hk.init, ⟨f2.trans hk.vals.1, f1⟩, hk.grads, hk.sink⟩, safe_ok _⟩
      · have hl : FwGood o.vals (ok (g.leftOf o)) := by
          unfold leftOf
          split
          · rename_i xs hxs
            rw [hop]
            exact NodeOp.left_good op (mapR_all hxs fun a b hb => (h.val hb).1) h3.vals.2 m
          · exact ⟨safe_ok _, fun ys' e => by cases e; exact ⟨h3.vals.2, rfl, rfl⟩⟩
        obtain ⟨f1, f2, -⟩ := hl.2 _ rfl
        exact ⟨h.set ho fun op outs hk => ⟨hk.oper, hk.args, hk.init, ⟨f2.trans hk.vals.1, f1⟩, hk.grads, hk.sink⟩, safe_panic⟩
      · rename_i hub
        exact absurd hub hg.1

theorem fwRun_fine (l : List Nat) (h : GFine ops D g) : GFine ops D (fwRun l g).1 ∧ (fwRun l g).2.2.Safe := by
  induction l generalizing g with
  | nil => exact ⟨h, safe_ok _⟩
  | cons i l ih =>
    obtain ⟨h1, h2⟩ := fwOne_fine h i
    unfold fwRun
    split
    · rename_i g1 b e
      rw [e] at h1
      exact ih h1
    · rename_i g1 b r e h3
      rw [h3] at h1 h2
      exact ⟨h1, h2⟩

theorem forward_fine (h : GFine ops D g) {root : Nat} {g' : Graph (Tensor α)} {tr : List Nat} {r : Res Unit} (hf : Forward g root g' tr r) :
    GFine ops D g' ∧ r.Safe := by
  obtain ⟨pushed, popped, _, _, e⟩ := hf
  have := fwRun_fine popped h
  rw [e] at this
  exact this

/-! ### backward -/

theorem allocReset_good {t : Tensor α} (h : t.Fine) (m : Nat → α) (k : α) :
    (allocReset .debug m k t).Safe ∧ ∀ y, allocReset .debug m k t = ok y → y.Fine ∧ y.shape = t.shape := by
  unfold allocReset
  have key : ∀ z, t.alloc .debug m = ok z → (z.reset .debug k).Safe ∧ ∀ y, z.reset .debug k = ok y → y.Fine ∧ y.shape = t.shape := by
    intro z hz
    have hzf := (Tensor.alloc_good h m).2 z hz
    have hs : z.shape = t.shape := by
      simp only [Tensor.alloc, Res.bind_eq_ok, Res.ok.injEq] at hz
      obtain ⟨_, _, _, _, _, _, _, _, _, _, rfl⟩ := hz
      rfl
    unfold Tensor.reset
    cases hd : z.device with
    | none =>
      have : z.dev = Res.panic := by simp [Tensor.dev, unwrap, hd]
      simp only [this]
      exact ⟨safe_panic, fun _ h => by cases h⟩
    | some e =>
      have he : z.dev = ok e := by simp [Tensor.dev, unwrap, hd]
      simp only [he, ok_bind]
      have := Dev.resetTensor_good (p := .debug) hzf hd k
      exact ⟨this.1, fun y hy => by obtain ⟨a, _, b, _⟩ := this.2 y hy; exact ⟨a, b.trans hs⟩⟩
  refine ⟨Res.Safe.bind (Tensor.alloc_safe _ _ _) fun z hz => (key z hz).1, fun y hy => ?_⟩
  rw [Res.bind_eq_ok] at hy
  obtain ⟨z, hz, hy⟩ := hy
  exact (key z hz).2 y hy

theorem setGrad_fine (h : GFine ops D g) {a : Nat × Nat} {t t' : Tensor α} (ht : g.grad a = ok t) (hf : t'.Fine) (hs : t'.shape = t.shape) :
    GFine ops D (g.setGrad a t') := by
  obtain ⟨o, h1, h2⟩ := grad_eq_ok.mp ht
  refine h.modify fun o' ho' op outs hk => ?_
  rw [h1] at ho'
  obtain rfl := Option.some.inj ho'
  exact ⟨hk.oper, hk.args, hk.init, hk.vals, hk.grads.set h2 hf hs, hk.sink⟩

theorem ensure_fine (h : GFine ops D g) (m0 : Nat → α) (a : Nat × Nat) :
    (ensure (tensorLike .debug m0) g a).Safe ∧ ∀ g', ensure (tensorLike .debug m0) g a = ok g' → GFine ops D g' := by
  unfold ensure
  have key : ∀ t, g.grad a = ok t → (if (tensorLike .debug m0).valid t then ok g else do
      let t ← (tensorLike .debug m0).zeros t
      ok (g.setGrad a t)).Safe ∧ ∀ g', (if (tensorLike .debug m0).valid t then ok g else do
      let t ← (tensorLike .debug m0).zeros t
      ok (g.setGrad a t)) = ok g' → GFine ops D g' := by
    intro t ht
    split
    · exact ⟨safe_ok _, fun g' e => by cases e; exact h⟩
    · have hz := allocReset_good (h.grad ht).1 m0 0
      refine ⟨Res.Safe.bind hz.1 fun _ _ => safe_ok _, fun g' e => ?_⟩
      simp only [Res.bind_eq_ok, Res.ok.injEq] at e
      obtain ⟨t', ht', rfl⟩ := e
      obtain ⟨h1, h2⟩ := hz.2 t' ht'
      exact setGrad_fine h ht h1 h2
  refine ⟨Res.Safe.bind (grad_safe _ _) fun t ht => (key t ht).1, fun g' e => ?_⟩
  rw [Res.bind_eq_ok] at e
  obtain ⟨t, ht, e⟩ := e
  exact (key t ht).2 g' e

theorem update_fine (h : GFine ops D g) {args : List (Nat × Nat)} {u : Nat × (Tensor α → Res (Tensor α))} {ss : List Shape}
    (hss : mapR (look D) args = ok ss) (hu : ∀ gx : Tensor α, gx.Fine → ss[u.1]? = some gx.shape → KeepsT gx (u.2 gx)) :
    (update args g u).Safe ∧ ∀ g', update args g u = ok g' → GFine ops D g' := by
  have key : ∀ a t, at' args u.1 = ok a → g.grad a = ok t → KeepsT t (u.2 t) := by
    intro a t ha ht
    obtain ⟨h1, h2⟩ := h.grad ht
    obtain ⟨b, h3, h4⟩ := mapR_get hss (at'_eq_ok.mp ha)
    rw [h2] at h4
    exact hu t h1 (by rw [h3, Res.ok.inj h4])
  refine ⟨Res.Safe.bind (at_safe _ _) fun a ha => Res.Safe.bind (grad_safe _ _) fun t ht => Res.Safe.bind (key a t ha ht).1 fun _ _ => safe_ok _, fun g' e => ?_⟩
  simp only [update, Res.bind_eq_ok, Res.ok.injEq] at e
  obtain ⟨a, ha, t, ht, t', ht', rfl⟩ := e
  obtain ⟨h1, _, h2⟩ := (key a t ha ht).2 t' ht'
  exact setGrad_fine h ht h1 h2

theorem bwOne_fine (h : GFine ops D g) (m0 : Nat → α) {i : Nat} (hone : ∀ op, ops[i]? = some op → op.OneId) :
    (bwOne (tensorLike .debug m0) g i).Safe ∧ ∀ g', bwOne (tensorLike .debug m0) g i = ok g' → GFine ops D g' := by
  suffices hmain : ∀ o xs ss (T : Graph (Tensor α) → Res (Graph (Tensor α))), (∀ g1, (o.sink = none → T g1 = ok g1) ∧ ∀ t, o.sink = some t →
      T g1 = do
        let gy ← Graph.at' o.grads 0
        let t ← (tensorLike .debug m0).addTo t gy
        ok (g1.setSink i t)) →
      g[i]? = some o → mapR g.val o.args = ok xs → mapR (shapeOf (tensorLike .debug m0) g) o.args = ok ss →
      ((do
        let g ← foldR (ensure (tensorLike .debug m0)) o.args g
        let g ← foldR (update o.args) (o.oper.bw xs o.vals o.grads ss) g
        T g) : Res (Graph (Tensor α))).Safe ∧ ∀ g', ((do
        let g ← foldR (ensure (tensorLike .debug m0)) o.args g
        let g ← foldR (update o.args) (o.oper.bw xs o.vals o.grads ss) g
        T g) : Res (Graph (Tensor α))) = ok g' → GFine ops D g' by
    refine ⟨Res.Safe.bind (at_safe _ _) fun o ho => Res.Safe.bind (mapR_safe fun a _ => val_safe g a) fun xs hxs =>
      Res.Safe.bind (mapR_safe fun a _ => Res.Safe.bind (at_safe _ _) fun _ _ => Res.Safe.bind (at_safe _ _) fun _ _ => safe_ok _) fun ss hss =>
        (hmain o xs ss _ (fun g1 => ⟨fun h => by simp only [h], fun t h => by simp only [h]⟩) (at'_eq_ok.mp ho) hxs hss).1, fun g' e => ?_⟩
    unfold bwOne at e
    rw [Res.bind_eq_ok] at e
    obtain ⟨o, ho, e⟩ := e
    rw [Res.bind_eq_ok] at e
    obtain ⟨xs, hxs, e⟩ := e
    rw [Res.bind_eq_ok] at e
    obtain ⟨ss, hss, e⟩ := e
    exact (hmain o xs ss _ (fun g1 => ⟨fun h => by simp only [h], fun t h => by simp only [h]⟩) (at'_eq_ok.mp ho) hxs hss).2 g' e
  intro o xs ss T hT ho hxs hss
  obtain ⟨op, outs, h1, h2, h3⟩ := h.at' i o ho
  obtain ⟨d, m, hop⟩ := h3.oper
  obtain ⟨ss', e1, e2, e3, e4⟩ := h3.args
  have hss' : ss = ss' := by
    have := mapR_map (h := look D) (k := id) hss fun a _ s hs => h.shapeOf hs
    rw [e1] at this
    simpa using (Res.ok.inj this).symm
  subst hss'
  have hxs' : xs.map Tensor.shape = ss := by
    have := mapR_map (h := look D) (k := Tensor.shape) hxs fun a _ s hs => (h.val hs).2
    rw [e1] at this
    exact (Res.ok.inj this).symm
  have s1 := foldR_safe_inv (f := ensure (tensorLike .debug m0)) (l := o.args) (s := g) (GFine ops D) h fun a _ g hg => ensure_fine hg m0 a
  have s2 : ∀ g1, GFine ops D g1 → (foldR (update o.args) (o.oper.bw xs o.vals o.grads ss) g1).Safe ∧
      ∀ g', foldR (update o.args) (o.oper.bw xs o.vals o.grads ss) g1 = ok g' → GFine ops D g' := by
    intro g1 hg1
    refine foldR_safe_inv (GFine ops D) hg1 fun u hu g2 hg2 => update_fine hg2 e1 fun gx hgx hk => ?_
    rw [hop] at hu
    exact NodeOp.bw_keeps e2 (hone op h1) e3 e4 (mapR_all hxs fun a b hb => (h.val hb).1) h3.vals.2 h3.grads.2 hxs' h3.vals.1 h3.grads.1 m hu hgx hk
  have s3 : ∀ g1 : Graph (Tensor α), GFine ops D g1 → (T g1).Safe ∧ ∀ g', T g1 = ok g' → GFine ops D g' := by
    intro g1 hg1
    cases hs : o.sink with
    | none =>
      rw [(hT g1).1 hs]
      exact ⟨safe_ok _, fun g' e => by cases e; exact hg1⟩
    | some t =>
      rw [(hT g1).2 t hs]
      obtain ⟨f1, f2⟩ := h3.sink t hs
      have key : ∀ gy, Graph.at' o.grads 0 = ok gy → KeepsT t (TF.addAssign .debug t gy) := by
        intro gy hgy
        obtain ⟨f3, f4⟩ := h3.grads.get (at'_eq_ok.mp hgy)
        rw [f2] at f4
        have e := Option.some.inj f4
        exact TF.addAssign_keeps (Like.self f1) ⟨f3, fun i => by rw [e], .inr (by rw [e])⟩
      refine ⟨Res.Safe.bind (at_safe _ _) fun gy hgy => Res.Safe.bind (key gy hgy).1 fun _ _ => safe_ok _, fun g' e => ?_⟩
      simp only [Res.bind_eq_ok, Res.ok.injEq] at e
      obtain ⟨gy, hgy, t', ht', rfl⟩ := e
      obtain ⟨f5, _, f6⟩ := (key gy hgy).2 t' ht'
      refine ⟨by unfold setSink; rw [List.length_modify]; exact hg1.len, hg1.len', fun j oj hj => ?_⟩
      unfold setSink at hj
      by_cases hij : i = j
      · subst hij
        rw [List.getElem?_modify] at hj
        simp at hj
        obtain ⟨o', ho', rfl⟩ := hj
        obtain ⟨op', outs', q1, q2, q3⟩ := hg1.at' i o' ho'
        rw [h2] at q2
        obtain rfl := Option.some.inj q2
        exact ⟨op', outs, q1, h2, q3.oper, q3.args, q3.init, q3.vals, q3.grads, fun t'' e => by cases e; exact ⟨f5, by rw [f2, f6]⟩⟩
      · rw [List.getElem?_modify] at hj
        simp [hij] at hj
        exact hg1.at' j oj hj
  refine ⟨Res.Safe.bind s1.1 fun g1 hg1 => Res.Safe.bind (s2 g1 (s1.2 g1 hg1)).1 fun g2 hg2 => (s3 g2 ((s2 g1 (s1.2 g1 hg1)).2 g2 hg2)).1, fun g' e => ?_⟩
  rw [Res.bind_eq_ok] at e
  obtain ⟨g1, hg1, e⟩ := e
  rw [Res.bind_eq_ok] at e
  obtain ⟨g2, hg2, e⟩ := e
  exact (s3 g2 ((s2 g1 (s1.2 g1 hg1)).2 g2 hg2)).2 g' e

theorem seed_fine (h : GFine ops D g) (m0 : Nat → α) (root : Nat) :
    (seed (tensorLike .debug m0) g root).Safe ∧ ∀ g', seed (tensorLike .debug m0) g root = ok g' → GFine ops D g' := by
  have key : ∀ o, g[root]? = some o → (mapR (allocReset .debug m0 1) o.grads).Safe := by
    intro o ho
    obtain ⟨_, _, _, _, h3⟩ := h.at' root o ho
    exact mapR_safe fun t ht => (allocReset_good (h3.grads.2 t ht) m0 1).1
  refine ⟨Res.Safe.bind (at_safe _ _) fun o ho => Res.Safe.bind (key o (at'_eq_ok.mp ho)) fun _ _ => safe_ok _, fun g' e => ?_⟩
  simp only [seed, Res.bind_eq_ok, Res.ok.injEq, at'_eq_ok] at e
  obtain ⟨o, ho, gs, hgs, rfl⟩ := e
  refine h.set ho fun op outs hk => ⟨hk.oper, hk.args, hk.init, hk.vals, ?_, hk.sink⟩
  have hgs : mapR (allocReset .debug m0 1) o.grads = ok gs := hgs
  have hfine := hk.grads.2
  refine ⟨?_, ?_⟩
  · have h1 : mapR (fun t : Tensor α => ok t.shape) o.grads = ok (gs.map Tensor.shape) :=
      mapR_map hgs fun t ht b hb => by rw [((allocReset_good (hfine t ht) m0 1).2 b hb).2]
    have h2 : mapR (fun t : Tensor α => ok t.shape) o.grads = ok (o.grads.map Tensor.shape) :=
      mapR_map (f := fun t : Tensor α => ok t) (bs := o.grads) (by
        generalize o.grads = l
        induction l with
        | nil => rfl
        | cons a l ih => simp only [mapR, ih, ok_bind]) fun t _ b hb => by cases hb; rfl
    rw [← hk.grads.1, ← Res.ok.inj (h1.symm.trans h2)]
  · intro t ht
    have ht : t ∈ gs := ht
    obtain ⟨k, hk'⟩ := List.getElem?_of_mem ht
    have hlen := mapR_length hgs
    have hkl := (List.getElem?_eq_some_iff.mp hk').1
    obtain ⟨b, hb1, hb2⟩ := mapR_get hgs (k := k) (a := o.grads[k]'(by omega)) (List.getElem?_eq_getElem (by omega))
    rw [hk'] at hb1
    obtain rfl := Option.some.inj hb1
    exact ((allocReset_good (hfine _ (List.getElem_mem _)) m0 1).2 t hb2).1

theorem backwardOnly_fine (h : GFine ops D g) {m0 : Nat → α} {root : Nat} {popped : List Nat} {r : Res (Graph (Tensor α))}
    (hone : ∀ i ∈ popped, ∀ op, ops[i]? = some op → op.OneId)
    (hb : BackwardOnly (tensorLike .debug m0) g root popped r) : r.Safe ∧ ∀ g', r = ok g' → GFine ops D g' := by
  obtain ⟨pushed, _, _, rfl⟩ := hb
  have s1 := seed_fine h m0 root
  have s2 := fun g1 (hg1 : seed (tensorLike .debug m0) g root = ok g1) =>
    foldR_safe_inv (f := bwOne (tensorLike .debug m0)) (l := popped) (GFine ops D) (s1.2 g1 hg1) fun i hi g hg => bwOne_fine hg m0 (hone i hi)
  refine ⟨Res.Safe.bind s1.1 fun g1 hg1 => (s2 g1 hg1).1, fun g' e => ?_⟩
  rw [Res.bind_eq_ok] at e
  obtain ⟨g1, hg1, e⟩ := e
  exact (s2 g1 hg1).2 g' e

end Graph
end Verif
