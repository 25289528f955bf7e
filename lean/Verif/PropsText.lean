import Verif.ShapeText
import Verif.PropsShape2

/-!
# C95: a printed shape determines the shape; what `shape![…]` means
-/

namespace Verif
open Res Shape

/-! ### Text -/

theorem dec_inj {a b : Nat} (h : dec a = dec b) : a = b := by
  have h1 := Nat.ofDigitChars_ten_toDigits (n := a)
  have h2 := Nat.ofDigitChars_ten_toDigits (n := b)
  unfold dec at h
  rw [h] at h1
  exact h1.symm.trans h2

theorem dec_digit {a : Nat} {c : Char} (h : c ∈ dec a) : c.isDigit = true :=
  Nat.isDigit_of_mem_toDigits (by decide) (by decide) h

theorem dec_ne_nil (a : Nat) : dec a ≠ [] := Nat.toDigits_ne_nil

/-- A number ends where the first other character begins. -/
theorem dec_append {a b : Nat} {x y : Char} {r q : List Char} (hx : x.isDigit = false) (hy : y.isDigit = false)
    (h : dec a ++ x :: r = dec b ++ y :: q) : a = b ∧ x = y ∧ r = q := by
  have key : ∀ (n : Nat) (z : Char) (w : List Char), z.isDigit = false →
      (dec n ++ z :: w).takeWhile (·.isDigit) = dec n := by
    intro n z w hz
    rw [List.takeWhile_append_of_pos (fun c hc => dec_digit hc), List.takeWhile_cons_of_neg (by simp [hz]), List.append_nil]
  have h1 : dec a = dec b := by rw [← key a x r hx, h, key b y q hy]
  have h2 : a = b := dec_inj h1
  subst h2
  have h3 := List.append_cancel_left h
  exact ⟨rfl, (List.cons.inj h3).1, (List.cons.inj h3).2⟩

theorem dec_append_ne {a : Nat} {x : Char} {r q : List Char} (hx : x.isDigit = false) : dec a ++ r ≠ x :: q := by
  intro h
  obtain ⟨c, l, e⟩ := List.exists_cons_of_ne_nil (dec_ne_nil a)
  have hc : c.isDigit = true := dec_digit (a := a) (by rw [e]; exact List.mem_cons_self)
  rw [e, List.cons_append] at h
  rw [(List.cons.inj h).1, hx] at hc
  cases hc

theorem commaSep_append : ∀ (l m : List Nat) {r q : List Char}, commaSep l ++ ']' :: r = commaSep m ++ ']' :: q → l = m ∧ r = q
  | [], [], _, _, h => ⟨rfl, (List.cons.inj h).2⟩
  | [], [b], _, _, h => absurd h.symm (dec_append_ne (by decide))
  | [], b :: b' :: m, r, q, h => by
    simp only [commaSep, List.nil_append, List.append_assoc] at h
    exact absurd h.symm (dec_append_ne (by decide))
  | [a], [], _, _, h => absurd h (dec_append_ne (by decide))
  | a :: a' :: l, [], r, q, h => by
    simp only [commaSep, List.nil_append, List.append_assoc] at h
    exact absurd h (dec_append_ne (by decide))
  | [a], [b], r, q, h => by
    obtain ⟨h1, _, h3⟩ := dec_append (by decide) (by decide) h
    exact ⟨by rw [h1], h3⟩
  | [a], b :: b' :: m, r, q, h => by
    simp only [commaSep, List.append_assoc, List.cons_append] at h
    obtain ⟨_, h2, _⟩ := dec_append (by decide) (by decide) h
    exact absurd h2 (by decide)
  | a :: a' :: l, [b], r, q, h => by
    simp only [commaSep, List.append_assoc, List.cons_append] at h
    obtain ⟨_, h2, _⟩ := dec_append (by decide) (by decide) h
    exact absurd h2 (by decide)
  | a :: a' :: l, b :: b' :: m, r, q, h => by
    have h' : dec a ++ ',' :: (' ' :: (commaSep (a' :: l) ++ ']' :: r)) = dec b ++ ',' :: (' ' :: (commaSep (b' :: m) ++ ']' :: q)) := by
      simpa only [commaSep, List.append_assoc, List.cons_append] using h
    obtain ⟨h1, _, h3⟩ := dec_append (by decide) (by decide) h'
    obtain ⟨h4, h5⟩ := commaSep_append (a' :: l) (b' :: m) (List.cons.inj h3).2
    exact ⟨by rw [h1, h4], h5⟩

theorem debugText_record {s t : Shape} : s.debugText = t.debugText ↔ s.dimsSlice = t.dimsSlice ∧ s.batch = t.batch := by
  constructor
  · intro h
    have h1 := List.append_cancel_left h
    obtain ⟨h2, h3⟩ := commaSep_append _ _ (r := ',' :: ' ' :: (dec s.batch ++ " }".toList)) (q := ',' :: ' ' :: (dec t.batch ++ " }".toList)) h1
    have h4 : dec s.batch ++ ' ' :: ['}'] = dec t.batch ++ ' ' :: ['}'] := (List.cons.inj (List.cons.inj h3).2).2
    exact ⟨h2, (dec_append (by decide) (by decide) h4).1⟩
  · rintro ⟨h1, h2⟩
    unfold debugText
    rw [h1, h2]

/-- C95: two shapes print the same text under `{:?}` exactly when `==` holds between them, which is when they have the same batch and the same
dimension on every axis. -/
theorem C95_debug_injective {s t : Shape} (hs : s.Reachable) (ht : t.Reachable) :
    (s.debugText = t.debugText ↔ s = t) ∧ (s.debugText = t.debugText ↔ s.batch = t.batch ∧ ∀ i, s.get i = t.get i) := by
  have key : s.debugText = t.debugText ↔ s = t := by
    constructor
    · intro h
      obtain ⟨h1, h2⟩ := debugText_record.mp h
      have e : s.toRecord = t.toRecord := Prod.ext h1 h2
      have hr := C07_roundtrip hs .debug
      rw [e, C07_roundtrip ht .debug] at hr
      cases hr; rfl
    · rintro rfl; rfl
  exact ⟨key, key.trans (C02_eq_iff hs ht)⟩

/-- C95: in a build without overflow checks as well: shapes made by `Shape::new` from any dimensions print the same text exactly when their batches
and their dimensions (padded with ones) are the same, even when their volumes have wrapped around to the same number. -/
theorem C95_debug_release {ds es : List Nat} {b c : Nat} {s t : Shape} (hs : Shape.new .release ds b = ok s)
    (ht : Shape.new .release es c = ok t) : s.debugText = t.debugText ↔ b = c ∧ ∀ i, ds.getD i 1 = es.getD i 1 := by
  obtain ⟨s1, s2, -, s4, s5⟩ := C01_new_canonical_release hs
  obtain ⟨t1, t2, -, t4, t5⟩ := C01_new_canonical_release ht
  rw [debugText_record, s2, t2]
  constructor
  · rintro ⟨h1, h2⟩
    refine ⟨h2, fun i => ?_⟩
    have h3 := s5 i
    rw [h1, t5 i] at h3
    by_cases hi : i < t.depth
    · rw [if_pos hi] at h3
      split at h3
      · exact (Option.some.inj h3).symm
      · cases h3
    · rw [if_neg hi] at h3
      split at h3
      · cases h3
      · rename_i hi'
        exact ((s4 s.depth).mp le_rfl i (by omega)).trans ((t4 t.depth).mp le_rfl i (by omega)).symm
  · rintro ⟨h1, h2⟩
    have h2' : ∀ i, raw ds i = raw es i := h2
    have hd : s.depth = t.depth := by
      apply Nat.le_antisymm
      · exact (s4 _).mpr fun i hi => (h2' i).trans ((t4 _).mp le_rfl i hi)
      · exact (t4 _).mpr fun i hi => (h2' i).symm.trans ((s4 _).mp le_rfl i hi)
    refine ⟨List.ext_getElem? fun i => ?_, h1⟩
    rw [s5, t5, hd, h2']

/-! ### The macro -/

/-- A list of arguments separated by commas. -/
def sepBy (ds : List Nat) : List MTok := (ds.map MTok.expr).intersperse .comma
/-- A list of arguments each followed by a comma. -/
def endBy (ds : List Nat) : List MTok := ds.flatMap fun v => [.expr v, .comma]

theorem emitSep_eq : ∀ ds, emitSep ds = sepBy ds
  | [] => rfl
  | [v] => rfl
  | v :: w :: l => by
    show MTok.expr v :: .comma :: emitSep (w :: l) = _
    rw [emitSep_eq (w :: l)]
    rfl

theorem matchSep_sound : ∀ {ts : List MTok} {ds : List Nat} {r : List MTok}, matchSep ts = some (ds, r) → ts = sepBy ds ++ r := by
  intro ts
  induction ts using matchSep.induct with
  | case1 v l ih =>
    intro ds r h
    simp only [matchSep] at h
    cases hm : matchSep l with
    | none => rw [hm] at h; cases h
    | some p =>
      rw [hm] at h
      obtain ⟨es, q⟩ := p
      simp only [Option.bind_some] at h
      split at h
      · cases h
      · rename_i hne
        cases h
        rw [ih hm]
        cases es with
        | nil => exact absurd rfl hne
        | cons w es => rfl
  | case2 v l hc =>
    intro ds r h
    rw [matchSep] at h
    · cases h; rfl
    · exact hc
  | case3 l h1 h2 =>
    intro ds r h
    rw [matchSep] at h
    · cases h; rfl
    · exact h1
    · exact h2

theorem matchSep_complete : ∀ (ds : List Nat) {r : List MTok}, (∀ v l, r ≠ .expr v :: l) → (∀ l, r ≠ .comma :: l) →
    matchSep (sepBy ds ++ r) = some (ds, r)
  | [], r, h1, h2 => by
    show matchSep r = _
    unfold matchSep
    split
    · exact absurd rfl (h1 _ _)
    · exact absurd rfl (h1 _ _)
    · rfl
  | [v], r, h1, h2 => by
    show matchSep (.expr v :: r) = _
    rw [matchSep]
    rintro l rfl
    exact h2 _ rfl
  | v :: w :: l, r, h1, h2 => by
    show matchSep (.expr v :: .comma :: (sepBy (w :: l) ++ r)) = _
    rw [matchSep, matchSep_complete (w :: l) h1 h2]
    rfl

theorem matchSep_endBy : ∀ (v : Nat) (ds : List Nat), matchSep (endBy (v :: ds)) = none
  | v, [] => rfl
  | v, w :: ds => by
    show matchSep (.expr v :: .comma :: endBy (w :: ds)) = _
    rw [matchSep, matchSep_endBy w ds]
    rfl

theorem matchEach_sound : ∀ (ts : List MTok), ts = endBy (matchEach ts).1 ++ (matchEach ts).2 := by
  intro ts
  induction ts using matchEach.induct with
  | case1 v l ih =>
    show MTok.expr v :: .comma :: l = MTok.expr v :: .comma :: (endBy (matchEach l).1 ++ (matchEach l).2)
    rw [← ih]
  | case2 l h =>
    rw [matchEach]
    · rfl
    · exact h

theorem matchEach_complete : ∀ (ds : List Nat), matchEach (endBy ds) = (ds, [])
  | [] => rfl
  | v :: ds => by
    show matchEach (.expr v :: .comma :: endBy ds) = _
    rw [matchEach, matchEach_complete ds]

theorem macro_batch (lim : Nat) (ds : List Nat) (b : Nat) : shapeMacro (lim + 1) (sepBy ds ++ [.semi, .expr b]) = some (ds, b) := by
  rw [shapeMacro, matchSep_complete ds (by intro v l h; cases h) (by intro l h; cases h)]

theorem macro_plain (lim : Nat) (ds : List Nat) : shapeMacro (lim + 2) (sepBy ds) = some (ds, 1) := by
  have h := matchSep_complete ds (r := []) (by intro v l h; cases h) (by intro l h; cases h)
  rw [List.append_nil] at h
  rw [shapeMacro, h]
  show shapeMacro (lim + 1) (emitSep ds ++ _) = _
  rw [emitSep_eq, macro_batch]

theorem macro_trailing (lim : Nat) (ds : List Nat) : shapeMacro (lim + 3) (endBy ds) = some (ds, 1) := by
  cases ds with
  | nil => exact macro_plain (lim + 1) []
  | cons v ds =>
    rw [shapeMacro, matchSep_endBy, matchEach_complete]
    show shapeMacro (lim + 2) (emitSep (v :: ds)) = _
    rw [emitSep_eq, macro_plain]

/-- C95: what `shape![…]` means, for every sequence of tokens and rustc's recursion limit (128; any limit from 3 on): the program compiles and calls
`Shape::new(ds, b)` exactly when the tokens are `ds` separated by commas, then `;` and `b`; or `ds` separated by commas, or `ds` each followed by
a comma, and then `b` is 1. -/
theorem C95_shape_macro {lim : Nat} (hlim : 3 ≤ lim) (ts : List MTok) (ds : List Nat) (b : Nat) :
    shapeMacro lim ts = some (ds, b) ↔
      ts = sepBy ds ++ [.semi, .expr b] ∨ (b = 1 ∧ (ts = sepBy ds ∨ ts = endBy ds)) := by
  obtain ⟨k, rfl⟩ := Nat.exists_eq_add_of_le' hlim
  constructor
  · intro h
    rw [shapeMacro] at h
    split at h
    · rename_i hm
      cases h
      exact .inl (matchSep_sound hm)
    · rename_i es hm
      rw [emitSep_eq, macro_batch (k + 1)] at h
      cases h
      refine .inr ⟨rfl, .inl ?_⟩
      rw [matchSep_sound hm, List.append_nil]
    · split at h
      · rename_i es hm
        rw [emitSep_eq, macro_plain k] at h
        cases h
        refine .inr ⟨rfl, .inr ?_⟩
        have := matchEach_sound ts
        rw [hm, List.append_nil] at this
        exact this
      · cases h
  · rintro (rfl | ⟨rfl, rfl | rfl⟩)
    · exact macro_batch (k + 2) ds b
    · exact macro_plain (k + 1) ds
    · exact macro_trailing k ds

/-- C95: a batch after a trailing comma does not compile. -/
theorem C95_no_comma_before_batch {lim : Nat} (hlim : 3 ≤ lim) (v : Nat) (ds : List Nat) (b : Nat) :
    shapeMacro lim (endBy (v :: ds) ++ [.semi, .expr b]) = none := by
  cases h : shapeMacro lim (endBy (v :: ds) ++ [.semi, .expr b]) with
  | none => rfl
  | some p =>
    obtain ⟨es, c⟩ := p
    exfalso
    have hno : ∀ (v : Nat) (ds es : List Nat) (l : List MTok), endBy (v :: ds) ++ .semi :: l ≠ sepBy es ++ .semi :: l := by
      intro v ds
      induction ds generalizing v with
      | nil =>
        intro es l h
        match es with
        | [] => cases h
        | [w] => cases (List.cons.inj h).2
        | w :: [w'] => cases (List.cons.inj (List.cons.inj h).2).2
        | w :: w' :: w'' :: es => cases (List.cons.inj (List.cons.inj h).2).2
      | cons v' ds ih =>
        intro es l h
        match es with
        | [] => cases h
        | [w] => cases (List.cons.inj h).2
        | w :: w' :: es => exact ih v' (w' :: es) l (List.cons.inj (List.cons.inj h).2).2
    have hmem : MTok.semi ∈ endBy (v :: ds) ++ [.semi, .expr b] := by simp
    rcases (C95_shape_macro hlim _ _ _).mp h with h1 | ⟨_, h1 | h1⟩
    · have hl : (endBy (v :: ds) ++ [MTok.semi, .expr b]).getLast? = (sepBy es ++ [MTok.semi, .expr c]).getLast? := by rw [h1]
      have e : b = c := by simpa using hl
      subst e
      exact hno _ _ _ _ h1
    · rw [h1, ← emitSep_eq] at hmem
      have : ∀ l : List Nat, MTok.semi ∉ emitSep l := by
        intro l
        induction l using emitSep.induct with
        | case1 => simp [emitSep]
        | case2 => simp [emitSep]
        | case3 v w l ih => simp [emitSep, ih]
      exact this _ hmem
    · rw [h1] at hmem
      simp [endBy] at hmem

/-! ### Concrete cases -/

example : ∃ s, Shape.new .debug [2, 1, 30, 1] 4 = ok s ∧ s.debugText = "Shape { [2, 1, 30], 4 }".toList :=
  ⟨⟨[2, 1, 30, 1, 1, 1, 1, 1], 4, 3, 60⟩, by decide, by decide⟩
example : ∃ s, Shape.new .debug [] 1 = ok s ∧ s.debugText = "Shape { [], 1 }".toList :=
  ⟨⟨[1, 1, 1, 1, 1, 1, 1, 1], 1, 0, 1⟩, by decide, by decide⟩
example : shapeMacro 128 [.expr 2, .comma, .expr 3, .semi, .expr 4] = some ([2, 3], 4) := by decide
example : shapeMacro 128 [.expr 2, .comma, .expr 3, .comma] = some ([2, 3], 1) := by decide
example : shapeMacro 128 [] = some ([], 1) := by decide
example : shapeMacro 128 [.semi, .expr 5] = some ([], 5) := by decide
/-- Hypotheses of `C95_debug_release` with volumes that have wrapped around to 0. -/
example : ∃ s t, Shape.new .release [65536, 65536] 1 = ok s ∧ Shape.new .release [65536, 131072] 1 = ok t ∧ s.volume = t.volume ∧
    s.debugText ≠ t.debugText :=
  ⟨⟨[65536, 65536, 1, 1, 1, 1, 1, 1], 1, 2, 0⟩, ⟨[65536, 131072, 1, 1, 1, 1, 1, 1], 1, 2, 0⟩, by decide, by decide, by decide, by decide⟩

end Verif
