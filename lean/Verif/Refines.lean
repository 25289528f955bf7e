import Verif.ShapeOpsLemmas

/-!
# Comparing the two build profiles
-/

namespace Verif
open Res Shape ShapeOps

/-- `y` does what `x` does whenever `x` returns. -/
def Refines (x y : Res α) : Prop := ∀ a, x = ok a → y = ok a

theorem Refines.rfl {x : Res α} : Refines x x := fun _ h => h
theorem Refines.bind {x y : Res α} {f g : α → Res β} (h : Refines x y) (hf : ∀ a, Refines (f a) (g a)) :
    Refines (x >>= f) (y >>= g) := by
  intro b hb
  obtain ⟨a, ha, hb⟩ := bind_eq_ok.mp hb
  rw [h a ha, ok_bind]
  exact hf a b hb
theorem Refines.loop {n : Nat} {f g : Nat → σ → Res σ} (h : ∀ i s, Refines (f i s) (g i s)) (s : σ) :
    Refines (Verif.loop n f s) (Verif.loop n g s) := by
  induction n with
  | zero => exact .rfl
  | succ n ih => rw [loop_succ, loop_succ]; exact Refines.bind ih (h n)
theorem Refines.u32 (x : Nat) : Refines (Verif.u32 .debug x) (Verif.u32 .release x) := by
  intro a h
  obtain ⟨h1, rfl⟩ := u32_debug_ok.mp h
  exact u32_ok h1

theorem refines_new (dims : List Nat) (b : Nat) : Refines (Shape.new .debug dims b) (Shape.new .release dims b) :=
  .bind .rfl fun _ => .bind .rfl fun _ => .bind (.loop (fun _ _ => .bind .rfl fun _ => .bind .rfl fun _ =>
    .bind (.u32 _) fun _ => .rfl) _) fun _ => .rfl
theorem refines_resizeDim (s : Shape) (dim m : Nat) :
    Refines (s.resizeDim .debug dim m) (s.resizeDim .release dim m) :=
  .bind .rfl fun _ => .bind .rfl fun _ => .bind .rfl fun _ => .bind (.u32 _) fun _ => .rfl
theorem refines_hasSameLooDims (s r : Shape) (dim : Nat) :
    Refines (s.hasSameLooDims .debug r dim) (s.hasSameLooDims .release r dim) := .bind (.u32 _) fun _ => .rfl


end Verif
