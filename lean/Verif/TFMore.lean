import Verif.PropsFw
import Verif.DevBw
import Verif.DevMisc

/-!
# More lemmas about functions on tensors: operands of equal shape, reshape, in-place operators
-/

set_option linter.unusedSectionVars false

namespace Verif
open Res
variable {α : Type} [Flt α] {d : Nat} {s t : Shape} {x y : Tensor α} {f g : Arr α}

theorem OpFits.self (s : Shape) : OpFits s s := ⟨.inl fun _ => rfl, .inl rfl⟩

theorem Shape.IsJoin.self (h : s.WF) : s.IsJoin s s := ⟨h, fun _ => (max_self _).symm, (max_self _).symm⟩

theorem bc_valid {c : Nat → Nat} {b : Nat} (hv : s.Valid c b) : bc s c = c := by
  funext i; unfold bc
  have := hv.1 i
  split <;> omega

theorem bb_valid {c : Nat → Nat} {b : Nat} (hv : s.Valid c b) : bb s b = b := by
  unfold bb
  have := hv.2
  split <;> omega

/-- `self ∘ rhs` of tensors of equal shape. -/
theorem abSame {o : Bi} {l r : Sc} (hl : ∀ u v : α, l.fn u v = o.fn v u) (hr : ∀ u v : α, r.fn u v = o.fn u v)
    (hx : x.Holds d s f) (hy : y.Holds d s g) (p : Profile) (m : Nat → α) :
    Yields (TF.abOp o l r p m x y) d s (fun c b => o.fn (f c b) (g c b)) :=
  (abOp_yields hl hr hx hy (OpFits.self s) (Shape.IsJoin.self hx.wf) hx.small p m).congr fun c b hv => by
    rw [bc_valid hv, bb_valid hv]

theorem TF.div_same (hx : x.Holds d s f) (hy : y.Holds d s g) (p : Profile) (m : Nat → α) :
    Yields (TF.div p m x y) d s (fun c b => f c b / g c b) :=
  abSame (o := .div) (l := .divL) (r := .divR) (fun _ _ => rfl) (fun _ _ => rfl) hx hy p m

theorem TF.sub_same (hx : x.Holds d s f) (hy : y.Holds d s g) (p : Profile) (m : Nat → α) :
    Yields (TF.sub p m x y) d s (fun c b => f c b - g c b) :=
  abSame (o := .sub) (l := .subL) (r := .subR) (fun _ _ => rfl) (fun _ _ => rfl) hx hy p m

theorem TF.mul_same (hmul : ∀ u v : α, u * v = v * u) (hx : x.Holds d s f) (hy : y.Holds d s g) (p : Profile) (m : Nat → α) :
    Yields (TF.mul p m x y) d s (fun c b => f c b * g c b) :=
  abSame (o := .mul) (l := .mul) (r := .mul) (fun u v => hmul u v) (fun _ _ => rfl) hx hy p m

theorem TF.add_same (hadd : ∀ u v : α, u + v = v + u) (hx : x.Holds d s f) (hy : y.Holds d s g) (p : Profile) (m : Nat → α) :
    Yields (TF.add p m x y) d s (fun c b => f c b + g c b) :=
  abSame (o := .add) (l := .add) (r := .add) (fun u v => hadd u v) (fun _ _ => rfl) hx hy p m

theorem TF.un_yields (u : Un) (hx : x.Holds d s f) (p : Profile) (m : Nat → α) :
    Yields (TF.call (.un u) p m x [x]) d s (fun c b => u.fn (f c b)) := TF.call1 (op := .un u) hx rfl hx.small trivial p m

theorem TF.cn_yields (o : Cn) (k : α) (hx : x.Holds d s f) (p : Profile) (m : Nat → α) :
    Yields (TF.call (.cn o k) p m x [x]) d s (fun c b => o.fn (f c b) k) := TF.call1 (op := .cn o k) hx rfl hx.small trivial p m

/-- `x += y` with batches reduced or broadcast. -/
theorem TF.addAssign_batch {sy : Shape} (hx : x.Holds d s f) (hy : y.Holds d sy g) (hd : ∀ i, sy.get i = s.get i)
    (hb : BatchCompat sy s) (p : Profile) :
    Yields (TF.addAssign p x y) d s (fun c b => overBatch s (Max.max sy.batch s.batch) b (fun b' acc => acc + g c (bb sy b')) (f c b)) := by
  obtain ⟨g', e, h⟩ := K.opAssign_holds (p := p) (u := []) (v := []) (fun w x => w + x) hy hx hd (by rcases hb with h | h | h <;> omega)
  refine ⟨g', ?_, h⟩
  rw [← e]
  simp [TF.addAssign, Tensor.dev, hx.device, hy.device, Dev.addAssign, Tensor.onDev, Dev.callFw, Naive.fwImpl, unwrap, check]

theorem TF.subAssign_batch {sy : Shape} (hx : x.Holds d s f) (hy : y.Holds d sy g) (hd : ∀ i, sy.get i = s.get i)
    (hb : BatchCompat sy s) (p : Profile) :
    Yields (TF.subAssign p x y) d s (fun c b => overBatch s (Max.max sy.batch s.batch) b (fun b' acc => acc - g c (bb sy b')) (f c b)) := by
  obtain ⟨g', e, h⟩ := K.opAssign_holds (p := p) (u := []) (v := []) (fun w x => w - x) hy hx hd (by rcases hb with h | h | h <;> omega)
  refine ⟨g', ?_, h⟩
  rw [← e]
  simp [TF.subAssign, Tensor.dev, hx.device, hy.device, Dev.subAssign, Tensor.onDev, Dev.callFw, Naive.fwImpl, unwrap, check]

theorem TF.addAssign_same (hx : x.Holds d s f) (hy : y.Holds d s g) (p : Profile) :
    Yields (TF.addAssign p x y) d s (fun c b => f c b + g c b) :=
  (TF.addAssign_batch hx hy (fun _ => rfl) (.inl rfl) p).congr fun c b hv => by
    rw [max_self, K.overBatch_same rfl hv.2, bb_valid hv]

theorem TF.subAssign_same (hx : x.Holds d s f) (hy : y.Holds d s g) (p : Profile) :
    Yields (TF.subAssign p x y) d s (fun c b => f c b - g c b) :=
  (TF.subAssign_batch hx hy (fun _ => rfl) (.inl rfl) p).congr fun c b hv => by
    rw [max_self, K.overBatch_same rfl hv.2, bb_valid hv]

theorem TF.mulAssign_ok (hx : x.Holds d s f) (p : Profile) (k : α) : Yields (TF.mulAssign p x k) d s (fun c b => f c b * k) := by
  obtain ⟨y, e, h⟩ := Dev.mulAssignConst_ok hx p k
  exact ⟨y, by simp only [TF.mulAssign, Tensor.dev, hx.device, unwrap, ok_bind, e], h⟩

theorem Tensor.reset_ok (hx : x.Holds d s f) (p : Profile) (k : α) : Yields (x.reset p k) d s (fun _ _ => k) := by
  obtain ⟨y, e, h⟩ := Dev.resetTensor_ok hx p k
  exact ⟨y, by simp only [Tensor.reset, Tensor.dev, hx.device, unwrap, ok_bind, e], h⟩

/-- `update_shape`: the elements stay where they are stored. -/
theorem Tensor.updateShape_ok (hx : x.Holds d s f) (ht : t.WF) (hsz : t.size = s.size) (p : Profile) :
    Yields (x.updateShape p t) d t (fun c b => Arr.flat s f (t.offset c b)) := by
  have hsm : t.size ≤ 2 ^ 31 := by rw [hsz]; exact hx.small
  refine ⟨{ x with shape := t }, ?_, ?_⟩
  · simp only [Tensor.updateShape, hx.shape, Shape.sizeU_eq hsm, Shape.sizeU_eq hx.small, ok_bind]
    rw [check_true _ hsz]; rfl
  · obtain ⟨l, h1, h2, h3⟩ := hx.flat.buf
    exact ⟨hx.device, hx.host, rfl, ht, hsm, l, h1, by omega, fun c b hv => h3 _ (by rw [← hsz]; exact ht.offset_lt hv)⟩

theorem TF.reshape_ok (hx : x.Holds d s f) (ht : t.WF) (hsz : t.size = s.size) (p : Profile) (m : Nat → α) :
    Yields (TF.reshape p m x t) d t (fun c b => Arr.flat s f (t.offset c b)) := by
  obtain ⟨y, e, h⟩ := Dev.copyTensor_ok hx p d m
  obtain ⟨z, e2, h2⟩ := Tensor.updateShape_ok h ht hsz p
  exact ⟨z, by simp only [TF.reshape, Tensor.dev, hx.device, unwrap, ok_bind, e, e2], h2⟩

end Verif
