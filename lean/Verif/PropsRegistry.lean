import Verif.Registry
import Verif.PropsSafety3

/-!
# C56: kernels are found by their names
-/

namespace Verif
open Res
variable {α : Type}

/-! ## The tables as maps -/

theorem KMap.insert_self {κ : Type} (t : KMap κ) (n : String) (k : κ) : t.insert n k n = some k := by simp [KMap.insert]

theorem KMap.insert_other {κ : Type} (t : KMap κ) {n x : String} (k : κ) (h : x ≠ n) : t.insert n k x = t x := by simp [KMap.insert, h]

section
variable [Flt α]

theorem naive_fw (r : Rng α) (srt : (Nat → Nat → Bool) → List Nat → List Nat) (op : FwOp α) :
    (Naive.new r srt).fw op.str = some (Naive.fwImpl op.name) := by
  cases op with
  | un u => cases u <;> rfl
  | cn c k => cases c <;> rfl
  | bi b => cases b <;> rfl
  | sc s => cases s <;> rfl
  | _ => rfl

theorem naive_bw (r : Rng α) (srt : (Nat → Nat → Bool) → List Nat → List Nat) (op : BwOp α) :
    (Naive.new r srt).bw op.str = Naive.bwImpl op.name := by
  cases op with
  | un u => cases u <;> rfl
  | cn c k => cases c <;> rfl
  | biA b => cases b <;> rfl
  | biB b => cases b <;> rfl
  | _ => rfl

/-! ## On `Naive`, every device function is the one the rest of the model uses -/

/-- C56: on a device made by `Naive::new` every forward function finds a kernel under the name it asks for, and the whole function -- the
checks, the shape of the result, the allocation and the kernel found in the table -- is `Dev.fw`. -/
theorem C56_naive_forward (r : Rng α) (srt : (Nat → Nat → Bool) → List Nat → List Nat) (op : FwOp α) (p : Profile) (d : Nat) (m : Nat → α)
    (xs : List (Tensor α)) : (∃ k, (Naive.new r srt).fw op.str = some k) ∧ (Naive.new r srt).fwFn op p d m xs = Dev.fw op p d m xs := by
  refine ⟨⟨_, naive_fw r srt op⟩, ?_⟩
  simp only [DevTable.fwFn, DevTable.callFw, Dev.fw, Dev.callFw, naive_fw]

/-- C56, backward functions. -/
theorem C56_naive_backward (r : Rng α) (srt : (Nat → Nat → Bool) → List Nat → List Nat) (op : BwOp α) (p : Profile) (d : Nat) (m : Mem α)
    (xs ys : List (Tensor α)) (gy gx : Tensor α) : (Naive.new r srt).bwFn op p d m xs ys gy gx = Dev.bw op p d m xs ys gy gx := by
  simp only [DevTable.bwFn, DevTable.callBw, Dev.bw, Dev.callBw, naive_bw]
  cases Naive.bwImpl (α := α) op.name <;> rfl

/-- C56, the backward functions that find a kernel: all but those of `neg` and `softplus`, which have none (and which no operator calls). -/
theorem C56_naive_backward_found (r : Rng α) (srt : (Nat → Nat → Bool) → List Nat → List Nat) (op : BwOp α) :
    (∃ k, (Naive.new r srt).bw op.str = some k) ↔ op ≠ .un .neg ∧ op ≠ .un .softplus := by
  rw [naive_bw]
  cases op with
  | un u => cases u <;> simp [BwOp.name, Naive.bwImpl, Un.bwFn]
  | cn c k => cases c <;> simp [BwOp.name, Naive.bwImpl]
  | biA b => cases b <;> simp [BwOp.name, Naive.bwImpl]
  | biB b => cases b <;> simp [BwOp.name, Naive.bwImpl]
  | _ => simp [BwOp.name, Naive.bwImpl]

/-- C56, the other device functions: assignments, resets, reading out, argmax/argmin/argsort, random tensors. -/
theorem C56_naive_others (r : Rng α) (srt : (Nat → Nat → Bool) → List Nat → List Nat) (p : Profile) (d : Nat) (m : Nat → α)
    (x y : Tensor α) (k l : α) (vs : List α) (dim : Nat) (s : Shape) :
    (Naive.new r srt).addAssign p d x y = Dev.addAssign p d x y ∧
    (Naive.new r srt).subAssign p d x y = Dev.subAssign p d x y ∧
    (Naive.new r srt).mulAssignConst p d k y = Dev.mulAssignConst p d k y ∧
    (Naive.new r srt).resetTensor p x k = Dev.resetTensor p x k ∧
    (Naive.new r srt).resetTensorBySlice p x vs = Dev.resetTensorBySlice p x vs ∧
    (Naive.new r srt).resetTensorByTensor p x y = Dev.resetTensorByTensor p x y ∧
    (Naive.new r srt).tensorToVector p x = Dev.tensorToVector p x ∧
    (Naive.new r srt).tensorToFloat p x = Dev.tensorToFloat p x ∧
    (Naive.new r srt).argmax p d x dim = Dev.argmax p d x dim ∧
    (Naive.new r srt).argmin p d x dim = Dev.argmin p d x dim ∧
    (Naive.new r srt).argsort p d x dim = Dev.argsort srt p d x dim ∧
    (Naive.new r srt).randomBernoulli p d m s k = Dev.randomBernoulli p d m r s k ∧
    (Naive.new r srt).randomNormal p d m s k l = Dev.randomNormal p d m r s k l ∧
    (Naive.new r srt).randomUniform p d m s k l = Dev.randomUniform p d m r s k l :=
  ⟨rfl, rfl, rfl, rfl, rfl, rfl, rfl, rfl, rfl, rfl, rfl, rfl, rfl, rfl⟩

/-! ## Names -/

/-- C56: the names under which `Naive::new` registers kernels are pairwise distinct within each table: no registration overwrites another. -/
theorem C56_names_distinct (r : Rng α) (srt : (Nat → Nat → Bool) → List Nat → List Nat) :
    ((Naive.fwRegs r).map Prod.fst).Nodup ∧ ((Naive.bwRegs (α := α)).map Prod.fst).Nodup ∧
    ((Naive.u32Regs (α := α) srt).map Prod.fst).Nodup ∧ ((Naive.f32Regs (α := α)).map Prod.fst).Nodup := by
  refine ⟨?_, ?_, ?_, ?_⟩ <;> simp only [Naive.fwRegs, Naive.bwRegs, Naive.u32Regs, Naive.f32Regs, List.map_cons, List.map_nil] <;> decide

omit [Flt α] in
theorem fold_keeps {ι : Type} {β : Type} (f : DevTable α → β) (g : DevTable α → ι → DevTable α) (h : ∀ t a, f (g t a) = f t) (l : List ι)
    (t : DevTable α) : f (l.foldl g t) = f t := by
  induction l generalizing t with
  | nil => rfl
  | cons a l ih => exact (ih _).trans (h t a)

theorem new_fw (r : Rng α) (srt : (Nat → Nat → Bool) → List Nat → List Nat) :
    (Naive.new r srt).fw = ((Naive.fwRegs r).foldl (fun t a => t.registerFw a.1 a.2) DevTable.empty).fw := by
  unfold Naive.new
  dsimp only
  rw [fold_keeps DevTable.fw (fun (t : DevTable α) (a : String × BwK α) => t.registerBw a.1 a.2) (fun _ _ => rfl),
    fold_keeps DevTable.fw (fun (t : DevTable α) (a : String × F32K α) => t.registerF32 a.1 a.2) (fun _ _ => rfl),
    fold_keeps DevTable.fw (fun (t : DevTable α) (a : String × U32K α) => t.registerU32 a.1 a.2) (fun _ _ => rfl)]

theorem new_bw (r : Rng α) (srt : (Nat → Nat → Bool) → List Nat → List Nat) :
    ∃ t : DevTable α, t.bw = DevTable.empty.bw ∧ Naive.new r srt = Naive.bwRegs.foldl (fun t a => t.registerBw a.1 a.2) t := by
  refine ⟨Naive.f32Regs.foldl (fun t a => t.registerF32 a.1 a.2) ((Naive.u32Regs srt).foldl (fun t a => t.registerU32 a.1 a.2)
      ((Naive.fwRegs r).foldl (fun t a => t.registerFw a.1 a.2) DevTable.empty)), ?_, by unfold Naive.new; dsimp only⟩
  rw [fold_keeps DevTable.bw (fun (t : DevTable α) (a : String × F32K α) => t.registerF32 a.1 a.2) (fun _ _ => rfl),
    fold_keeps DevTable.bw (fun (t : DevTable α) (a : String × U32K α) => t.registerU32 a.1 a.2) (fun _ _ => rfl),
    fold_keeps DevTable.bw (fun (t : DevTable α) (a : String × FwK α) => t.registerFw a.1 a.2) (fun _ _ => rfl)]

omit [Flt α] in
theorem fold_fw_last {l : List (String × FwK α)} (hn : (l.map Prod.fst).Nodup) (t : DevTable α) (n : String) :
    (∀ k, (n, k) ∈ l → (l.foldl (fun t a => t.registerFw a.1 a.2) t).fw n = some k) ∧
    (n ∉ l.map Prod.fst → (l.foldl (fun t a => t.registerFw a.1 a.2) t).fw n = t.fw n) := by
  induction l generalizing t with
  | nil => exact ⟨fun k h => by simp at h, fun _ => rfl⟩
  | cons a l ih =>
    rw [List.map_cons, List.nodup_cons] at hn
    have ih := ih hn.2 (t.registerFw a.1 a.2)
    constructor
    · intro k h
      rcases List.mem_cons.mp h with rfl | h
      · exact (ih.2 hn.1).trans (KMap.insert_self _ _ _)
      · exact ih.1 k h
    · intro h
      rw [List.map_cons, List.mem_cons, not_or] at h
      exact (ih.2 h.2).trans (KMap.insert_other _ _ h.1)

omit [Flt α] in
theorem fold_bw_last {l : List (String × BwK α)} (hn : (l.map Prod.fst).Nodup) (t : DevTable α) (n : String) :
    (∀ k, (n, k) ∈ l → (l.foldl (fun t a => t.registerBw a.1 a.2) t).bw n = some k) ∧
    (n ∉ l.map Prod.fst → (l.foldl (fun t a => t.registerBw a.1 a.2) t).bw n = t.bw n) ∧
    (l.foldl (fun t a => t.registerBw a.1 a.2) t).fw = t.fw := by
  induction l generalizing t with
  | nil => exact ⟨fun k h => by simp at h, fun _ => rfl, rfl⟩
  | cons a l ih =>
    rw [List.map_cons, List.nodup_cons] at hn
    have ih := ih hn.2 (t.registerBw a.1 a.2)
    refine ⟨?_, ?_, ih.2.2⟩
    · intro k h
      rcases List.mem_cons.mp h with rfl | h
      · exact (ih.2.1 hn.1).trans (KMap.insert_self _ _ _)
      · exact ih.1 k h
    · intro h
      rw [List.map_cons, List.mem_cons, not_or] at h
      exact (ih.2.1 h.2).trans (KMap.insert_other _ _ h.1)

/-- C56: `call_fw_impl` with any string: the kernel registered by `Naive::new` under exactly this string runs with exactly the arguments
passed; any other string panics. -/
theorem C56_call_by_name (r : Rng α) (srt : (Nat → Nat → Bool) → List Nat → List Nat) (n : String) (p : Profile) (xs : List (Tensor α))
    (u : List Nat) (f : List α) (y : Tensor α) :
    (∀ k, (n, k) ∈ Naive.fwRegs r → (Naive.new r srt).callFw p n xs u f y = k p xs u f y) ∧
    (n ∉ (Naive.fwRegs r).map Prod.fst → (Naive.new r srt).callFw p n xs u f y = Res.panic) := by
  have h := fold_fw_last (C56_names_distinct r srt).1 DevTable.empty n
  rw [← new_fw r srt] at h
  unfold DevTable.callFw
  constructor
  · intro k hk
    rw [h.1 k hk]
  · intro hn
    rw [h.2 hn]
    rfl

/-- C56, `call_bw_impl` with any string. -/
theorem C56_call_bw_by_name (r : Rng α) (srt : (Nat → Nat → Bool) → List Nat → List Nat) (n : String) (p : Profile) (m : Mem α)
    (xs ys gys : List (Tensor α)) (u : List Nat) (f : List α) (gx : Tensor α) :
    (∀ k, (n, k) ∈ Naive.bwRegs → (Naive.new r srt).callBw p m n xs ys gys u f gx = k p m xs ys gys u f gx) ∧
    (n ∉ (Naive.bwRegs (α := α)).map Prod.fst → (Naive.new r srt).callBw p m n xs ys gys u f gx = Res.panic) := by
  obtain ⟨t, ht, e⟩ := new_bw r srt
  have h := fold_bw_last (C56_names_distinct r srt).2.1 t n
  rw [← e] at h
  unfold DevTable.callBw
  constructor
  · intro k hk
    rw [h.1 k hk]
  · intro hn
    rw [h.2.1 hn, ht]
    rfl

/-- The forward functions by the names they ask for. -/
def fwNames : List (String × FwName) := [
  ("neg_fw_impl", .un .neg),
  ("sqrt_fw_impl", .un .sqrt),
  ("abs_fw_impl", .un .abs),
  ("sin_fw_impl", .un .sin),
  ("cos_fw_impl", .un .cos),
  ("tan_fw_impl", .un .tan),
  ("exp_fw_impl", .un .exp),
  ("ln_fw_impl", .un .ln),
  ("tanh_fw_impl", .un .tanh),
  ("sigmoid_fw_impl", .un .sigmoid),
  ("softplus_fw_impl", .un .softplus),
  ("add_const_fw_impl", .cn .add),
  ("sub_const_l_fw_impl", .cn .subL),
  ("sub_const_r_fw_impl", .cn .subR),
  ("mul_const_fw_impl", .cn .mul),
  ("div_const_l_fw_impl", .cn .divL),
  ("div_const_r_fw_impl", .cn .divR),
  ("powf_const_l_fw_impl", .cn .powfL),
  ("powf_const_r_fw_impl", .cn .powfR),
  ("prelu_fw_impl", .cn .prelu),
  ("elu_fw_impl", .cn .elu),
  ("add_fw_impl", .bi .add),
  ("sub_fw_impl", .bi .sub),
  ("mul_fw_impl", .bi .mul),
  ("div_fw_impl", .bi .div),
  ("powf_fw_impl", .bi .powf),
  ("add_scalar_fw_impl", .sc .add),
  ("sub_scalar_l_fw_impl", .sc .subL),
  ("sub_scalar_r_fw_impl", .sc .subR),
  ("mul_scalar_fw_impl", .sc .mul),
  ("div_scalar_l_fw_impl", .sc .divL),
  ("div_scalar_r_fw_impl", .sc .divR),
  ("powf_scalar_l_fw_impl", .sc .powfL),
  ("powf_scalar_r_fw_impl", .sc .powfR),
  ("powi_fw_impl", .powi),
  ("sum_fw_impl", .sum),
  ("max_fw_impl", .max),
  ("min_fw_impl", .min),
  ("logsumexp_fw_impl", .logsumexp),
  ("broadcast_fw_impl", .broadcast),
  ("matmul_fw_impl", .matmul),
  ("transpose_fw_impl", .transpose),
  ("triangular_l_fw_impl", .triangularL),
  ("triangular_u_fw_impl", .triangularU),
  ("slice_fw_impl", .slice),
  ("pick_fw_impl", .pick),
  ("concat_fw_impl", .concat),
  ("batch_sum_fw_impl", .batchSum),
  ("batch_slice_fw_impl", .batchSlice),
  ("batch_pick_fw_impl", .batchPick),
  ("batch_concat_fw_impl", .batchConcat)]

omit [Flt α] in
/-- C56: two forward functions ask for the same name only if they are the same function (with possibly different constant arguments). -/
theorem C56_function_names (op op' : FwOp α) : op.str = op'.str ↔ op.name = op'.name := by
  constructor
  · intro h
    have e : ∀ o : FwOp α, List.lookup o.str fwNames = some o.name := by
      intro o
      cases o with
      | un u => cases u <;> rfl
      | cn c k => cases c <;> rfl
      | bi b => cases b <;> rfl
      | sc s => cases s <;> rfl
      | _ => rfl
    have := (e op).symm.trans ((congrArg (fun x => List.lookup x fwNames) h).trans (e op'))
    exact Option.some.inj this
  · intro h
    cases op with
    | un u => cases op' <;> simp_all [FwOp.name]
    | cn c k => cases op' <;> simp_all [FwOp.name]; rename_i c' _; cases c' <;> rfl
    | bi b => cases op' <;> simp_all [FwOp.name]
    | sc s => cases op' <;> simp_all [FwOp.name]
    | _ => cases op' <;> simp_all [FwOp.name] <;> rfl

/-- C56, the same of the backward functions, where the code passes the names of `slice_bw` and `pick_bw` from `batch_slice_bw` and
`batch_pick_bw` too (`BwOp.name`), so these two never run their own kernels (C29, C47). -/
theorem C56_batch_backward_names (ids : List Nat) (dim lower : Nat) :
    (BwOp.batchSlice lower : BwOp α).str = (BwOp.slice dim lower : BwOp α).str ∧
    (BwOp.batchPick ids : BwOp α).str = (BwOp.pick ids dim : BwOp α).str ∧
    "batch_slice_bw_impl" ∈ (Naive.bwRegs (α := α)).map Prod.fst ∧ "batch_pick_bw_impl" ∈ (Naive.bwRegs (α := α)).map Prod.fst ∧
    (∀ op : BwOp α, op.str ≠ "batch_slice_bw_impl" ∧ op.str ≠ "batch_pick_bw_impl") := by
  refine ⟨rfl, rfl, ?_, ?_, ?_⟩
  · simp [Naive.bwRegs]
  · simp [Naive.bwRegs]
  · intro op
    cases op with
    | un u => cases u <;> simp [BwOp.str]
    | cn c k => cases c <;> simp [BwOp.str]
    | biA b => cases b <;> simp [BwOp.str]
    | biB b => cases b <;> simp [BwOp.str]
    | _ => simp [BwOp.str]

/-! ## Registering kernels on any device -/

omit [Flt α] in
/-- C56: what `register_fw_impl(n, k)` does to the forward functions of *any* device: those that ask for `n` from now on check, compute
the shape and allocate as before and then run `k` on the result tensor, with the constants of the call; all others, and every backward
function, are unchanged.  In particular the last registration under a name is the one that counts. -/
theorem C56_register_forward (T : DevTable α) (n : String) (k : FwK α) (op : FwOp α) (p : Profile) (d : Nat) (m : Nat → α)
    (xs : List (Tensor α)) :
    (op.str = n → (T.registerFw n k).fwFn op p d m xs = (do
      Dev.onAll d xs
      let s ← op.shape p (xs.map Tensor.shape)
      let y ← (Tensor.new d s).alloc p m
      k p xs op.u32data op.f32data y)) ∧
    (op.str ≠ n → (T.registerFw n k).fwFn op p d m xs = T.fwFn op p d m xs) ∧
    (∀ k', ((T.registerFw n k').registerFw n k).fwFn op p d m xs = (T.registerFw n k).fwFn op p d m xs) ∧
    (∀ (op' : BwOp α) m' ys gy gx, (T.registerFw n k).bwFn op' p d m' xs ys gy gx = T.bwFn op' p d m' xs ys gy gx) := by
  refine ⟨?_, ?_, ?_, fun _ _ _ _ _ => rfl⟩
  · rintro rfl
    simp only [DevTable.fwFn, DevTable.callFw, DevTable.registerFw, KMap.insert_self]
  · intro h
    simp only [DevTable.fwFn, DevTable.callFw, DevTable.registerFw, KMap.insert_other _ _ h]
  · intro k'
    by_cases h : op.str = n
    · subst h
      simp only [DevTable.fwFn, DevTable.callFw, DevTable.registerFw, KMap.insert_self]
    · simp only [DevTable.fwFn, DevTable.callFw, DevTable.registerFw, KMap.insert_other _ _ h]

omit [Flt α] in
/-- C56, `register_bw_impl(n, k)`. -/
theorem C56_register_backward (T : DevTable α) (n : String) (k : BwK α) (op : BwOp α) (p : Profile) (d : Nat) (m : Mem α)
    (xs ys : List (Tensor α)) (gy gx : Tensor α) :
    (op.str = n → (T.registerBw n k).bwFn op p d m xs ys gy gx = (do
      Dev.onAll d xs
      Dev.onAll d ys
      gy.onDev d
      gx.onDev d
      op.check p (xs.map Tensor.shape) (ys.map Tensor.shape) gy.shape gx.shape
      k p m xs ys [gy] op.u32data op.f32data gx)) ∧
    (op.str ≠ n → (T.registerBw n k).bwFn op p d m xs ys gy gx = T.bwFn op p d m xs ys gy gx) ∧
    (∀ k', ((T.registerBw n k').registerBw n k).bwFn op p d m xs ys gy gx = (T.registerBw n k).bwFn op p d m xs ys gy gx) ∧
    (∀ (op' : FwOp α) m', (T.registerBw n k).fwFn op' p d m' xs = T.fwFn op' p d m' xs) := by
  refine ⟨?_, ?_, ?_, fun _ _ => rfl⟩
  · rintro rfl
    simp only [DevTable.bwFn, DevTable.callBw, DevTable.registerBw, KMap.insert_self]
  · intro h
    simp only [DevTable.bwFn, DevTable.callBw, DevTable.registerBw, KMap.insert_other _ _ h]
  · intro k'
    by_cases h : op.str = n
    · subst h
      simp only [DevTable.bwFn, DevTable.callBw, DevTable.registerBw, KMap.insert_self]
    · simp only [DevTable.bwFn, DevTable.callBw, DevTable.registerBw, KMap.insert_other _ _ h]

/-! ## A device without kernels -/

omit [Flt α] in
theorem bind_panics {β γ : Type} {x : Res β} {f : β → Res γ} (hx : x.Safe) (hf : ∀ a, f a = Res.panic) : x >>= f = Res.panic := by
  cases x with
  | ok a => exact hf a
  | panic => rfl
  | ub => exact absurd rfl hx

theorem divU_safe (a b : Nat) : (Dev.divU a b).Safe := Res.Safe.bind (check_safe _) fun _ _ => safe_ok _

/-- C56: on a device on which a kernel is not registered every function that asks for it panics, for all arguments: it never returns a
value and never touches memory. -/
theorem C56_missing_forward (T : DevTable α) (op : FwOp α) (h : T.fw op.str = none) (p : Profile) (d : Nat) (m : Nat → α)
    (xs : List (Tensor α)) : T.fwFn op p d m xs = Res.panic := by
  unfold DevTable.fwFn DevTable.callFw
  rw [h]
  exact bind_panics (Dev.onAll_safe _ _) fun _ => bind_panics (FwOp.shape_safe _ _ _) fun _ => bind_panics (Tensor.alloc_safe _ _ _) fun _ => rfl

/-- C56, backward functions. -/
theorem C56_missing_backward (T : DevTable α) (op : BwOp α) (h : T.bw op.str = none) (p : Profile) (d : Nat) (m : Mem α)
    (xs ys : List (Tensor α)) (gy gx : Tensor α) : T.bwFn op p d m xs ys gy gx = Res.panic := by
  unfold DevTable.bwFn DevTable.callBw
  rw [h]
  exact bind_panics (Dev.onAll_safe _ _) fun _ => bind_panics (Dev.onAll_safe _ _) fun _ => bind_panics (Tensor.onDev_safe _ _) fun _ =>
    bind_panics (Tensor.onDev_safe _ _) fun _ => bind_panics (BwOp.check_safe _ _ _ _ _ _) fun _ => rfl

/-- C56: on a device just made by `Device::new` (no kernels) every device function that needs a kernel panics, for all arguments. -/
theorem C56_empty_device (p : Profile) (d : Nat) (m : Nat → α) (m' : Mem α) (xs ys : List (Tensor α)) (x y : Tensor α) (k l : α)
    (vs : List α) (dim : Nat) (s : Shape) :
    (∀ op : FwOp α, DevTable.empty.fwFn op p d m xs = Res.panic) ∧
    (∀ op : BwOp α, DevTable.empty.bwFn op p d m' xs ys y x = Res.panic) ∧
    DevTable.empty.addAssign p d x y = Res.panic ∧ DevTable.empty.subAssign p d x y = Res.panic ∧
    DevTable.empty.mulAssignConst p d k y = Res.panic ∧ DevTable.empty.resetTensor p x k = Res.panic ∧
    DevTable.empty.resetTensorBySlice p x vs = Res.panic ∧ DevTable.empty.resetTensorByTensor p x y = Res.panic ∧
    DevTable.empty.tensorToVector p x = Res.panic ∧ DevTable.empty.tensorToFloat p x = Res.panic ∧
    DevTable.empty.argmax p d x dim = Res.panic ∧ DevTable.empty.argmin p d x dim = Res.panic ∧
    DevTable.empty.argsort p d x dim = Res.panic ∧ DevTable.empty.randomBernoulli p d m s k = Res.panic ∧
    DevTable.empty.randomNormal p d m s k l = Res.panic ∧ DevTable.empty.randomUniform p d m s k l = Res.panic := by
  have od := fun (t : Tensor α) => Tensor.onDev_safe t d
  have sz := fun (t : Tensor α) => Shape.sizeU_safe p t.shape
  have al := Tensor.alloc_safe p m (Tensor.new d s)
  refine ⟨fun op => C56_missing_forward _ op rfl p d m xs, fun op => C56_missing_backward _ op rfl p d m' xs ys y x, ?_, ?_, ?_, rfl, ?_, ?_, ?_, ?_,
    ?_, ?_, ?_, ?_, ?_, ?_⟩
  · exact bind_panics (od _) fun _ => bind_panics (od _) fun _ => rfl
  · exact bind_panics (od _) fun _ => bind_panics (od _) fun _ => rfl
  · exact bind_panics (od _) fun _ => rfl
  · exact bind_panics (sz _) fun _ => bind_panics (check_safe _) fun _ => rfl
  · exact bind_panics (check_safe _) fun _ => bind_panics (check_safe _) fun _ => bind_panics (sz _) fun _ => bind_panics (sz _) fun _ =>
      bind_panics (check_safe _) fun _ => rfl
  · exact bind_panics (sz _) fun _ => rfl
  · exact bind_panics (sz _) fun _ => bind_panics (check_safe _) fun _ => rfl
  · exact bind_panics (od _) fun _ => bind_panics (sz _) fun _ => bind_panics (divU_safe _ _) fun _ => rfl
  · exact bind_panics (od _) fun _ => bind_panics (sz _) fun _ => bind_panics (divU_safe _ _) fun _ => rfl
  · exact bind_panics (od _) fun _ => bind_panics (sz _) fun _ => rfl
  · exact bind_panics al fun _ => rfl
  · exact bind_panics al fun _ => rfl
  · exact bind_panics al fun _ => rfl

/-! ## The kernels are public -/

/-- C56: `call_fw_impl` is public and checks nothing: from safe code it runs a kernel on tensors it was not made for.  Witness: adding a
vector of 65 elements into a scalar (a block of 64 elements) writes past the end of the block. -/
theorem C56_call_out_of_bounds (r : Rng α) (srt : (Nat → Nat → Bool) → List Nat → List Nat) (m : Nat → α) :
    ∃ x y : Tensor α, Obtainable x ∧ Obtainable y ∧ x.device = some 0 ∧ y.device = some 0 ∧
      ∀ p, (Naive.new r srt).callFw p "add_assign_impl" [x] [] [] y = ub := by
  obtain ⟨x, y, hx, hy, dx, dy, h, -⟩ := C18_add_assign_out_of_bounds (α := α) m
  refine ⟨x, y, hx, hy, dx, dy, fun p => ?_⟩
  have := h p
  unfold Dev.addAssign at this
  rw [(Tensor.onDev_eq_ok (u := ())).mpr dx, ok_bind, (Tensor.onDev_eq_ok (u := ())).mpr dy, ok_bind] at this
  exact this

section
attribute [local instance] intFlt

/-- `C56_call_by_name` applies to a name that no function of the API asks for: `flip_fw_impl`. -/
example (r : Rng ℤ) : ("flip_fw_impl", K.flipFw) ∈ Naive.fwRegs r ∧ ∀ op : FwOp ℤ, op.str ≠ "flip_fw_impl" := by
  refine ⟨by simp [Naive.fwRegs], fun op => ?_⟩
  cases op with
  | un u => cases u <;> simp [FwOp.str]
  | cn c k => cases c <;> simp [FwOp.str]
  | bi b => cases b <;> simp [FwOp.str]
  | sc b => cases b <;> simp [FwOp.str]
  | _ => simp [FwOp.str]

/-- ... and a name it does not register. -/
example (r : Rng ℤ) : "flip_impl" ∉ (Naive.fwRegs r).map Prod.fst := by simp [Naive.fwRegs]

/-- `C56_register_forward`: replacing the kernel of `sin` on `Naive` changes `sin` and nothing else, and it is really a change:
a kernel that always panics. -/
example (r : Rng ℤ) (srt : (Nat → Nat → Bool) → List Nat → List Nat) (x : Tensor ℤ) (m : Nat → ℤ) :
    ((Naive.new r srt).registerFw "sin_fw_impl" fun _ _ _ _ _ => Res.panic).fwFn (.un .cos) .debug 0 m [x] = Dev.fw (.un .cos) .debug 0 m [x] :=
  ((C56_register_forward (Naive.new r srt) "sin_fw_impl" (fun _ _ _ _ _ => Res.panic) (.un .cos) .debug 0 m [x]).2.1 (by simp [FwOp.str])).trans
    (C56_naive_forward r srt _ _ _ _ _).2

/-- `C56_missing_backward` applies to `Naive`: `neg_bw`. -/
example (r : Rng ℤ) (srt : (Nat → Nat → Bool) → List Nat → List Nat) : (Naive.new r srt).bw (BwOp.un .neg : BwOp ℤ).str = none :=
  naive_bw r srt _

end
end
end Verif
