import Verif.Threads
import Verif.DevFw

/-!
# Specification for threads that share a device: every tensor has its own array

No pool, no handles, no shared heap: a tensor is its size and its elements.
-/

namespace Verif
namespace Thd
variable {α : Type}

/-- The rest of each thread's program, and each tensor's size and elements. -/
structure Abs (α : Type) where
  prog : Nat → Prog α
  val : Loc → Option (Nat × (Nat → α))

/-- Start: no tensors. -/
def Abs.init (progs : Nat → Prog α) : Abs α := ⟨progs, fun _ => none⟩

/-- One action of thread `t`.  A new tensor has arbitrary contents `m`. -/
inductive AStep : Nat → Abs α → Abs α → Prop
  | new (a t s size k m) : a.prog t = .new s size k → size < U32 →
      AStep t a ⟨Pool.set a.prog t k, upd a.val (.own t s) (some (size, m))⟩
  | drop (a t s k b) : a.prog t = .drop s k → a.val (.own t s) = some b →
      AStep t a ⟨Pool.set a.prog t k, upd a.val (.own t s) none⟩
  | read (a t x i k size f) : a.prog t = .read x i k → a.val (x.loc t) = some (size, f) → i < cap size →
      AStep t a ⟨Pool.set a.prog t (k (f i)), a.val⟩
  | write (a t s i v k size f) : a.prog t = .write s i v k → a.val (.own t s) = some (size, f) → i < cap size →
      AStep t a ⟨Pool.set a.prog t k, upd a.val (.own t s) (some (size, Pool.set f i v))⟩
  | send (a t s c k b) : a.prog t = .send s c k → a.val (.own t s) = some b → a.val (.chan c) = none →
      AStep t a ⟨Pool.set a.prog t k, upd (upd a.val (.own t s) none) (.chan c) (some b)⟩
  | recv (a t s c k b) : a.prog t = .recv c s k → a.val (.chan c) = some b →
      AStep t a ⟨Pool.set a.prog t k, upd (upd a.val (.chan c) none) (.own t s) (some b)⟩
  | publish (a t s g k b) : a.prog t = .publish s g k → a.val (.own t s) = some b → a.val (.shared g) = none →
      AStep t a ⟨Pool.set a.prog t k, upd (upd a.val (.own t s) none) (.shared g) (some b)⟩

/-- What the threads can reach on independent arrays. -/
inductive AReach (progs : Nat → Prog α) : Abs α → Prop
  | init : AReach progs (Abs.init progs)
  | step {a t b} : AReach progs a → AStep t a b → AReach progs b

/-- What the program sees of a state: the tensors' sizes and contents. -/
def St.abs (σ : St α) : Abs α := ⟨σ.prog, fun l => (σ.ten l).map fun b => (b.2, σ.heap b.1)⟩

/-- A thread running alone, that reads the shared tensors `F`: its remaining program and its tensors. -/
inductive Alone (F : Nat → Option (Nat × (Nat → α))) (p : Prog α) : Prog α → (Nat → Option (Nat × (Nat → α))) → Prop
  | start : Alone F p p (fun _ => none)
  | new {s size k v} (m) : Alone F p (.new s size k) v → Alone F p k (Pool.set v s (some (size, m)))
  | drop {s k v b} : Alone F p (.drop s k) v → v s = some b → Alone F p k (Pool.set v s none)
  | readOwn {s i k v size f} : Alone F p (.read (.own s) i k) v → v s = some (size, f) → i < cap size → Alone F p (k (f i)) v
  | readShared {g i k v size f} : Alone F p (.read (.shared g) i k) v → F g = some (size, f) → i < cap size → Alone F p (k (f i)) v
  | write {s i x k v size f} : Alone F p (.write s i x k) v → v s = some (size, f) → i < cap size →
      Alone F p k (Pool.set v s (some (size, Pool.set f i x)))

/-- The program neither sends nor receives nor publishes tensors. -/
def Prog.Private : Prog α → Prop
  | .done => True
  | .new _ _ k | .drop _ k | .write _ _ _ k => k.Private
  | .read _ _ k => ∀ v, (k v).Private
  | .send _ _ _ | .recv _ _ _ | .publish _ _ _ => False

/-- The tensor that the next action of a program of thread `t` touches, and whether it writes to it. -/
def Prog.touches (t : Nat) : Prog α → Option (Loc × Bool)
  | .read a _ _ => some (a.loc t, false)
  | .write s _ _ _ => some (.own t s, true)
  | .drop s _ => some (.own t s, true)
  | _ => none

/-- The tensor of shape `s` on device `d` whose block has the contents `b`. -/
def view (d : Nat) (s : Shape) (b : Nat × (Nat → α)) : Tensor α := ⟨some d, s, some ((List.range (cap b.1)).map b.2), none⟩

/-- Mathematical values of the variables a thread can read. -/
abbrev Env (α : Type) := Arg → Option (Shape × Arr α)

/-- `Computes E cs E'`: the calls `cs` are legal on arrays `E` (each result goes to a new variable) and give the arrays `E'`. -/
inductive Computes [Flt α] : Env α → List (Call α) → Env α → Prop
  | nil {E} : Computes E [] E
  | cons {E E'} {c : Call α} {cs} {ins : List (Shape × Arr α)} {s : Shape} : c.args.map (fun a => E a.1) = ins.map some →
      c.args.map Prod.snd = ins.map Prod.fst → E (.own c.y) = none → c.op.shape .debug (ins.map Prod.fst) = .ok s → s.size ≤ 2 ^ 31 → c.op.Fits s →
      Computes (fun a => if a = .own c.y then some (s, c.op.sem ins) else E a) cs E' → Computes E (c :: cs) E'

end Thd
end Verif
