import Verif.PropsShape

/-!
# Model of `impl Debug for Shape` (shape.rs) and of the macro `shape!` (macros.rs)
-/

namespace Verif
open Res

/-- What `{}` and `{:?}` print for a u32 (core::fmt): decimal digits without sign or leading zeros. -/
def dec (n : Nat) : List Char := Nat.toDigits 10 n

/-- The elements of a slice as `{:?}` prints them (core::fmt's list formatter): separated by a comma and a space. -/
def commaSep : List Nat → List Char
  | [] => []
  | [n] => dec n
  | n :: m :: l => dec n ++ (',' :: ' ' :: commaSep (m :: l))

/-- `impl fmt::Debug for Shape`, shape.rs:163-167: `write!(f, "Shape {{ {:?}, {} }}", &self.dims(), self.batch)`.
Flags of the outer formatter (`{:#?}`, `{:10?}`) are not passed on by `write!`, so this is what every flag prints. -/
def Shape.debugText (s : Shape) : List Char :=
  "Shape { [".toList ++ (commaSep s.dimsSlice ++ ("], ".toList ++ (dec s.batch ++ " }".toList)))

/-- The tokens between the brackets of `shape![…]`, with expressions already parsed and evaluated (`expr v`); `,` and `;` cannot begin an
expression, so an arm that fails to match never aborts the expansion. -/
inductive MTok where
  | expr (v : Nat)
  | comma
  | semi
  deriving DecidableEq, Repr

/-- `$( $dims:expr ),*`: expressions separated by commas, as many as there are, and the rest; a comma must be followed by an expression. -/
def matchSep : List MTok → Option (List Nat × List MTok)
  | .expr v :: .comma :: l => (matchSep l).bind fun r => if r.1 = [] then none else some (v :: r.1, r.2)
  | .expr v :: l => some ([v], l)
  | l => some ([], l)

/-- `$( $dims:expr, )*`: expressions each followed by a comma, and the rest. -/
def matchEach : List MTok → List Nat × List MTok
  | .expr v :: .comma :: l => (v :: (matchEach l).1, (matchEach l).2)
  | l => ([], l)

/-- `$($dims),*` on the right hand side of an arm. -/
def emitSep : List Nat → List MTok
  | [] => []
  | [v] => [.expr v]
  | v :: w :: l => .expr v :: .comma :: emitSep (w :: l)

/-- `macro_rules! shape`, macros.rs:2-12: the arguments of the call of `Shape::new` it expands to, `none` if the program does not compile.  The
arms are tried in order; the number is the recursion limit of macro expansion. -/
def shapeMacro : Nat → List MTok → Option (List Nat × Nat)
  | 0, _ => none
  | lim + 1, ts =>
    match matchSep ts with
    | some (ds, [.semi, .expr b]) => some (ds, b)
    | some (ds, []) => shapeMacro lim (emitSep ds ++ [.semi, .expr 1])
    | _ =>
      match matchEach ts with
      | (ds, []) => shapeMacro lim (emitSep ds)
      | _ => none

end Verif
