import Verif.Optim

/-!
# Model of the `Model` derive macro (prima_undine_derive/src/lib.rs)

The input is the declaration as the `syn` parser hands it over (the parser itself is not modelled), the output is the generated `impl` block:
its header and the two method bodies as lists of statements.  `Val` is a value of a declared type, on which the generated bodies are run.
-/

namespace Verif
namespace Derive

/-- `syn::GenericParam` (lib.rs:21-32): a lifetime, type or const parameter; bounds and defaults are left out. -/
inductive GParam where
  | lifetime (name : String)
  | type (name : String)
  | const (name : String)
deriving DecidableEq, Repr

/-- `syn::Path` of an attribute: whether it begins with `::`, and its segments. -/
structure Path where
  leadingColon : Bool
  segments : List String
deriving DecidableEq, Repr

/-- `syn::Path::is_ident`: one segment, no leading `::`. -/
def Path.isIdent (p : Path) (s : String) : Bool := !p.leadingColon && p.segments == [s]

mutual
/-- `syn::Meta`: `path`, `path(nested, ...)`, `path = literal` (the literal is left out). -/
inductive Meta where
  | path (p : Path)
  | list (p : Path) (nested : List Nested)
  | nameValue (p : Path)
/-- `syn::NestedMeta`: what stands inside the parentheses. -/
inductive Nested where
  | item (m : Meta)
  | lit
end

/-- A field of a struct with named fields: its name and, for each attribute, the result of `parse_meta` (`none` if it is an error). -/
structure Field where
  ident : String
  attrs : List (Option Meta)

/-- `syn::Fields`. -/
inductive Fields where
  | named (fs : List Field)
  | unnamed (n : Nat)
  | unit

/-- `syn::Data`. -/
inductive Data where
  | struct (fields : Fields)
  | enum
  | union

/-- `syn::DeriveInput`: name, generic parameters, where clause (its text) and data. -/
structure Item where
  name : String
  generics : List GParam
  whereClause : Option String
  data : Data

/-- A generic argument in the header of the generated block: `'a`, `T` or `{N}`. -/
inductive GArg where
  | lifetime (name : String)
  | type (name : String)
  | block (name : String)
deriving DecidableEq, Repr

/-- The generated block (lib.rs:55-70): `impl<implParams> Model<'traitLifetime> for selfName<selfArgs> whereClause`, with the statements
`params.append(&mut self.FIELD.parameters());` and `params.append(&mut self.FIELD.parameters_mut());`, of which only the field names are kept. -/
structure Impl where
  implParams : List GParam
  traitLifetime : String
  selfName : String
  selfArgs : List GArg
  whereClause : Option String
  parameters : List String
  parametersMut : List String
deriving DecidableEq, Repr

/-- lib.rs:20-32, first push: the type parameters in order. -/
def gtypes : List GParam → List String
  | [] => []
  | .type x :: ps => x :: gtypes ps
  | .lifetime _ :: ps => gtypes ps
  | .const _ :: ps => gtypes ps

/-- lib.rs:20-32, second push: the lifetimes in order. -/
def glifetimes : List GParam → List String
  | [] => []
  | .type _ :: ps => glifetimes ps
  | .lifetime x :: ps => x :: glifetimes ps
  | .const _ :: ps => glifetimes ps

/-- lib.rs:20-32, third push: the const parameters in order. -/
def gconsts : List GParam → List String
  | [] => []
  | .type _ :: ps => gconsts ps
  | .lifetime _ :: ps => gconsts ps
  | .const x :: ps => x :: gconsts ps

/-- lib.rs:42-48: the loop over the children of one list. -/
def childSkips : List Nested → Bool
  | [] => false
  | .item (.path m) :: cs => if m.isIdent "skip" then true else childSkips cs
  | .item (.list _ _) :: cs => childSkips cs
  | .item (.nameValue _) :: cs => childSkips cs
  | .lit :: cs => childSkips cs

/-- lib.rs:38-52: the loop over the attributes of one field; `true` is `continue 'a`. -/
def attrsSkip : List (Option Meta) → Bool
  | [] => false
  | none :: as => attrsSkip as
  | some (.path _) :: as => attrsSkip as
  | some (.nameValue _) :: as => attrsSkip as
  | some (.list p nested) :: as => if p.isIdent "parameter" && childSkips nested then true else attrsSkip as

/-- lib.rs:36-54: `field_updater`. -/
def fieldUpdater : List Field → List String
  | [] => []
  | f :: fs => if attrsSkip f.attrs then fieldUpdater fs else f.ident :: fieldUpdater fs

/-- `derive_model`, lib.rs:12-79.  A panic of the macro is a compile error of the crate that uses it. -/
def deriveModel (it : Item) : Res Impl :=
  match it.data with
  | .struct (.named fs) =>
    match glifetimes it.generics with
    | [] => Res.panic -- `glifetimes[0]`, lib.rs:55
    | l :: ls => Res.ok
      { implParams := it.generics, traitLifetime := l, selfName := it.name
        selfArgs := (l :: ls).map .lifetime ++ (gtypes it.generics).map .type ++ (gconsts it.generics).map .block
        whereClause := it.whereClause
        parameters := fieldUpdater fs
        parametersMut := fieldUpdater fs }
  | .struct (.unnamed _) => Res.panic
  | .struct .unit => Res.panic
  | .enum => Res.panic
  | .union => Res.panic

variable {α : Type}

/-- A value: a parameter, a vector of models or of parameters, a value of a derived type (the declaration and the values of its fields in the
order of the declaration), or anything that is not a model. -/
inductive Val (α : Type) where
  | param (q : Param α)
  | vec (vs : List (Val α))
  | struct (it : Item) (vals : List (Val α))
  | other

/-- The declared fields of a struct with named fields. -/
def Item.fields (it : Item) : List Field :=
  match it.data with
  | .struct (.named fs) => fs
  | .struct (.unnamed _) => []
  | .struct .unit => []
  | .enum => []
  | .union => []

/-- A reference to a parameter: where it is (numbers of fields and elements on the way) and what it refers to. -/
abbrev Ref (α : Type) := List Nat × Param α

/-- `params.append(..)` of all statements of a generated body; `env` is what `self.FIELD.parameters()` gives for each field (`none`: does not
compile, because the field is not a model or there is no such field). -/
def runBody : List String → (String → Option (List (Ref α))) → Option (List (Ref α))
  | [], _ => some []
  | f :: fs, env =>
    match env f with
    | none => none
    | some l => match runBody fs env with
      | none => none
      | some r => some (l ++ r)

/-- Looks a field up by name: fields and what they give, the number of the first one, the name. -/
def lookup : List Field → List (Option (List (Ref α))) → Nat → String → Option (List (Ref α))
  | f :: fs, r :: rs, i, x =>
    if f.ident = x then r.map (List.map fun e => (i :: e.1, e.2)) else lookup fs rs (i + 1) x
  | [], _, _, _ => none
  | _ :: _, [], _, _ => none

/-- The elements of a vector one after the other, model.rs:17-23, 42-45. -/
def chain : List (Option (List (Ref α))) → Nat → Option (List (Ref α))
  | [], _ => some []
  | none :: _, _ => none
  | some l :: rs, i => match chain rs (i + 1) with
    | none => none
    | some r => some ((l.map fun e => (i :: e.1, e.2)) ++ r)

mutual
/-- `parameters()` on a value, running the generated code on values of derived types (lib.rs:58-62, model.rs:17-23, 42-45, parameter.rs:55-57);
`none`: the call does not compile. -/
def refs : Val α → Option (List (Ref α))
  | .param q => some [([], q)]
  | .vec vs => chain (refsL vs) 0
  | .struct it vs =>
    match deriveModel it with
    | Res.ok im => runBody im.parameters (lookup it.fields (refsL vs) 0)
    | _ => none
  | .other => none
/-- The same for the parts of a value. -/
def refsL : List (Val α) → List (Option (List (Ref α)))
  | [] => []
  | v :: vs => refs v :: refsL vs
end

mutual
/-- `parameters_mut()` on a value (lib.rs:63-67, model.rs:24-30, 46-48, parameter.rs:59-61). -/
def refsMut : Val α → Option (List (Ref α))
  | .param q => some [([], q)]
  | .vec vs => chain (refsMutL vs) 0
  | .struct it vs =>
    match deriveModel it with
    | Res.ok im => runBody im.parametersMut (lookup it.fields (refsMutL vs) 0)
    | _ => none
  | .other => none
/-- The same for the parts of a value. -/
def refsMutL : List (Val α) → List (Option (List (Ref α)))
  | [] => []
  | v :: vs => refsMut v :: refsMutL vs
end

end Derive
end Verif
