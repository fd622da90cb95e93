import Verif.Model.Codegen
import Verif.Props.Text
/-!
# Specification: when rustc accepts a generated module

Typing rules for the templates of `Verif/Model/Codegen.lean`, independent of the generator: `Compiles x P` says that the items `P` form
a module without type errors. In the following points the rules are stricter than Rust: fields of a struct literal stand in the order
of their declaration, `to_string` in a writer is used at the type that the reader parses, and the names that are
imported everywhere (`Option`, `Some`, …) are not declared again, even if the module does not use them. Trait bounds, lifetimes and
visibility are left out.
-/
namespace Xsd

/-- The module declares a type called `i`. -/
def DeclaresType (P : List TypeDef) (i : Str) : Prop := ∃ t ∈ P, t.ident = i

/-- Type of the expression. -/
def ValRead.Has (P : List TypeDef) : ValRead → Ty → Prop
  | .text t, ty => ty = .prim t.prim
  | .fixed _, ty => ty = .unit
  | .call i, ty => DeclaresType P i ∧ ty = .named i

/-- `Vec<T>`, or `Option<Vec<T>>`. -/
def listTy (opt : Bool) (t : Ty) : Ty := if opt then .option (.vec t) else .vec t

/-- Type of the expression. -/
def LeafRead.Has (P : List TypeDef) : LeafRead → Ty → Prop
  | .plain v, ty => v.Has P ty
  | .whileLookahead i v opt, ty => DeclaresType P i ∧ ∃ t, v.Has P t ∧ ty = listTy opt t
  | .ifLookahead i v, ty => DeclaresType P i ∧ ∃ t, v.Has P t ∧ ty = .option t
  | .whileNext _ v opt, ty => ∃ t, v.Has P t ∧ ty = listTy opt t
  | .ifNext _ v, ty => ∃ t, v.Has P t ∧ ty = .option t
  | .tryChild _ v, ty => v.Has P ty
  | .tryNext _ v, ty => v.Has P ty

/-- `FromStr` is implemented for the type, with an error that `?` can convert to the error of a reader (`Infallible` or that error
itself, xsd/src/decode.rs:12-37). -/
def FromStrs (P : List TypeDef) (ty : Ty) : Prop :=
  ty = .prim .string ∨ ∃ t ∈ P, ty = .named t.ident ∧ ((∃ u l, t.decl = .newtype u (some l)) ∨ ∃ vs, t.decl = .enum vs)

/-- `Display` is implemented for the type. -/
def Displays (P : List TypeDef) (ty : Ty) : Prop :=
  (∃ p, ty = .prim p) ∨ ∃ t ∈ P, ty = .named t.ident ∧ ((∃ u l, t.decl = .newtype u (some l)) ∨ ∃ vs, t.decl = .enum vs)

/-- Type of the expression. -/
def StrRead.Has (P : List TypeDef) : StrRead → Ty → Prop
  | .lit t, ty => ty = .prim t.prim
  | .fromStr ty', ty => ty = ty' ∧ FromStrs P ty'
  | .unit, ty => ty = .unit

/-- `T`, or `Option<T>`. -/
def optTy (opt : Bool) (t : Ty) : Ty := if opt then .option t else t

/-- Type of the field. -/
def AttrRead.Has (P : List TypeDef) (a : AttrRead) (ty : Ty) : Prop := ∃ t, a.inner.Has P t ∧ ty = optTy a.optional t

/-- The fields of a struct literal. -/
inductive LeavesHave (P : List TypeDef) : List (Str × LeafRead) → List (Str × Ty) → Prop where
  | nil : LeavesHave P [] []
  | cons {f : Str} {r : LeafRead} {ty : Ty} {rs : List (Str × LeafRead)} {ds : List (Str × Ty)} (h : r.Has P ty)
      (hs : LeavesHave P rs ds) : LeavesHave P ((f, r) :: rs) ((f, ty) :: ds)

/-- The attribute fields of a struct literal. -/
inductive AttrsHave (P : List TypeDef) : List AttrRead → List (Str × Ty) → Prop where
  | nil : AttrsHave P [] []
  | cons {a : AttrRead} {ty : Ty} {as : List AttrRead} {ds : List (Str × Ty)} (h : a.Has P ty)
      (hs : AttrsHave P as ds) : AttrsHave P (a :: as) ((a.field, ty) :: ds)

/-- The content part of a struct literal. -/
def ContentRead.Has (P : List TypeDef) : ContentRead → List (Str × Ty) → Prop
  | .nothing, ds => ds = []
  | .single f v, ds => ∃ ty, ds = [(f, ty)] ∧ v.Has P ty
  | .leaves ls, ds => LeavesHave P ls ds

/-- Type of the payload of a variant. -/
def VarRead.Has (P : List TypeDef) : VarRead → Ty → Prop
  | .virt i v, ty => DeclaresType P i ∧ v.Has P ty
  | .vec _ v, ty => ∃ t, v.Has P t ∧ ty = .vec t
  | .single _ v, ty => v.Has P ty

/-- `from_xml_node` returns a value of the declared type. -/
def FromBody.Reads (P : List TypeDef) : Decl → FromBody → Prop
  | .newtype ty _, .leaf v => v.Has P ty
  | .enum _, .enumText => True
  | .struct ds, .element c as => ∃ d1 d2, ds = d1 ++ d2 ∧ c.Has P d1 ∧ AttrsHave P as d2
  | .choice ds, .choice vs => ∀ p ∈ vs, ∃ ty, (p.1, ty) ∈ ds ∧ p.2.Has P ty
  | _, _ => False

/-- The functions that a lookahead calls. -/
def Look.OK (P : List TypeDef) : Look → Prop
  | .always => True
  | .checks cs => ∀ i, Check.call i ∈ cs → DeclaresType P i

/-- The statement can write a value of the type. -/
def ValWrite.Takes (P : List TypeDef) : ValWrite → Ty → Prop
  | .chars t, ty => ty = .prim t.prim
  | .fixed _, _ => True
  | .call i, ty => DeclaresType P i ∧ ty = .named i

/-- The statement moves the context `ctx` into a call, so that it cannot be used afterwards. -/
def ValWrite.Moves : ValWrite → Prop
  | .call _ => True
  | _ => False

/-- A leaf of a struct is written. -/
def LeafWrite.OK (P : List TypeDef) (ds : List (Str × Ty)) (l : LeafWrite) : Prop :=
  (∃ ty, (l.field, optTy l.opt (if l.vec then .vec ty else ty)) ∈ ds ∧ l.inner.Takes P ty) ∧ (l.tags = true → ¬ l.inner.Moves)

/-- The attribute value becomes a string. -/
def AttrShow.Takes (P : List TypeDef) : AttrShow → Ty → Prop
  | .lit t, ty => ty = .prim t.prim
  | .display ty', ty => ty = ty' ∧ Displays P ty'
  | .fixed _, _ => True

/-- An attribute of a struct is written. -/
def AttrWrite.OK (P : List TypeDef) (ds : List (Str × Ty)) (a : AttrWrite) : Prop :=
  ∃ ty, (a.field, optTy a.optional ty) ∈ ds ∧ a.inner.Takes P ty

/-- The content of a struct is written. -/
def ContentWrite.OK (P : List TypeDef) (ds : List (Str × Ty)) (tags : Bool) : ContentWrite → Prop
  | .nothing => True
  | .single f v => (∃ ty, (f, ty) ∈ ds ∧ v.Takes P ty) ∧ (tags = true → ¬ v.Moves)
  | .leaves ls => ∀ l ∈ ls, l.OK P ds

/-- An arm of the `match`. -/
def VarWrite.OK (P : List TypeDef) (ds : List (Str × Ty)) (a : VarWrite) : Prop :=
  (∃ ty, (a.variant, if a.vec then .vec ty else ty) ∈ ds ∧ a.inner.Takes P ty) ∧ (a.tags = true → ¬ a.inner.Moves)

/-- `to_xml_writer` takes a value of the declared type. A `match` covers every variant; without variants it does not match on a
reference. -/
def ToBody.Writes (P : List TypeDef) : Decl → ToBody → Prop
  | .newtype ty _, .leaf w tags => w.Takes P ty ∧ (tags = true → ¬ w.Moves)
  | .enum vs, .enumText => vs ≠ []
  | .struct ds, .element as tags c => (∀ a ∈ as, a.OK P ds) ∧ c.OK P ds tags
  | .choice ds, .choice vs _ => ds ≠ [] ∧ (∀ p ∈ ds, ∃ a ∈ vs, a.variant = p.1) ∧ ∀ a ∈ vs, a.OK P ds
  | _, _ => False

/-- The named types that a type mentions. -/
def Ty.names : Ty → List Str
  | .prim _ => []
  | .unit => []
  | .named i => [i]
  | .option t => t.names
  | .vec t => t.names

/-- The named types of which a value of the type has one inside, not behind a pointer. -/
def Ty.inline : Ty → List Str
  | .prim _ => []
  | .unit => []
  | .named i => [i]
  | .option t => t.inline
  | .vec _ => []

/-- The types of the fields or payloads. -/
def Decl.types : Decl → List Ty
  | .newtype t _ => [t]
  | .enum _ => []
  | .struct ds => ds.map Prod.snd
  | .choice ds => ds.map Prod.snd

/-- The names of the fields or variants. -/
def Decl.labels : Decl → List Str
  | .newtype _ _ => []
  | .enum vs => vs.map Prod.fst
  | .struct ds => ds.map Prod.fst
  | .choice ds => ds.map Prod.fst

/-- `FromStr` of a newtype parses the type inside. -/
def Decl.LitOK : Decl → Prop
  | .newtype t (some l) => t = .prim l.prim
  | _ => True

/-- A value of the type `i` has one of the type `j` inside. -/
def Stores (P : List TypeDef) (i j : Str) : Prop := ∃ t ∈ P, t.ident = i ∧ ∃ ty ∈ t.decl.types, j ∈ ty.inline

/-- Types of Rust's prelude that generated code mentions. -/
def preludeTypes : List Str := [c!"Option", c!"Vec", c!"String", c!"Result", c!"Box"]

/-- Constructors of Rust's prelude that generated code mentions. -/
def preludeConstructors : List Str := [c!"Some", c!"None", c!"Ok", c!"Err"]

/-- The identifiers that the declaration brings into scope do not hide others that are used. A newtype also is a function. -/
def TypeDef.NoShadow (t : TypeDef) : Prop :=
  t.ident ∉ preludeTypes ∧ ∀ u o, t.decl = .newtype u o → t.ident ∉ preludeConstructors

/-- One item of the module. -/
structure TypeDef.Typed (x : Ext) (P : List TypeDef) (t : TypeDef) : Prop where
  ident : LegalIdent x t.ident
  labels : ∀ i ∈ t.decl.labels, LegalIdent x i
  distinct : t.decl.labels.Nodup
  shadow : t.NoShadow
  types : ∀ ty ∈ t.decl.types, ∀ i ∈ ty.names, DeclaresType P i
  literal : t.decl.LitOK
  reads : t.fromXml.Reads P t.decl
  looks : t.look.OK P
  writes : t.toXml.Writes P t.decl

/-- The module compiles: no identifier is declared twice, every item is well typed, no type is infinite. -/
structure Compiles (x : Ext) (P : List TypeDef) : Prop where
  unique : (P.map TypeDef.ident).Nodup
  typed : ∀ t ∈ P, t.Typed x P
  sized : WellFounded (fun j i => Stores P i j)

end Xsd
