import Verif.Props.Literals
import Verif.Model.Exec
/-!
# Specification: values of a Rust type

`HasTy P ty v`: `v` is a value of the Rust type `ty`, where `P` gives the declarations of the named types.
-/
namespace Xsd

mutual
/-- Values of a type. -/
inductive HasTy (P : List TypeDef) : Ty → Val → Prop where
  | prim {p : Prim} {v : Val} (h : PrimVal p v) : HasTy P (.prim p) v
  | unit : HasTy P .unit .unit
  | none {t : Ty} : HasTy P (.option t) .none
  | some {t : Ty} {v : Val} (h : HasTy P t v) : HasTy P (.option t) (.some v)
  | vec {t : Ty} {vs : List Val} (h : ∀ v ∈ vs, HasTy P t v) : HasTy P (.vec t) (.vec vs)
  | named {i : Str} {t : TypeDef} {v : Val} (hf : findType P i = .some t) (h : HasDecl P t.decl v) :
      HasTy P (.named i) v
/-- Values of a declaration. -/
inductive HasDecl (P : List TypeDef) : Decl → Val → Prop where
  | newtype {t : Ty} {o : Option LiteralType} {v : Val} (h : HasTy P t v) : HasDecl P (.newtype t o) (.newtype v)
  | enum {vs : List (Str × Str)} {n : Str} (h : n ∈ vs.map Prod.fst) : HasDecl P (.enum vs) (.enumv n)
  | struct {ds : List (Str × Ty)} {fs : List (Str × Val)} (h : HasFields P ds fs) : HasDecl P (.struct ds) (.struct fs)
  | choice {vs : List (Str × Ty)} {n : Str} {t : Ty} {v : Val} (hm : (n, t) ∈ vs) (h : HasTy P t v) :
      HasDecl P (.choice vs) (.variant n v)
/-- Fields: same names, in order, with values of the declared types. -/
inductive HasFields (P : List TypeDef) : List (Str × Ty) → List (Str × Val) → Prop where
  | nil : HasFields P [] []
  | cons {f : Str} {t : Ty} {v : Val} {ds : List (Str × Ty)} {fs : List (Str × Val)} (h : HasTy P t v)
      (hs : HasFields P ds fs) : HasFields P ((f, t) :: ds) ((f, v) :: fs)
end

end Xsd
