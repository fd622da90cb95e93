import Verif.Spec.Blame
/-!
# Specification: schemas with names in ASCII
-/
namespace Xsd

/-- A text in ASCII. -/
def Ascii (s : Str) : Prop := ∀ c ∈ s, c.toNat < 128

/-- The attributes whose values end up in the names of types. -/
def nameAttrs : List Str := [c!"name", c!"ref", c!"base"]

/-- The names in an element and in all elements inside it are in ASCII. -/
def AsciiNames (e : Elem) : Prop := ∀ f, Inside e f → ∀ a ∈ f.1.attrs, a.loc ∈ nameAttrs → Ascii a.value

end Xsd
