import Verif.Spec.Files
/-!
# Splitting a schema file
-/
namespace Xsd

/-- The document `d'` is `d` with the children `moved` replaced by one include or import, with the location `l`, and these
children are all that `part` has, in a schema element like that of `d`. -/
structure SplitOff (d d' part : XDoc) (l : Str) : Prop where
  info : d'.root.1 = d.root.1
  name : part.root.1.name = d.root.1.name
  attrs : part.root.1.attrs = d.root.1.attrs
  nss : part.root.1.nss = d.root.1.nss
  kids : ∃ (pre moved post : List Nd) (c : Nd), (Nd.of d.root).xsdKids = pre ++ (moved ++ post) ∧
    (Nd.of d'.root).xsdKids = pre ++ c :: post ∧ (Nd.of part.root).xsdKids = moved ∧
    (c.name = c!"include" ∨ c.name = c!"import") ∧ c.value c!"schemaLocation" = some l

end Xsd
