import Verif.Spec.Files
/-!
# Including a file that has been read already
-/
namespace Xsd

/-- The document `d'` is `d` with one more include or import after the children `pre`, with the location `l`. -/
structure OneMore (d d' : XDoc) (pre post : List Nd) (l : Str) : Prop where
  info : d'.root.1 = d.root.1
  kids : (Nd.of d.root).xsdKids = pre ++ post
  more : ∃ c : Nd, (c.name = c!"include" ∨ c.name = c!"import") ∧ c.value c!"schemaLocation" = some l ∧
    (Nd.of d'.root).xsdKids = pre ++ c :: post

/-- One of the children is an include or import of a file from which, following includes and imports, `q` is read.
`base` is where locations start. -/
def AlreadyRead (F : Files) (base : Str) (pre : List Nd) (q : Str) : Prop :=
  ∃ c l d, c ∈ pre ∧ (c.name = c!"include" ∨ c.name = c!"import") ∧ c.value c!"schemaLocation" = some l ∧
    Reads F (F.push base l) q d

end Xsd
