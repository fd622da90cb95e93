import Verif.Props.SchemaParts
/-!
# Specification: which files are read
-/
namespace Xsd

/-- `Reads F path q d`: starting from `path`, following includes and imports, the document `d` is read from `q`. -/
inductive Reads (F : Files) (path : Str) : Str → XDoc → Prop where
  | here {d} (h : F.read path = some (.doc d)) : Reads F path path d
  | there {q d c l d'} (h : Reads F path q d) (hc : c ∈ (Nd.of d.root).xsdKids)
      (hn : c.name = c!"include" ∨ c.name = c!"import") (hl : c.value c!"schemaLocation" = some l)
      (h' : F.read (F.push (F.parent q) l) = some (.doc d')) : Reads F path (F.push (F.parent q) l) d'

/-- `Includes F p q`: the file `p` has an include or import of the file `q`. -/
def Includes (F : Files) (p q : Str) : Prop :=
  ∃ d c l, F.read p = some (.doc d) ∧ c ∈ (Nd.of d.root).xsdKids ∧ (c.name = c!"include" ∨ c.name = c!"import") ∧
    c.value c!"schemaLocation" = some l ∧ q = F.push (F.parent p) l

end Xsd
