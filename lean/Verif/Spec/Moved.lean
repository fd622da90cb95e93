import Verif.Spec.Files
/-!
# The same files in other places
-/
namespace Xsd

/-- Files that correspond to each other have the same content, and their includes and imports lead to files that
correspond to each other. Other files are free. -/
structure SameTree (F F' : Files) (M : Str → Str → Prop) : Prop where
  read : ∀ {q q'}, M q q' → F'.read q' = F.read q
  step : ∀ {q q' d c l}, M q q' → F.read q = some (.doc d) → c ∈ (Nd.of d.root).xsdKids →
    (c.name = c!"include" ∨ c.name = c!"import") → c.value c!"schemaLocation" = some l →
    M (F.push (F.parent q) l) (F'.push (F'.parent q') l)

/-- The same error, in corresponding files. -/
inductive MovedErr (M : Str → Str → Prop) : SErr → SErr → Prop where
  | xsd {e f f' row col} (h : M f f') : MovedErr M (.xsd e f row col) (.xsd e f' row col)
  | openFile {f f'} (h : M f f') : MovedErr M (.openFile f) (.openFile f')

/-- The same outcome, up to the place of the files. -/
inductive MovedResult (M : Str → Str → Prop) : Res SErr PSchema → Res SErr PSchema → Prop where
  | ok {S} : MovedResult M (.ok S) (.ok S)
  | err {e e'} (h : MovedErr M e e') : MovedResult M (.err e) (.err e')
  | panic : MovedResult M .panic .panic
  | diverge : MovedResult M .diverge .diverge

/-- A file that is looked at when `path` is parsed. -/
inductive LooksAt (F : Files) (path : Str) : Str → Prop where
  | here : LooksAt F path path
  | there {q d c l} (h : LooksAt F path q) (hd : F.read q = some (.doc d)) (hc : c ∈ (Nd.of d.root).xsdKids)
      (hn : c.name = c!"include" ∨ c.name = c!"import") (hl : c.value c!"schemaLocation" = some l) :
      LooksAt F path (F.push (F.parent q) l)

end Xsd
