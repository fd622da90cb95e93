import Verif.Props.Again
import Verif.Props.GrammarSample
/-!
# Concrete cases for C75
-/
namespace Xsd
namespace AgainSample
open SchemaSample

/-- `base.xsd`: two types, one of them with an anonymous type. -/
def baseDoc : XDoc := tDoc
  [xe c!"complexType" [(c!"name", c!"City")]
     [xe c!"sequence" []
        [xe c!"element" [(c!"name", c!"zip"), (c!"type", c!"t:Zip")] [],
         xe c!"element" [(c!"name", c!"size")] [xe c!"simpleType" [] [xe c!"restriction" [(c!"base", c!"xs:string")]
           [xe c!"enumeration" [(c!"value", c!"a")] [], xe c!"enumeration" [(c!"value", c!"b")] []]]]]],
   xe c!"simpleType" [(c!"name", c!"Zip")] [xe c!"restriction" [(c!"base", c!"xs:string")] []]]

/-- `mid.xsd` includes `base.xsd`. -/
def midDoc : XDoc := tDoc
  [xe c!"include" [(c!"schemaLocation", c!"base.xsd")] [],
   xe c!"complexType" [(c!"name", c!"Address")] [xe c!"sequence" [] [xe c!"element" [(c!"name", c!"city"), (c!"type", c!"t:City")] []]]]

/-- What the three main files have first. -/
def pre : List XNode :=
  [xe c!"include" [(c!"schemaLocation", c!"mid.xsd")] [],
   xe c!"element" [(c!"name", c!"home"), (c!"type", c!"t:Address")] []]

/-- What they have last. -/
def post : List XNode := [xe c!"element" [(c!"name", c!"work"), (c!"type", c!"t:City")] []]

/-- The additional include. -/
def more : XNode := xe c!"include" [(c!"schemaLocation", c!"base.xsd")] []

/-- A definition that replaces the one in `base.xsd`. -/
def otherZip : XNode := xe c!"simpleType" [(c!"name", c!"Zip")] [xe c!"restriction" [(c!"base", c!"xs:int")] []]

/-- The files, in one directory. -/
def files : Files where
  read p := (alookup [(c!"base.xsd", baseDoc), (c!"mid.xsd", midDoc), (c!"once.xsd", tDoc (pre ++ post)),
    (c!"twice.xsd", tDoc (pre ++ more :: post)), (c!"other1.xsd", tDoc (pre ++ otherZip :: post)),
    (c!"other2.xsd", tDoc (pre ++ otherZip :: more :: post))] p).map .doc
  parent _ := []
  push _ l := l

/-- The schema. -/
def parsed (path : Str) : PSchema :=
  match parseFile sampleExt files 3 path with | .ok P => P | _ => ⟨⟨[], .none, false, .empty⟩, []⟩

/-- The included file as it is read with what the schema knows. -/
def again : PSchema :=
  match parseFileWith sampleExt files 3 c!"base.xsd" (parsed c!"once.xsd").context.namespaces (parsed c!"once.xsd").deps with
  | .ok P => P | _ => ⟨⟨[], .none, false, .empty⟩, []⟩

theorem again_kept : ∀ b ∈ again.context.elements, (parsed c!"once.xsd").context.get b.1 = some b.2 := by decide +kernel

example : again.context.elements.map (fun b => b.1.name) = [c!"CitySizeData", c!"City", c!"Zip"] := by decide +kernel

/-- The hypotheses of C75 are met by `once.xsd` and `twice.xsd`: `base.xsd` was read for `mid.xsd`. -/
example : parseFile sampleExt files 3 c!"twice.xsd" = .ok (parsed c!"once.xsd") := by
  refine C75 (p := c!"once.xsd") (p' := c!"twice.xsd") (d := tDoc (pre ++ post)) (d' := tDoc (pre ++ more :: post))
    (pre := (Nd.of (tDoc pre).root).xsdKids) (post := (Nd.of (tDoc post).root).xsdKids) (l := c!"base.xsd")
    (by decide +kernel) rfl rfl rfl ⟨rfl, rfl, xn c!"include" [(c!"schemaLocation", c!"base.xsd")] [], .inl rfl, rfl, rfl⟩ ?_ ?_
  · exact ⟨xn c!"include" [(c!"schemaLocation", c!"mid.xsd")] [], c!"mid.xsd", baseDoc, .head _, .inl rfl, rfl,
      .there (q := c!"mid.xsd") (d := midDoc) (c := xn c!"include" [(c!"schemaLocation", c!"base.xsd")] []) (l := c!"base.xsd")
        (.here rfl) (.head _) (.inl rfl) rfl rfl⟩
  · intro Q hQ n r hr
    have h0 : parseFileWith sampleExt files 3 c!"base.xsd" (parsed c!"once.xsd").context.namespaces (parsed c!"once.xsd").deps =
        .ok again := by decide +kernel
    have hq : Q = again := Res.ok.inj (hQ.symm.trans h0)
    subst hq
    exact again_kept (n, r) (alookup_mem hr)

example : (parsed c!"once.xsd").context.elements.length = 6 ∧ (parsed c!"once.xsd").deps.length = 4 := by decide +kernel

/-- Where a definition was replaced, the additional include brings the first one back: `C75_names` is all that holds. -/
example : (parsed c!"other1.xsd").context.get ⟨c!"Zip", .id 1⟩ = some (.leaf ⟨.literal .int32, [], none⟩) ∧
    (parsed c!"other2.xsd").context.get ⟨c!"Zip", .id 1⟩ = some (.leaf ⟨.literal .string, [], none⟩) := by decide +kernel

end AgainSample
end Xsd
