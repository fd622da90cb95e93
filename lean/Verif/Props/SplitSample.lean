import Verif.Props.Split
import Verif.Props.AgainSample
/-!
# A concrete case for C76
-/
namespace Xsd
namespace SplitSample
open SchemaSample AgainSample

/-- The definitions that get a file of their own: one with an anonymous type, and one that replaces an earlier one. -/
def moved : List XNode :=
  [xe c!"complexType" [(c!"name", c!"Order")]
     [xe c!"sequence" []
        [xe c!"element" [(c!"name", c!"to"), (c!"type", c!"t:City")] [],
         xe c!"element" [(c!"name", c!"kind")] [xe c!"simpleType" [] [xe c!"restriction" [(c!"base", c!"xs:string")]
           [xe c!"enumeration" [(c!"value", c!"a")] [], xe c!"enumeration" [(c!"value", c!"b")] []]]]]],
   otherZip]

/-- The files, in one directory. -/
def split : Files where
  read p := (alookup [(c!"base.xsd", baseDoc), (c!"mid.xsd", midDoc), (c!"whole.xsd", tDoc (pre ++ (moved ++ post))),
    (c!"rest.xsd", tDoc (pre ++ xe c!"include" [(c!"schemaLocation", c!"part.xsd")] [] :: post)), (c!"part.xsd", tDoc moved)] p).map .doc
  parent _ := []
  push _ l := l

theorem split_off : SplitOff (tDoc (pre ++ (moved ++ post)))
    (tDoc (pre ++ xe c!"include" [(c!"schemaLocation", c!"part.xsd")] [] :: post)) (tDoc moved) c!"part.xsd" :=
  ⟨rfl, rfl, rfl, rfl, (Nd.of (tDoc pre).root).xsdKids, (Nd.of (tDoc moved).root).xsdKids, (Nd.of (tDoc post).root).xsdKids,
    xn c!"include" [(c!"schemaLocation", c!"part.xsd")] [], rfl, rfl, rfl, .inl rfl, rfl⟩

/-- The hypotheses of C76 are met, and its conclusion is not empty: the file is parsed. -/
example : ∃ S k, parseFile sampleExt split k c!"rest.xsd" = .ok S ∧
    S.context.elements.map (fun b => b.1.name) =
      [c!"CitySizeData", c!"City", c!"Zip", c!"Address", c!"home", c!"OrderKindData", c!"Order", c!"work"] ∧
    S.context.get ⟨c!"Zip", .id 1⟩ = some (.leaf ⟨.literal .int32, [], none⟩) := by
  obtain ⟨k, h⟩ := (C76 (x := sampleExt) (F := split) (p := c!"whole.xsd") (p' := c!"rest.xsd") split_off rfl rfl rfl rfl rfl
    (match parseFile sampleExt split 3 c!"whole.xsd" with | .ok P => P | _ => ⟨⟨[], .none, false, .empty⟩, []⟩)).1 ⟨3, by decide +kernel⟩
  exact ⟨_, k, h, by decide +kernel, by decide +kernel⟩

end SplitSample
end Xsd
