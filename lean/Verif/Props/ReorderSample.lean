import Verif.Props.Reorder
import Verif.Props.AgainSample
/-!
# Concrete cases for C79
-/
namespace Xsd
namespace ReorderSample
open SchemaSample AgainSample Reord Again

/-- An include of a file with an anonymous type, and definitions that refer to each other and to that file. -/
def first : List XNode :=
  [xe c!"include" [(c!"schemaLocation", c!"base.xsd")] [],
   xe c!"complexType" [(c!"name", c!"Order")]
     [xe c!"sequence" []
        [xe c!"element" [(c!"name", c!"to"), (c!"type", c!"t:City")] [],
         xe c!"element" [(c!"name", c!"kind")] [xe c!"simpleType" [] [xe c!"restriction" [(c!"base", c!"xs:string")]
           [xe c!"enumeration" [(c!"value", c!"a")] [], xe c!"enumeration" [(c!"value", c!"b")] []]]]]],
   xe c!"element" [(c!"name", c!"purchase"), (c!"type", c!"t:Order")] []]

/-- The files, in one directory: `other.xsd` has the children in the opposite order, and two of them once more. -/
def shuffled : Files where
  read p := (alookup [(c!"base.xsd", baseDoc), (c!"one.xsd", tDoc first), (c!"other.xsd", tDoc (first.reverse ++ first.drop 1)),
    (c!"clash.xsd", tDoc (first ++ [otherZip])), (c!"clashed.xsd", tDoc (otherZip :: first))] p).map .doc
  parent _ := []
  push _ l := l

def schemaOf (p : Str) : PSchema :=
  match parseFile sampleExt shuffled 2 p with | .ok P => P | _ => ⟨⟨[], .none, false, .empty⟩, []⟩

/-- What each child adds. -/
def added : List (Nd × List (Name × Root)) := (Nd.of (tDoc first).root).xsdKids.map (fun c =>
  (c, match parseItems sampleExt shuffled (parseFileWith sampleExt shuffled 1) [] [c]
        (start (tDoc first) (schemaOf c!"one.xsd").context.namespaces []) with | .ok s => s.roots | _ => []))

example : added.map (fun b => b.2.map (fun b => b.1.name)) =
    [[c!"CitySizeData", c!"City", c!"Zip"], [c!"OrderKindData", c!"Order"], [c!"purchase"]] := by decide +kernel

theorem added_agree : ∀ b ∈ added, ∀ b' ∈ added, ∀ q ∈ b.2, ∀ q' ∈ b'.2, q.1 = q'.1 → q.2 = q'.2 := by decide +kernel

theorem alone_added {c : Nd} (hc : c ∈ (Nd.of (tDoc first).root).xsdKids) {S : PSchema}
    (h : ParsedAlone sampleExt shuffled 1 c!"one.xsd" (tDoc first) (schemaOf c!"one.xsd").context.namespaces c S) :
    (c, S.context.elements) ∈ added := by
  obtain ⟨d', h1, h2⟩ := h
  obtain ⟨_, s, h3, rfl⟩ := parseDoc_iff.1 h2
  rw [h1.kids, start_congr h1.info] at h3
  refine List.mem_map.2 ⟨c, hc, ?_⟩
  show (c, match parseItems sampleExt shuffled (parseFileWith sampleExt shuffled 1) (shuffled.parent c!"one.xsd") [c]
        (start (tDoc first) (schemaOf c!"one.xsd").context.namespaces []) with | .ok s => s.roots | _ => []) = _
  rw [h3]
  rfl

theorem no_clash : NoClash sampleExt shuffled 1 c!"one.xsd" (tDoc first) (schemaOf c!"one.xsd").context.namespaces :=
  fun _ hc _ hc' _ _ hS hS' _ _ _ h h' =>
    added_agree _ (alone_added hc hS) _ (alone_added hc' hS') _ (alookup_mem h) _ (alookup_mem h') rfl

theorem reordered : Reordered (tDoc first) (tDoc (first.reverse ++ first.drop 1)) :=
  ⟨rfl, fun c => by
    show c ∈ [_, _, _, _, _] ↔ c ∈ [_, _, _]
    simp only [List.mem_cons, List.not_mem_nil, or_false]
    constructor
    · rintro (h | h | h | h | h)
      · exact .inr (.inr h)
      · exact .inr (.inl h)
      · exact .inl h
      · exact .inr (.inl h)
      · exact .inr (.inr h)
    · rintro (h | h | h)
      · exact .inr (.inr (.inl h))
      · exact .inr (.inl h)
      · exact .inl h⟩

theorem one_namespace : ∀ u n, alookup (schemaOf c!"one.xsd").context.namespaces.byUri u = some n → targetOf (tDoc first) = some u := by
  intro u n h
  have hm := alookup_mem h
  have : (schemaOf c!"one.xsd").context.namespaces.byUri = [(c!"urn:t", 1)] := by decide +kernel
  rw [this, List.mem_singleton] at hm
  cases hm
  decide +kernel

/-- The hypotheses of C79 are met, and its conclusion is not empty: the other file has its types in another order. -/
example : ∃ P', parseFile sampleExt shuffled 2 c!"other.xsd" = .ok P' ∧ SameButOrder (schemaOf c!"one.xsd") P' ∧
    P'.context.elements.map (fun b => b.1.name) = [c!"purchase", c!"OrderKindData", c!"Order", c!"CitySizeData", c!"City", c!"Zip"] ∧
    (schemaOf c!"one.xsd").context.elements.map (fun b => b.1.name) =
      [c!"CitySizeData", c!"City", c!"Zip", c!"OrderKindData", c!"Order", c!"purchase"] := by
  obtain ⟨P', h, hs⟩ := C79 (x := sampleExt) (F := shuffled) (p := c!"one.xsd") (p' := c!"other.xsd") (k := 1) reordered rfl rfl rfl
    (P := schemaOf c!"one.xsd") (by decide +kernel) one_namespace no_clash
  refine ⟨P', h, hs, ?_, by decide +kernel⟩
  have : parseFile sampleExt shuffled 2 c!"other.xsd" = .ok (schemaOf c!"other.xsd") := by decide +kernel
  rw [h] at this
  rw [Res.ok.inj this]
  decide +kernel

/-- Code is generated for the one file, and so by C79 for the other. -/
example : (match generateAll sampleExt (schemaOf c!"one.xsd").context with | .ok ds => ds.map TypeDef.ident | _ => []) =
    [c!"CitySizeData", c!"City", c!"Zip", c!"OrderKindData", c!"Order", c!"Purchase"] := by decide +kernel

/-- Without the condition on clashes C79 is false: of two definitions with the same name the last one counts. -/
theorem C79_clash_false : ∃ (F : Files) (p p' : Str) (d d' : XDoc) (P P' : PSchema), Reordered d d' ∧ F.read p = some (.doc d) ∧
    F.read p' = some (.doc d') ∧ F.parent p' = F.parent p ∧ parseFile sampleExt F 2 p = .ok P ∧ parseFile sampleExt F 2 p' = .ok P' ∧
    P'.context.namespaces = P.context.namespaces ∧ ¬ SameButOrder P P' := by
  refine ⟨shuffled, c!"clash.xsd", c!"clashed.xsd", tDoc (first ++ [otherZip]), tDoc (otherZip :: first), schemaOf c!"clash.xsd",
    schemaOf c!"clashed.xsd", ⟨rfl, fun c => ?_⟩, rfl, rfl, rfl, by decide +kernel, by decide +kernel, by decide +kernel, fun h => ?_⟩
  · show c ∈ [_, _, _, _] ↔ c ∈ [_, _, _, _]
    simp only [List.mem_cons, List.not_mem_nil, or_false]
    constructor
    · rintro (h | h | h | h)
      · exact .inr (.inr (.inr h))
      · exact .inl h
      · exact .inr (.inl h)
      · exact .inr (.inr (.inl h))
    · rintro (h | h | h | h)
      · exact .inr (.inl h)
      · exact .inr (.inr (.inl h))
      · exact .inr (.inr (.inr h))
      · exact .inl h
  · exact absurd (h.get ⟨c!"Zip", .id 1⟩) (by decide +kernel)

end ReorderSample
end Xsd
