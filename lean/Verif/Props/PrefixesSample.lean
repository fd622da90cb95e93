import Verif.Props.Prefixes
import Verif.Props.AgainSample
/-!
# Concrete cases for C80
-/
namespace Xsd
namespace PrefixSample
open SchemaSample Pre

/-- A schema document with these namespace declarations and definitions. -/
def doc (decls : List (Option Str × Str)) (start : Nat) (kids : List XNode) : XDoc where
  root := (⟨⟨c!"schema", some nsXsd⟩, [⟨c!"targetNamespace", none, c!"urn:t", start⟩, ⟨c!"elementFormDefault", none, c!"qualified", start⟩], decls, start⟩, kids)
  pos n := (n, start)

/-- A type with an anonymous type in it, an extension of it, and an element, with these names for the types. -/
def types (string int base home : Str) : List XNode :=
  [xe c!"complexType" [(c!"name", c!"City")]
     [xe c!"sequence" []
        [xe c!"element" [(c!"name", c!"zip"), (c!"type", int)] [],
         xe c!"element" [(c!"name", c!"size")] [xe c!"simpleType" [] [xe c!"restriction" [(c!"base", string)]
           [xe c!"enumeration" [(c!"value", c!"t:a")] [], xe c!"enumeration" [(c!"value", c!"b")] []]]]]],
   xe c!"complexType" [(c!"name", c!"Capital")] [xe c!"complexContent" [] [xe c!"extension" [(c!"base", base)]
     [xe c!"sequence" [] [xe c!"element" [(c!"ref", home)] []]]]],
   xe c!"element" [(c!"name", c!"home"), (c!"type", base)] []]

/-- Prefixes for both namespaces. -/
def usual : XDoc := doc [(some c!"xs", nsXsd), (some c!"t", c!"urn:t")] 7 (types c!"xs:string" c!"xs:int" c!"t:City" c!"t:home")

/-- XML Schema as the default namespace, and another prefix for the other one. -/
def other : XDoc := doc [(none, nsXsd), (some c!"xs", c!"urn:t")] 5 (types c!"string" c!"int" c!"xs:City" c!"xs:home")

/-- The other namespace as the default one. -/
def wrong : XDoc := doc [(some c!"xs", nsXsd), (none, c!"urn:t")] 5 (types c!"xs:string" c!"xs:int" c!"City" c!"home")

/-- The rewriting from `usual` to `other`. -/
def rewriting : Rewriting where
  value a := (alookup [(c!"xs:string", c!"string"), (c!"xs:int", c!"int"), (c!"t:City", c!"xs:City"), (c!"t:home", c!"xs:home")] a.value).getD []
  decls i := if i.name.loc = c!"schema" then [(none, nsXsd), (some c!"xs", c!"urn:t")] else i.nss
  place n := if n = 7 then 5 else n

theorem means_prefixed {decls : List (Option Str × Str)} {v p n u : Str} (hv : v = p ++ ':' :: n) (hp : ':' ∉ p) (hd : (some p, u) ∈ decls) :
    Pre.Means decls v n (some u) := hv ▸ .prefixed hp hd

theorem renamed : RenamedDoc usual other := by
  refine ⟨rewriting, ?_, by decide, by decide, ?_⟩
  · show _ = (_, reKids rewriting (types _ _ _ _))
    simp only [types, xe, reKids, reNode]
    rfl
  · have hall : ∀ a ∈ usual.root.1.attrs ++ attrsInAll usual.root.2, a.loc ∈ qualified →
        a.value = c!"xs:string" ∨ a.value = c!"xs:int" ∨ a.value = c!"t:City" ∨ a.value = c!"t:home" := by decide +kernel
    intro a ha hq
    refine .inl ?_
    show ∃ n u, Pre.Means usual.root.1.nss a.value n u ∧ Pre.Means other.root.1.nss ((alookup _ a.value).getD []) n u
    rcases hall a ha hq with h | h | h | h <;> rw [h]
    · exact ⟨c!"string", some nsXsd, means_prefixed (p := c!"xs") rfl (by decide) (by decide), .builtin (by decide) (by decide)⟩
    · exact ⟨c!"int", some nsXsd, means_prefixed (p := c!"xs") rfl (by decide) (by decide), .builtin (by decide) (by decide)⟩
    · exact ⟨c!"City", some c!"urn:t", means_prefixed (p := c!"t") rfl (by decide) (by decide), means_prefixed (p := c!"xs") rfl (by decide) (by decide)⟩
    · exact ⟨c!"home", some c!"urn:t", means_prefixed (p := c!"t") rfl (by decide) (by decide), means_prefixed (p := c!"xs") rfl (by decide) (by decide)⟩

/-- One file. -/
def only (d : XDoc) : Files where
  read p := if p = c!"a.xsd" then some (.doc d) else none
  parent _ := []
  push _ l := l

theorem renamedFiles : RenamedFiles (only usual) (only other) where
  parent := rfl
  push := rfl
  read p := by
    show RenamedFile (if p = c!"a.xsd" then _ else _) (if p = c!"a.xsd" then _ else _)
    split
    · exact .doc renamed
    · exact .none

/-- The schema in the file. -/
def schemaIn (d : XDoc) : Option PSchema :=
  match parseFile sampleExt (only d) 1 c!"a.xsd" with
  | .ok P => some P
  | _ => none

/-- The schema is accepted, so C80 says something about it. -/
example : ∃ P, parseFile sampleExt (only other) 1 c!"a.xsd" = .ok P ∧ parseFile sampleExt (only usual) 1 c!"a.xsd" = .ok P ∧
    P.context.elements.map Prod.fst =
      [⟨c!"CitySizeData", .id 1⟩, ⟨c!"City", .id 1⟩, ⟨c!"CapitalCity", .id 1⟩, ⟨c!"Capital", .id 1⟩, ⟨c!"home", .id 1⟩] := by
  have h : (schemaIn usual).map (fun P => P.context.elements.map Prod.fst) =
      some [⟨c!"CitySizeData", .id 1⟩, ⟨c!"City", .id 1⟩, ⟨c!"CapitalCity", .id 1⟩, ⟨c!"Capital", .id 1⟩, ⟨c!"home", .id 1⟩] := by decide +kernel
  unfold schemaIn at h
  cases hp : parseFile sampleExt (only usual) 1 c!"a.xsd" with
  | ok P =>
    rw [hp] at h
    exact ⟨P, (C80 sampleExt renamedFiles 1 _ P).2 hp, rfl, Option.some.inj h⟩
  | err e => rw [hp] at h; cases h
  | panic => rw [hp] at h; cases h
  | diverge => rw [hp] at h; cases h

/-- Names without a prefix are not looked up in the default namespace unless it is the one of XML Schema: this file means the
same, but it is read differently. -/
theorem C80_default_false : schemaIn wrong ≠ schemaIn usual ∧ (schemaIn wrong).isSome := by decide +kernel

end PrefixSample
end Xsd
