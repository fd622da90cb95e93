import Verif.Props.Grammar
import Verif.Props.FileSample
/-!
# Concrete cases for `Verif/Props/Grammar.lean`, and the limit of C35
-/
namespace Xsd
namespace SchemaSample

/-- The files of a single document. -/
def oneFile (d : XDoc) : Files where
  read p := if p = c!"a.xsd" then some (.doc d) else none
  parent _ := []
  push _ l := l

/-- The declarations of the prefixes `xs` and `t`, target namespace `urn:t`. -/
def tDoc (kids : List XNode) : XDoc :=
  xdoc (schemaElem [(some c!"xs", nsXsd), (some c!"t", c!"urn:t")] [(c!"targetNamespace", c!"urn:t")] kids)

/-- `<xs:complexType name="A" abstract="true" f:abstract="x"/>`: `abstract` is not supported. -/
def shadowed : XNode :=
  .elem ⟨⟨c!"complexType", some nsXsd⟩, [⟨c!"name", none, c!"A", 0⟩, ⟨c!"abstract", none, c!"true", 0⟩,
    ⟨c!"abstract", some c!"urn:f", c!"x", 0⟩], [], 0⟩ []

/-- The file with that type. -/
def shadowedFiles : Files := oneFile (tDoc [shadowed])

theorem shadowed_parsed : (match parseFile sampleExt shadowedFiles 1 c!"a.xsd" with
    | .ok P => P.context.elements.map Prod.fst
    | _ => []) = [⟨c!"A", .id 1⟩] := by decide +kernel

/-- Without the foreign attribute it is rejected. -/
example : parseFile sampleExt (oneFile (tDoc [xe c!"complexType" [(c!"name", c!"A"), (c!"abstract", c!"true")] []])) 1
    c!"a.xsd" = .err (.xsd (.unsupportedAttribute c!"abstract" c!"complexType" 0) c!"a.xsd" 0 1) := by decide +kernel

/-- Deep below: an attribute that has no meaning there is rejected; `maxOccurs` on a nested sequence. -/
example : parseFile sampleExt (oneFile (tDoc [xe c!"complexType" [(c!"name", c!"A")]
    [xe c!"sequence" [] [xe c!"sequence" [(c!"maxOccurs", c!"2")] [xe c!"element" [(c!"name", c!"b"), (c!"type", c!"xs:int")] []]]]])) 1
    c!"a.xsd" = .err (.xsd (.unsupportedAttribute c!"maxOccurs" c!"sequence" 0) c!"a.xsd" 0 1) := by decide +kernel

/-- A child that has no meaning. -/
example : parseFile sampleExt (oneFile (tDoc [xe c!"complexType" [(c!"name", c!"A")]
    [xe c!"anyAttribute" [] []]])) 1
    c!"a.xsd" = .err (.xsd (.unsupportedChild c!"anyAttribute" c!"complexType" 0) c!"a.xsd" 0 1) := by decide +kernel

/-- The hypotheses of C35, C36 and C51 are met by two files; the nodes of the second are reached through the import. -/
example : ∃ P, parseFile sampleExt files 2 c!"main.xsd" = .ok P ∧ Reads files c!"main.xsd" c!"main.xsd" mainDoc ∧
    Reads files c!"main.xsd" c!"types.xsd" typesDoc := by
  refine ⟨parsedSchema, by decide +kernel, .here rfl, ?_⟩
  exact .there (c := ⟨⟨⟨c!"import", some nsXsd⟩, [⟨c!"schemaLocation", none, c!"types.xsd", 0⟩], [], 0⟩, [], []⟩)
    (l := c!"types.xsd") (.here rfl) (.head _) (.inr rfl) rfl rfl

/-- An element of a sequence of a type is interpreted. -/
example : Within (.complexType true) (xn c!"complexType" [(c!"name", c!"A")]
      [xe c!"sequence" [] [xe c!"element" [(c!"name", c!"b"), (c!"type", c!"xs:int")] []]])
    .localElement (xn c!"element" [(c!"name", c!"b"), (c!"type", c!"xs:int")] []) :=
  .step (.complexSequence (.head _) rfl) (.step (.seqElement (.head _) rfl) (.refl _ _))

end SchemaSample

open SchemaSample in
/-- C35 does not hold for every attribute that is written down: one that has no meaning is accepted if an attribute with a
namespace and the same local name follows, because attributes are kept in a map with the local name as key. -/
theorem C35_false : ¬ ∀ (x : Ext) (F : Files) (k : Nat) (path : Str) (P : PSchema), parseFile x F k path = .ok P →
    ∀ (q : Str) (d : XDoc), Reads F path q d → ∃ e, EnvOf d.root.1 e ∧ ∀ c ∈ (Nd.of d.root).xsdKids,
      (c.name = c!"include" ∨ c.name = c!"import") ∨
      ∃ kind, topKind c.name = some kind ∧ ∀ kind' nd, Within kind c kind' nd →
        (kind' = .attribute → nd.value c!"use" ≠ some c!"prohibited") → ∀ a ∈ nd.info.attrs, a.ns = none → Allowed e kind' nd a.loc := by
  intro h
  have hp := shadowed_parsed
  cases hr : parseFile sampleExt shadowedFiles 1 c!"a.xsd" with
  | ok P =>
    obtain ⟨e, _, hh⟩ := h _ _ _ _ P hr c!"a.xsd" _ (.here rfl)
    rcases hh _ (.head _) with h1 | ⟨kind, hk, h2⟩
    · rcases h1 with h1 | h1 <;> exact absurd h1 (by decide)
    · cases hk
      have := h2 _ _ (.refl _ _) (by nofun) ⟨c!"abstract", none, c!"true", 0⟩ (.tail _ (.head _)) rfl
      rcases this with h1 | ⟨_, h1⟩ <;> exact absurd h1 (by decide)
  | err e => rw [hr] at hp; cases hp
  | panic => rw [hr] at hp; cases hp
  | diverge => rw [hr] at hp; cases hp

end Xsd
