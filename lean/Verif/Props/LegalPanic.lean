import Verif.Props.LegalSample
import Verif.Props.NoPanic
/-!
# Supported schemas that cannot be parsed (C61)
-/
namespace Xsd

/-- What is supported depends on the libraries only in which decimals there are. -/
theorem LegalFile.ext {x x' : Ext} {F : Files} {path : Str} (hx : x.parseDecimal = x'.parseDecimal) (h : LegalFile x F path) : LegalFile x' F path := by
  induction h with
  | mk hr hn hi hf hd ih =>
    refine .mk hr hn hi ih fun c hc hcn => ?_
    obtain ⟨h1, k, h2, h3⟩ := hd c hc hcn
    refine ⟨h1, k, h2, fun k' c' hw => ?_⟩
    obtain ⟨h4, h5, h6⟩ := h3 k' c' hw
    refine ⟨h4, h5, ?_⟩
    cases k' <;> try exact h6
    intro f hf
    obtain ⟨v, h7, h8, h9⟩ := h6 f hf
    exact ⟨v, h7, h8, hx ▸ h9⟩

/-- **C61** for all names: a schema is parsed if and only if it is supported and parsing it does not panic. -/
theorem C61_accepts (x : Ext) (F : Files) (path : Str) (hN : ∀ q d, Reads F path q d → (d.root.1.nss.map Prod.fst).Nodup) :
    (∃ k P, parseFile x F k path = .ok P) ↔ LegalFile x F path ∧ ∃ k, parseFile x F k path ≠ .diverge ∧ parseFile x F k path ≠ .panic := by
  constructor
  · rintro ⟨k, P, h⟩
    exact ⟨C61_only_supported x F k path P hN h, k, by rw [h]; nofun, by rw [h]; nofun⟩
  · rintro ⟨h, k, h2, h3⟩
    obtain ⟨h1, _⟩ := C61_no_error x F path hN h
    cases hr : parseFile x F k path with
    | ok P => exact ⟨k, P, hr⟩
    | err er => exact absurd hr (h1 k er)
    | panic => exact absurd hr h3
    | diverge => exact absurd hr h2

namespace SchemaSample

/-- **C61** is false for names outside ASCII: a supported schema on which the parser panics. -/
theorem C61_false : LegalFile sampleExt (oneFile (choiceOf c!"aé" c!"bé")) c!"a.xsd" ∧
    parseFile sampleExt (oneFile (choiceOf c!"aé" c!"bé")) 1 c!"a.xsd" = .panic := by
  refine ⟨?_, C44_parse_false.1⟩
  refine LegalFile.ext (x := { sampleExt with snake := fun _ => [] }) rfl ?_
  obtain ⟨P, hP⟩ : ∃ P, parseFile { sampleExt with snake := fun _ => [] } (oneFile (choiceOf c!"aé" c!"bé")) 1 c!"a.xsd" = .ok P := ⟨_, rfl⟩
  refine C61_only_supported _ _ _ _ P ?_ hP
  intro q d h
  rw [oneFile_read h]
  decide +kernel

end SchemaSample

end Xsd
