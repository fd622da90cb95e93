import Verif.Props.Legal
import Verif.Props.GrammarSample
/-!
# Concrete cases for `Verif/Props/Legal.lean`
-/
namespace Xsd
namespace SchemaSample

theorem files_read {q : Str} {d : XDoc} (h : Reads files c!"main.xsd" q d) : d = mainDoc ∨ d = typesDoc := by
  have hf : ∀ q d, files.read q = some (.doc d) → d = mainDoc ∨ d = typesDoc := by
    intro q d h
    unfold files at h
    dsimp only at h
    split at h
    · cases h; exact .inl rfl
    · split at h
      · cases h; exact .inr rfl
      · cases h
  exact hf q d (by cases h <;> assumption)

theorem oneFile_read {d d' : XDoc} {q : Str} (h : Reads (oneFile d) c!"a.xsd" q d') : d' = d := by
  have hf : ∀ q d', (oneFile d).read q = some (.doc d') → d' = d := by
    intro q d' h
    unfold oneFile at h
    dsimp only at h
    split at h
    · cases h; rfl
    · cases h
  exact hf q d' (by cases h <;> assumption)

/-- `main.xsd`, which imports `types.xsd`, is supported. -/
theorem files_legal : LegalFile sampleExt files c!"main.xsd" := by
  refine C61_only_supported sampleExt files 2 c!"main.xsd" parsedSchema ?_ (by decide +kernel)
  intro q d h
  rcases files_read h with rfl | rfl <;> decide +kernel

/-- The hypotheses of `C61_accepts_partial` are met by the two files. -/
example : ∃ k P, parseFile sampleExt files k c!"main.xsd" = .ok P := by
  refine (C61_accepts_partial sampleExt sampleExt_snakeAscii files c!"main.xsd" ?_ ?_).2 files_legal
  · intro q d h
    rcases files_read h with rfl | rfl <;> decide +kernel
  · intro q d h
    rcases files_read h with rfl | rfl <;> exact asciiNode_sound (by decide +kernel)

/-- A file whose parsing reports an error is not supported. -/
theorem rejected_not_legal {x : Ext} {d : XDoc} {er : SErr} {k : Nat} (hN : (d.root.1.nss.map Prod.fst).Nodup)
    (h : parseFile x (oneFile d) k c!"a.xsd" = .err er) : ¬ LegalFile x (oneFile d) c!"a.xsd" := fun hl =>
  (C61_no_error x (oneFile d) c!"a.xsd" (fun q d' hr => by rw [oneFile_read hr]; exact hN) hl).1 k er h

/-- Not supported: two particles in a type; a base that is not built in; a number that is too large. -/
example : ¬ LegalFile sampleExt (oneFile (tDoc [xe c!"complexType" [(c!"name", c!"A")] [xe c!"sequence" [] [], xe c!"all" [] []]])) c!"a.xsd" ∧
    ¬ LegalFile sampleExt (oneFile (tDoc [xe c!"simpleType" [(c!"name", c!"A")] [xe c!"restriction" [(c!"base", c!"t:B")] []]])) c!"a.xsd" ∧
    ¬ LegalFile sampleExt (oneFile (tDoc [xe c!"complexType" [(c!"name", c!"A")] [xe c!"sequence" []
      [xe c!"element" [(c!"name", c!"b"), (c!"maxOccurs", c!"4294967296"), (c!"type", c!"xs:int")] []]]])) c!"a.xsd" := by
  refine ⟨rejected_not_legal (k := 1) (er := .xsd (.unsupportedChild c!"all" c!"complexType" 0) c!"a.xsd" 0 1) ?_ ?_,
    rejected_not_legal (k := 1) (er := .xsd (.unsupportedAttributeValue c!"base" c!"t:B" c!"restriction" 0) c!"a.xsd" 0 1) ?_ ?_,
    rejected_not_legal (k := 1) (er := .xsd (.parseInt 0) c!"a.xsd" 0 1) ?_ ?_⟩
  all_goals decide +kernel

/-- Directly: a type with a sequence of an element is supported; its element needs a name. -/
example : Legal sampleExt (docEnv (tDoc []).root.1) (.complexType true) (xn c!"complexType" [(c!"name", c!"A")]
      [xe c!"sequence" [] [xe c!"element" [(c!"name", c!"b"), (c!"type", c!"xs:int")] []]]) ∧
    ¬ Legal sampleExt (docEnv (tDoc []).root.1) (.complexType true) (xn c!"complexType" [(c!"name", c!"A")]
      [xe c!"sequence" [] [xe c!"element" [(c!"type", c!"xs:int")] []]]) := by
  constructor
  · have h : ∃ P, parseFile sampleExt (oneFile (tDoc [xe c!"complexType" [(c!"name", c!"A")]
        [xe c!"sequence" [] [xe c!"element" [(c!"name", c!"b"), (c!"type", c!"xs:int")] []]]])) 1 c!"a.xsd" = .ok P := by
      have h : (match parseFile sampleExt (oneFile (tDoc [xe c!"complexType" [(c!"name", c!"A")]
        [xe c!"sequence" [] [xe c!"element" [(c!"name", c!"b"), (c!"type", c!"xs:int")] []]]])) 1 c!"a.xsd" with
        | .ok _ => true
        | _ => false) = true := by decide +kernel
      split at h
      · exact ⟨_, by assumption⟩
      · cases h
    obtain ⟨P, h⟩ := h
    have := C61_only_supported _ _ _ _ _ (fun q d' hr => by rw [oneFile_read hr]; decide +kernel) h
    cases this with
    | mk hr hn hi hf hd =>
      cases FileContent.doc.inj (Option.some.inj hr)
      obtain ⟨_, k, hk, hl⟩ := hd _ (.head _) (by decide)
      cases hk
      exact hl
  · intro h
    have := h _ _ (.step (.complexSequence (.head _) rfl) (.step (.seqElement (.head _) rfl) (.refl _ _)))
    exact (this.2.2.2.2.2 (by decide)).1 (by decide)

end SchemaSample
end Xsd
