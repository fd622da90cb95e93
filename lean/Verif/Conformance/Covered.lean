import Verif.Conformance.Base
import Verif.Props.CompilesSample
import Verif.Spec.Write
/-!
# The hypotheses of the theorems are met by the schemas of the repository's tests

The schemas in `xsd/tests/xsd/` satisfy the hypotheses of the theorems about generated modules: what is generated compiles (as it
does with rustc, otherwise the tests could not run), is deterministic, and (with one exception) is written faithfully.
-/
namespace Xsd.Conformance

theorem pascalGo_head (found : Bool) (last : Char) (s : Str) (c : Char) (h : (pascalGo found true last s).head? = some c) :
    c.isDigit = true ∨ ∃ d : Char, c = d.toUpper := by
  induction s generalizing found last with
  | nil => cases h
  | cons d s ih =>
    unfold pascalGo at h
    split at h
    · split at h <;> exact ih _ _ h
    · split at h
      · next hd => cases h; exact .inl hd
      · rw [if_pos (by rfl)] at h
        cases h
        exact .inr ⟨d, rfl⟩

theorem ext_nameLaws : ext.NameLaws := by
  refine ⟨fun s hs => ?_, fun s hs => ?_⟩
  · have hs : (s != [] && s.all (fun c => c.isAlphanum || c == '_') && !(s.head?.any Char.isDigit)) = true := hs
    simp only [Bool.and_eq_true, List.all_eq_true] at hs
    exact ⟨fun h => absurd (hs.1.2 _ h) (by decide), fun h => absurd (hs.1.2 _ h) (by decide)⟩
  · have key : ∀ k ∈ rustKeywords, k = c!"Self" ∨
        (match k.head? with | some c => decide ('a' ≤ c ∧ c ≤ 'z') && !c.isDigit | none => false) = true := by decide +kernel
    rcases key _ hs with h | h
    · exact h
    · split at h
      · next c hc =>
        simp only [Bool.and_eq_true, decide_eq_true_eq, Bool.not_eq_true'] at h
        rcases pascalGo_head _ _ _ _ hc with hd | ⟨d, rfl⟩
        · rw [hd] at h; cases h.2
        · exact absurd h.1 (toUpper_not_lower d)
      · cases h

/-- The number of definitions inside of a definition, counted to a given depth. -/
def rankOf (S : SchemaContext) : Nat → Name → Nat
  | 0, _ => 0
  | k + 1, n =>
    match S.get n with
    | some r => (r.inlineContents.map (fun c => match inlined S c with
        | .ok (.named m) => rankOf S k m + 1
        | _ => 0)).foldl max 0
    | none => 0

/-- The hypotheses, decided. -/
def coveredB (F : Files) (path : Str) (faithful : Bool) : Bool :=
  match parseFile ext F 9 path with
  | .ok S => generatesB ext S.context && decide (S.context.elements.map Prod.fst).Nodup && detOK ext S.context (Cert.compute ext S.context) &&
      (!faithful || writeOK ext S.context (WCert.compute S.context)) && buildableB ext S.context (rankOf S.context 9)
  | _ => false

/-- The schema is parsed, its code is generated and compiles, and it is deterministic and (if so marked) faithful. -/
def Covered (F : Files) (path : Str) (faithful : Bool) : Prop :=
  ∃ S P, parseFile ext F 9 path = .ok S ∧ Generated ext S.context P ∧ Compiles ext P ∧ Deterministic ext S.context ∧
    (faithful = true → Faithful ext S.context)

theorem coveredB_sound {F : Files} {path : Str} {faithful : Bool} (h : coveredB F path faithful = true) : Covered F path faithful := by
  unfold coveredB at h
  split at h
  · next S hS =>
    simp only [Bool.and_eq_true, decide_eq_true_eq] at h
    obtain ⟨⟨⟨⟨h1, h2⟩, h3⟩, h4⟩, h5⟩ := h
    have G := generatesB_sound h1
    refine ⟨S, _, hS, G, C58_compiles_partial ext_nameLaws h2 G.gen (buildableB_sound h5), ⟨_, h3⟩, fun hf => ⟨WCert.compute S.context, ?_⟩⟩
    rw [hf] at h4
    simpa using h4
  · cases h

end Xsd.Conformance
