import Verif.Props.SchemaParts
import Verif.Props.LiteralCode
/-!
# The values of the built-in types (C26)
-/
namespace Xsd

theorem parsePrim_types (x : Ext) {n : Str} {t : LiteralType} (h : (n, t) ∈ builtin) (s : Str) (v : Val) :
    parsePrim x t.prim s = some v ↔ TypeText x n s v := by
  have hr := C26_ranges x s v
  have hb := C26_bool_texts x s v
  have hd : parsePrim x .decimal s = some v ↔ ∃ d, v = .dec d ∧ x.parseDecimal s = some d := by
    simp only [parsePrim, Option.map_eq_some_iff]
    exact ⟨fun ⟨d, h1, h2⟩ => ⟨d, h2.symm, h1⟩, fun ⟨d, h1, h2⟩ => ⟨d, h2, h1.symm⟩⟩
  have hf : parsePrim x .f32 s = some v ↔ ∃ d, v = .flt d ∧ x.parseFloat s = some d := by
    simp only [parsePrim, Option.map_eq_some_iff]
    exact ⟨fun ⟨d, h1, h2⟩ => ⟨d, h2.symm, h1⟩, fun ⟨d, h1, h2⟩ => ⟨d, h2, h1.symm⟩⟩
  simp only [builtin, List.mem_cons, Prod.mk.injEq, List.not_mem_nil, or_false] at h
  obtain ⟨hr1, hr2, hr3, hr4⟩ := hr
  unfold TypeText
  rcases h with ⟨rfl, rfl⟩ | ⟨rfl, rfl⟩ | ⟨rfl, rfl⟩ | ⟨rfl, rfl⟩ | ⟨rfl, rfl⟩ | ⟨rfl, rfl⟩ | ⟨rfl, rfl⟩ | ⟨rfl, rfl⟩ | ⟨rfl, rfl⟩ |
    ⟨rfl, rfl⟩ | ⟨rfl, rfl⟩ | ⟨rfl, rfl⟩ | ⟨rfl, rfl⟩ | ⟨rfl, rfl⟩ | ⟨rfl, rfl⟩ | ⟨rfl, rfl⟩ | ⟨rfl, rfl⟩ <;>
    simp only [LiteralType.prim, hr1, hr2, hr3, hr4, hb, hd, hf] <;> simp

/-- **C26** (types): an attribute of a schema that names a literal type names a built-in type of XML Schema, and the generated code for
it reads exactly the texts that stand for a value of that type, as that value. All other texts are rejected with `ParseType` and the text. -/
theorem C26_types {σ : Type} (x : Ext) (S : SchemaContext) (o : Ops σ) {a : XAttr} {s s' : PCtx} {t : LiteralType} {r : ValRead}
    (h : getTypeName a s = .ok (.literal t, s')) (hr : contentRead x S (.literal t) = .ok r) :
    ∃ n, (a.value = n ∨ ∃ p, Prefixed a.value p n) ∧ ∀ callF st text, o.text st = .ok text →
      (∀ v, readVal x o callF r st = .ok (v, st) ↔ TypeText x n text v) ∧
      ((∀ v, ¬ TypeText x n text v) → ∃ m, readVal x o callF r st = .err (.parseType m text)) := by
  have lit : ∀ {n}, P.lift (literalOr n a) s = .ok (.literal t, s') → (n, t) ∈ builtin := by
    intro n h
    obtain ⟨h, _⟩ := P.lift_ok.1 h
    unfold literalOr at h
    split at h
    · next hl => cases h; exact (literalFromStr_builtin _ _).1 hl
    · cases h
  have key : ∃ n, (a.value = n ∨ ∃ p, Prefixed a.value p n) ∧ (n, t) ∈ builtin := by
    unfold getTypeName at h
    split at h
    · next hs =>
      have hv := splitn2_prefixed.1 hs
      split at h
      · cases h
      · split at h
        · exact ⟨_, .inr ⟨_, hv⟩, lit h⟩
        · cases h
    · next n hs =>
      have hv : a.value = n := by
        rcases Decidable.em (':' ∈ a.value) with hc | hc
        · exact absurd hs (splitn2_colon hc _)
        · rw [splitn2_unprefixed hc] at hs; cases hs; rfl
      split at h
      · exact ⟨_, .inl hv, lit h⟩
      · cases h
  obtain ⟨n, hv, hn⟩ := key
  refine ⟨n, hv, fun callF st text ht => ?_⟩
  have hr : r = .text t := by
    unfold contentRead at hr
    rw [show inlined S (.literal t) = .ok (.literal t) from by unfold inlined SchemaContext.aliasFuel; rfl] at hr
    cases hr
    rfl
  subst hr
  have hp := parsePrim_types x hn text
  have hread : readVal x o callF (.text t) st = (match parsePrim x t.prim text with
      | some v => .ok (v, st)
      | none => .err (.parseType t.xsdName text)) := by
    simp only [readVal, ht, parseLit]
    show (do let v ← (match parsePrim x t.prim text with | some v => Res.ok v | none => _); Res.ok (v, st)) = _
    cases parsePrim x t.prim text <;> rfl
  rw [hread]
  simp only [← hp]
  cases parsePrim x t.prim text with
  | some v => exact ⟨fun w => ⟨fun h => (by cases h; rfl), fun h => (by cases h; rfl)⟩, fun h => absurd rfl (h v)⟩
  | none => exact ⟨fun w => ⟨fun h => (by cases h), fun h => (by cases h)⟩, fun _ => ⟨_, rfl⟩⟩

/-- A reference to `xs:int`, and a text of a value of it. -/
example : getTypeName ⟨c!"type", none, c!"xs:int", 0⟩ ⟨[], none, .none, [(c!"xs", nsXsd)], false, ⟨[], []⟩, []⟩ =
    .ok (.literal .int32, ⟨[], none, .none, [(c!"xs", nsXsd)], false, ⟨[], []⟩, []⟩) ∧
    TypeText sampleExt c!"int" c!"7" (.int 7) ∧ ∀ v, ¬ TypeText sampleExt c!"boolean" c!"1" v := by
  refine ⟨by decide +kernel, .inr (.inr (.inl ⟨rfl, 7, rfl, ⟨c!"7", 7, .digit 7 (by decide), .inl ⟨rfl, rfl⟩⟩, by decide, by decide⟩)), ?_⟩
  intro v h
  simp [TypeText] at h

end Xsd
