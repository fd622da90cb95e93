import Verif.Props.Enums
import Verif.Lemmas.Encode
import Verif.Props.TableOrigin
import Verif.Props.Sample
/-!
# C25, C26: `FromStr`, `Display` and `to_xml` of the types generated for simple types; C51: what the schema says of its form
-/
namespace Xsd

section
variable {x : Ext} {S : SchemaContext} {P : List TypeDef}

/-- C26, types of their own: what `Display` of the type generated for a restriction of a builtin type shows for a value, its `FromStr`
reads back as that value; it reads exactly the texts of the builtin type; and for other texts its error has the name of the type and
the text. -/
theorem C26_newtype (G : Generated x S P) (hx : x.NumLaws) {n : Name} {i : Str} {d : LeafDef} {l : LiteralType}
    (hi : typeIdent x n = .ok i) (hn : S.get n = some (.leaf d)) (hd : d.content = .literal l) :
    (∀ v, PrimVal l.prim v → ∃ s, displayAt x P (.named i) (.newtype v) = some s ∧ fromStrAt x P (.named i) s = .ok (.newtype v)) ∧
    (∀ s w, fromStrAt x P (.named i) s = .ok w ↔ ∃ v, parsePrim x l.prim s = some v ∧ w = .newtype v) ∧
    ∀ s, parsePrim x l.prim s = none → fromStrAt x P (.named i) s = .err (.parseType i s) := by
  obtain ⟨r, t, hr, hf, _, hg⟩ := G.find' hi (by rw [hn]; rfl)
  rw [hn] at hr; cases hr
  have ht := hg.decl
  simp only [rootDecl, Res.bind_eq_ok] at ht
  obtain ⟨ty, _, ht⟩ := ht
  rw [hd] at ht
  have ht : t.decl = .newtype ty (some l) := (Res.ok.inj ht).symm
  have hs : ∀ s, fromStrAt x P (.named i) s = match parsePrim x l.prim s with
      | some v => .ok (.newtype v) | none => .err (.parseType i s) := by
    intro s
    simp only [fromStrAt, hf, ht]
    rfl
  refine ⟨fun v hv => ?_, fun s w => ?_, fun s h => ?_⟩
  · obtain ⟨s, h1, h2⟩ := C26_literal_roundtrip x hx _ v hv
    refine ⟨s, ?_, ?_⟩
    · simp only [displayAt, hf, ht, h1]
    · rw [hs, h2]
  · rw [hs]
    cases parsePrim x l.prim s with
    | none => exact ⟨fun h => (nomatch h), fun ⟨_, h, _⟩ => (nomatch h)⟩
    | some v => exact ⟨fun h => ⟨v, rfl, (Res.ok.inj h).symm⟩, fun ⟨_, h, h'⟩ => by cases h; rw [h']⟩
  · rw [hs, h]

/-- C25, generated enumerations: what `Display` shows for a variant is the value that `FromStr` reads as that variant, and nothing else is
read as it; each value is read as some variant; other texts are rejected with `InvalidVariant`; and `to_xml` writes a variant
as an element with the value as its text. Missing: repeated values, see `C25_duplicates_false`. -/
theorem C25_text_partial (G : Generated x S P) {n : Name} {i : Str} {ns : List Name}
    (hi : typeIdent x n = .ok i) (hn : S.get n = some (.enum ns)) (hd : (ns.map Name.name).Nodup) :
    (∀ v s, displayAt x P (.named i) (.enumv v) = some s ↔ fromStrAt x P (.named i) s = .ok (.enumv v)) ∧
    (∀ s, s ∈ ns.map Name.name → ∃ v, fromStrAt x P (.named i) s = .ok (.enumv v)) ∧
    (∀ s, s ∉ ns.map Name.name → fromStrAt x P (.named i) s = .err (.invalidVariant s)) ∧
    ∀ v s, displayAt x P (.named i) (.enumv v) = some s → ∃ q nss, S.xmlName n = .ok q ∧ ∀ k, toXml x P (k + 1) i (.enumv v) =
      .ok (.start q [] nss :: (if s = [] then [] else [.chars s]) ++ [.fin]) := by
  obtain ⟨r, t, hr, hf, _, hg⟩ := G.find' hi (by rw [hn]; rfl)
  rw [hn] at hr; cases hr
  obtain ⟨tab, htab, ht, _⟩ := rootDecl_enum hg.decl
  obtain ⟨h1, h2, h3, h4⟩ := C25_inverse_partial (x := x) ns hd htab (.refl tab)
  have hs : ∀ s, fromStrAt x P (.named i) s = enumFromStr tab s := by
    intro s
    simp only [fromStrAt, hf, ht]
  have hv : ∀ v, displayAt x P (.named i) (.enumv v) = asStr tab v := by
    intro v
    simp only [displayAt, hf, ht, asStr]
  refine ⟨fun v s => ?_, fun s h => ?_, fun s h => ?_, fun v s h => ?_⟩
  · rw [hv, hs]
    refine ⟨h1 v s, fun h => ?_⟩
    obtain ⟨j, hj, hj'⟩ := h2 _ _ h
    cases hj
    exact hj'
  · obtain ⟨v, h⟩ := (h3 s).1 h
    exact ⟨v, by rw [hs]; exact h1 v s h⟩
  · rw [hs]
    exact h4 s h
  · rw [hv] at h
    have hw : t.toXml = .enumText := (Res.ok.inj hg.write).symm
    refine ⟨t.xmlName, t.nss.foldl (fun m b => nsPut m b.1 b.2) [], hg.xmlName, fun k => ?_⟩
    unfold asStr at h
    simp only [toXml, hf, toXmlWriter, runTo, hw, ht, h, setNss_eq]
    rfl

/-- C51, the form: the schema that is returned has the target namespace of the file, and its elements are taken to be qualified iff
`elementFormDefault` of the file says so. -/
theorem C51_form (x : Ext) (F : Files) (k : Nat) (path : Str) (P : PSchema) (h : parseFile x F k path = .ok P) :
    ∃ d, F.read path = some (.doc d) ∧ Stands P.context.namespaces P.context.target (targetOf d) ∧
      (P.context.isQualified = true ↔ attrOf d.root.1 c!"elementFormDefault" = some c!"qualified") := parseFile_head h

end

/-- A restriction of integers and an enumeration. -/
def simpleSch : SchemaContext where
  elements := [(Sample.nm c!"Count", .leaf ⟨.literal .int32, [], none⟩), (Sample.nm c!"Lang", .enum [Sample.nm c!"en", Sample.nm c!"de-AT"])]
  target := .id 1
  isQualified := true
  namespaces := Sample.nss

theorem simple_generated : Generated sampleExt simpleSch (moduleOf sampleExt simpleSch) := generatesB_sound (by decide +kernel)

example : fromStrAt sampleExt (moduleOf sampleExt simpleSch) (.named c!"Count") c!"x" = .err (.parseType c!"Count" c!"x") :=
  (C26_newtype simple_generated ⟨parseNat_showNat, parseNat_showNat⟩ (n := Sample.nm c!"Count") (by decide +kernel) rfl rfl).2.2 _ (by decide +kernel)

example : ∃ v, fromStrAt sampleExt (moduleOf sampleExt simpleSch) (.named c!"Lang") c!"de-AT" = .ok (.enumv v) :=
  (C25_text_partial simple_generated (n := Sample.nm c!"Lang") (by decide +kernel) rfl (by decide)).2.1 _ (by decide)

end Xsd
