import Verif.Props.SchemaNames
import Verif.Props.NoPanic
import Verif.Props.Grammar
/-!
# Where the namespaces of a parsed schema come from (C32)
-/
namespace Xsd

/-- The namespace is the target namespace of a file that is read, or one of those declared with a prefix at its root. -/
def Mentioned (F : Files) (path : Str) (u : Str) : Prop :=
  ∃ q d, Reads F path q d ∧ (targetOf d = some u ∨ ∃ p, (some p, u) ∈ d.root.1.nss)

/-- All namespaces of the table have a property. -/
def Namespaces.UrisIn (t : Namespaces) (Q : Str → Prop) : Prop := ∀ n d, t.getById n = some d → Q d.uri

theorem Namespaces.UrisIn.getOrInsert {t : Namespaces} {Q : Str → Prop} (h : t.UrisIn Q) {u : Str} (hu : Q u) :
    (t.getOrInsert u).2.UrisIn Q := by
  unfold Namespaces.getOrInsert
  split
  · exact h
  · intro n d hd
    simp only [Namespaces.getById] at hd
    rw [alookup_ainsert] at hd
    split at hd
    · cases hd; exact hu
    · exact h n d hd

theorem getTypeName_declared {a : XAttr} {s s' : PCtx} {c : LeafContent} (h : getTypeName a s = .ok (c, s')) :
    s' = s ∨ ∃ p u, (p, u) ∈ s.docNss ∧ s' = { s with nss := (s.nss.getOrInsert u).2 } := by
  unfold getTypeName at h
  have hl : ∀ n, P.lift (literalOr n a) s = .ok (c, s') → s' = s := fun n hh => (P.lift_ok.1 hh).2
  split at h
  · split at h
    · cases h
    · next u hu =>
      split at h
      · exact .inl (hl _ h)
      · cases h; exact .inr ⟨_, u, alookup_mem hu, rfl⟩
  · split at h
    · exact .inl (hl _ h)
    · cases h; exact .inl rfl

/-- The law for the namespaces in the table. -/
def uriLaw (Q : Str → Prop) : ParseLaw where
  I s := s.nss.UrisIn Q ∧ ∀ p u, (p, u) ∈ s.docNss → Q u
  R s s' := s.SameDoc s'
  Nm _ _ := True
  Ref _ _ _ := True
  refl _ := ⟨rfl, rfl, rfl, rfl⟩
  trans h h' := ⟨h'.1.trans h.1, h'.2.1.trans h.2.1, h'.2.2.1.trans h.2.2.1, h'.2.2.2.trans h.2.2.2⟩
  nm_mono _ _ := trivial
  ref_mono _ _ := trivial

theorem uriLaw_ok (Q : Str → Prop) : (uriLaw Q).Ok := by
  have key : ∀ {a s c s'}, (uriLaw Q).I s → getTypeName a s = .ok (c, s') → (uriLaw Q).I s' ∧ (uriLaw Q).R s s' := by
    rintro a s c s' ⟨h1, h2⟩ h
    rcases getTypeName_declared h with rfl | ⟨p, u, hu, rfl⟩
    · exact ⟨⟨h1, h2⟩, (uriLaw Q).refl _⟩
    · exact ⟨⟨h1.getOrInsert (h2 p u hu), h2⟩, rfl, rfl, rfl, rfl⟩
  refine ⟨key, ?_, fun _ _ => trivial, fun _ _ => trivial, ?_, ?_⟩
  · intro a s n s' p hI h
    exact ⟨(key hI h).1, ⟨rfl, rfl, rfl, rfl⟩, trivial, trivial⟩
  · intro s v p r owner hI _ _
    exact ⟨hI, ⟨rfl, rfl, rfl, rfl⟩, trivial⟩
  · rintro s s' v ⟨_, _, h3, h4⟩
    unfold PCtx.nodeName
    rw [h3, h4]

section
variable {x : Ext} {F : Files} {incl : Str → Namespaces → List (Name × List Name) → Res SErr PSchema} {Q : Str → Prop}

theorem parseItem_uris {base : Str} {child : Nd} {s s' : PCtx} (hI : (uriLaw Q).I s)
    (hincl : ∀ l, (child.name = c!"include" ∨ child.name = c!"import") → child.value c!"schemaLocation" = some l →
      ∀ t deps P, t.UrisIn Q → incl (F.push base l) t deps = .ok P → P.context.namespaces.UrisIn Q)
    (h : parseItem x F incl base child s = .ok s') : (uriLaw Q).I s' := by
  replace h := parseItem_run h
  cases h with
  | «include» location schema hn hl h =>
    have hf := foldl_addRoot_nss schema.context.elements s
    refine ⟨hincl location.value hn (by unfold Nd.value; rw [hl]; rfl) _ _ _ hI.1 h, fun p u hu => hI.2 p u ?_⟩
    rw [← hf.2.2.1]
    exact hu
  | definition nameAttr root s1 hn ha h =>
    exact ((ParseLaw.all x (uriLaw_ok Q) _).root hI trivial h).1

theorem parseItems_uris {base : Str} {cs : List Nd} {s s' : PCtx} (hI : (uriLaw Q).I s)
    (hincl : ∀ child ∈ cs, ∀ l, (child.name = c!"include" ∨ child.name = c!"import") → child.value c!"schemaLocation" = some l →
      ∀ t deps P, t.UrisIn Q → incl (F.push base l) t deps = .ok P → P.context.namespaces.UrisIn Q)
    (h : parseItems x F incl base cs s = .ok s') : (uriLaw Q).I s' := by
  induction cs generalizing s with
  | nil => cases h; exact hI
  | cons c cs ih =>
    obtain ⟨s1, h1, h2⟩ := Res.bind_eq_ok.1 h
    exact ih (parseItem_uris hI (hincl c (.head _)) h1) (fun d hd => hincl d (.tail _ hd)) h2

end

theorem parseFileWith_uris {x : Ext} {F : Files} {Q : Str → Prop} (k : Nat) : ∀ path t deps P, (∀ u, Mentioned F path u → Q u) →
    t.UrisIn Q → parseFileWith x F k path t deps = .ok P → P.context.namespaces.UrisIn Q := by
  induction k with
  | zero => intro path t deps P _ _ h; cases h
  | succ k ih =>
    intro path t deps P hQ ht h
    unfold parseFileWith at h
    split at h
    · cases h
    · cases h
    · next d hd =>
      unfold parseDoc at h
      split at h
      · next P' hh =>
        cases h
        unfold parseSchemaRoot at hh
        split at hh
        · cases hh
        · obtain ⟨s1, h1, h2⟩ := Res.bind_eq_ok.1 hh
          cases h2
          refine (parseItems_uris (Q := Q) ?_ ?_ h1).1
          · constructor
            · unfold PCtx.new
              cases ha : (Nd.of d.root).attr c!"targetNamespace" with
              | none => exact ht
              | some a =>
                refine ht.getOrInsert (hQ _ ⟨path, d, .here hd, .inl ?_⟩)
                unfold targetOf Nd.value
                rw [ha]
                rfl
            · exact fun p u hu => hQ u ⟨path, d, .here hd, .inr ⟨p, (envOf_new d.root.1 (((Nd.of d.root).attr c!"targetNamespace").map XAttr.value) t deps).pfx p u hu⟩⟩
          · intro c hc l hn hl t' deps' P' ht' h'
            refine ih _ t' deps' P' (fun u hu => ?_) ht' h'
            obtain ⟨q, d', hr, hu⟩ := hu
            exact hQ u ⟨q, d', hr.step hd hc hn hl, hu⟩
      all_goals cases h

/-- C32: every namespace in the table of a parsed schema comes from the schema's files: it is the target namespace of a file
that is read, or is declared with a prefix at the root of one. -/
theorem C32_origin (x : Ext) (F : Files) (k : Nat) (path : Str) (P : PSchema) (h : parseFile x F k path = .ok P) :
    ∀ n d, P.context.namespaces.getById n = some d → Mentioned F path d.uri :=
  parseFileWith_uris k path _ _ P (fun _ h => h) (fun n d hd => by cases hd) h


/-- The namespaces of the two sample files are their target namespaces. -/
example : ∃ P, parseFile sampleExt SchemaSample.files 2 c!"main.xsd" = .ok P ∧
    P.context.namespaces.byId.map (fun p => (p.1, p.2.uri)) = [(1, c!"urn:m"), (2, c!"urn:t")] := by
  refine ⟨SchemaSample.parsedSchema, ?_, ?_⟩ <;> decide +kernel

/-- The target and the `elementFormDefault` of a parsed schema are those of the first file. -/
theorem parseFile_head {x : Ext} {F : Files} {k : Nat} {path : Str} {P : PSchema} (h : parseFile x F k path = .ok P) :
    ∃ d, F.read path = some (.doc d) ∧ Stands P.context.namespaces P.context.target (targetOf d) ∧
      (P.context.isQualified = true ↔ attrOf d.root.1 c!"elementFormDefault" = some c!"qualified") := by
  unfold parseFile at h
  cases k with
  | zero => cases h
  | succ k =>
    unfold parseFileWith at h
    split at h
    · cases h
    · cases h
    · next d hd =>
      refine ⟨d, hd, ?_⟩
      unfold parseDoc at h
      split at h
      · next P' hh =>
        cases h
        unfold parseSchemaRoot at hh
        split at hh
        · cases hh
        · obtain ⟨s1, h1, h2⟩ := Res.bind_eq_ok.1 hh
          cases h2
          have ht : Namespaces.empty.Reachable := ⟨[], rfl⟩
          have key : nsLaw.I (PCtx.new (Nd.of d.root).info (((Nd.of d.root).attr c!"targetNamespace").map XAttr.value) Namespaces.empty []) ∧
              Stands (PCtx.new (Nd.of d.root).info (((Nd.of d.root).attr c!"targetNamespace").map XAttr.value) Namespaces.empty []).nss
                (PCtx.new (Nd.of d.root).info (((Nd.of d.root).attr c!"targetNamespace").map XAttr.value) Namespaces.empty []).target
                (targetOf d) := by
            unfold targetOf Nd.value
            cases (Nd.of d.root).attr c!"targetNamespace" with
            | none => exact ⟨⟨ht, trivial, nofun⟩, trivial⟩
            | some u =>
              obtain ⟨n, h1, h2⟩ := Namespaces.empty.getOrInsert_get u.value
              refine ⟨⟨ht.getOrInsert u.value, ht.knows u.value, nofun⟩, ?_⟩
              show Stands (Namespaces.empty.getOrInsert u.value).2 (Namespaces.empty.getOrInsert u.value).1 (some u.value)
              rw [h1]
              exact h2
          obtain ⟨_, h4, h5⟩ := parseItems_names (fun path t deps P => parseFileWith_names k path t deps P) key.1 h1
          refine ⟨?_, ?_⟩
          · show Stands s1.nss s1.target (targetOf d)
            rw [h5.2.2.1]
            exact key.2.mono h4
          · show s1.isQualified = true ↔ _
            rw [h5.2.2.2]
            exact (envOf_new d.root.1 (((Nd.of d.root).attr c!"targetNamespace").map XAttr.value) Namespaces.empty []).qualified
      all_goals cases h

end Xsd
