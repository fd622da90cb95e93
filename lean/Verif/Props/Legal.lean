import Verif.Lemmas.Quiet
import Verif.Props.NoPanic
import Verif.Props.Terminates
/-!
# C61: the parser accepts the supported schemas, and no others
-/
namespace Xsd

/-! ## The declarations of a document -/

/-- Two environments with the same declarations. -/
def SameDecls (e e' : Env) : Prop := e.defaultNs = e'.defaultNs ∧ ∀ p u, (p, u) ∈ e.docNss ↔ (p, u) ∈ e'.docNss

section
variable {x : Ext} {e e' : Env}

theorem denotes_same (h : SameDecls e e') (v n : Str) (u : Option Str) :
    Denotes e.defaultNs e.docNss v n u = Denotes e'.defaultNs e'.docNss v n u := by
  unfold Denotes
  rw [h.1]
  simp only [h.2]

theorem builtin_same (h : SameDecls e e') : Builtin e = Builtin e' := by
  funext v
  unfold Builtin
  simp only [denotes_same h]

theorem ownType_same (h : SameDecls e e') : OwnType e = OwnType e' := by
  funext v
  unfold OwnType
  simp only [denotes_same h]

theorem resolves_same (h : SameDecls e e') : Resolves e = Resolves e' := by
  funext v
  unfold Resolves
  rw [builtin_same h, ownType_same h]

theorem builtinType_same (h : SameDecls e e') : BuiltinType e = BuiltinType e' := by
  funext nd
  unfold BuiltinType
  simp only [denotes_same h]

theorem attrsOK_same (h : SameDecls e e') : AttrsOK e = AttrsOK e' := by
  have : Allowed e = Allowed e' := by
    funext k nd n
    cases k <;> simp only [Allowed, builtinType_same h]
  funext k nd
  unfold AttrsOK
  rw [this]

theorem docsOK_same (h : SameDecls e e') : DocsOK e = DocsOK e' := by
  funext nd
  unfold DocsOK AnnotationOK
  rw [attrsOK_same h]

theorem filled_same (h : SameDecls e e') : Filled x e = Filled x e' := by
  funext k nd
  cases k <;> simp only [Filled, builtin_same h, ownType_same h, resolves_same h, docsOK_same h]

theorem legal_same (h : SameDecls e e') : Legal x e = Legal x e' := by
  funext k nd
  unfold Legal
  rw [attrsOK_same h, filled_same h]

end

theorem docEnv_same {root : ElemInfo} (h : (root.nss.map Prod.fst).Nodup) (target : Option Str) (t : Namespaces) (deps : List (Name × List Name)) :
    SameDecls (docEnv root) (PCtx.new root target t deps).env := by
  refine ⟨rfl, fun p u => ?_⟩
  refine Iff.trans ?_ ((C33_declared root target t deps h).2.1 p u).symm
  unfold docEnv
  dsimp only
  rw [List.mem_filterMap]
  constructor
  · rintro ⟨⟨o, w⟩, hm, hw⟩
    cases o with
    | none => cases hw
    | some q => cases hw; exact hm
  · intro hm
    exact ⟨_, hm, rfl⟩

/-! ## Files -/

theorem res_bind_err {ε α β : Type} {m : Res ε α} {f : α → Res ε β} {er : ε} (h : (m >>= f) = .err er) :
    m = .err er ∨ ∃ a, m = .ok a ∧ f a = .err er := by
  cases m with
  | ok a => exact .inr ⟨a, rfl, h⟩
  | err e => cases h; exact .inl rfl
  | panic => cases h
  | diverge => cases h

theorem legal_liftS_err {α : Type} {r : Res SErr α} {er : PErr} (h : liftS r = .err er) : ∃ e, r = .err e := by
  cases r with
  | err e => exact ⟨e, rfl⟩
  | _ => cases h

theorem legal_liftX_err {α : Type} {r : Res XErr α} {er : PErr} (h : liftX r = .err er) : ∃ e, r = .err e := by
  cases r with
  | err e => exact ⟨e, rfl⟩
  | _ => cases h

section
variable {x : Ext} {F : Files}

/-- What is parsed is supported. -/
theorem parsed_legalFile {k : Nat} : ∀ {path : Str} {t : Namespaces} {deps : List (Name × List Name)} {P : PSchema}, t.Reachable →
    (∀ q d, Reads F path q d → (d.root.1.nss.map Prod.fst).Nodup) → parseFileWith x F k path t deps = .ok P → LegalFile x F path := by
  induction k with
  | zero => intro path t deps P _ _ h; cases h
  | succ k ih =>
    intro path t deps P ht hN h
    unfold parseFileWith at h
    split at h
    · cases h
    · cases h
    · next d hd =>
      obtain ⟨s, hs, hroot, _, _, hitems⟩ := parseDoc_items (parseFileWith_names k) ht h
      have hsame := docEnv_same (hN _ _ (.here hd)) (((Nd.of d.root).attr c!"targetNamespace").map XAttr.value) t deps
      rw [← hs] at hsame
      refine .mk hd hroot ?_ ?_ ?_
      · intro c hc hn
        obtain ⟨s1, s2, _, hrun, _⟩ := hitems c hc
        cases hrun with
        | «include» location schema hn' hl' h2 => rw [value_some hl']; nofun
        | definition nameAttr root s1 hn' ha h => exact absurd hn hn'
      · intro c l hc hn hl
        obtain ⟨s1, s2, _, hrun, hI, _⟩ := hitems c hc
        cases hrun with
        | «include» location schema hn' hl' h2 =>
          cases Option.some.inj ((value_some hl').symm.trans hl)
          exact ih hI.1 (fun q d' hr => hN q d' (.step hd hc hn hl hr)) h2
        | definition nameAttr root s1 hn' ha h => exact absurd hn hn'
      · intro c hc hn
        obtain ⟨s1, s2, he, hrun, _⟩ := hitems c hc
        cases hrun with
        | «include» location schema hn' hl' h2 => exact absurd hn' hn
        | definition nameAttr root s1 hn' ha h =>
          refine ⟨by rw [value_some ha]; nofun, ?_⟩
          rw [legal_same hsame]
          unfold Nd.fuel at h
          replace h := parseRoot_run x h
          cases h with
          | element hn h =>
            exact ⟨.topElement, by rw [show c.name = _ from hn]; rfl, parsed_legal ⟨kid_fresh hc, _, _, _, _, _, he, h⟩⟩
          | complexType hn h =>
            exact ⟨.complexType true, by rw [show c.name = _ from hn]; rfl, parsed_legal ⟨kid_fresh hc, _, _, _, _, _, he, h⟩⟩
          | simpleType hn h =>
            exact ⟨.simpleType true, by rw [show c.name = _ from hn]; rfl, parsed_legal ⟨kid_fresh hc, _, _, _, he, h⟩⟩

theorem parseItems_quiet {incl : Str → Namespaces → List (Name × List Name) → Res SErr PSchema} {base : Str} {e : Env}
    (hN : (e.docNss.map Prod.fst).Nodup) {cs : List Nd}
    (hi : ∀ c ∈ cs, c.name = c!"include" ∨ c.name = c!"import" → c.value c!"schemaLocation" ≠ none)
    (hf : ∀ c l, c ∈ cs → c.name = c!"include" ∨ c.name = c!"import" → c.value c!"schemaLocation" = some l →
      ∀ t deps er, incl (F.push base l) t deps ≠ .err er)
    (hd : ∀ c ∈ cs, ¬ (c.name = c!"include" ∨ c.name = c!"import") → c.seen = [] ∧
      c.value c!"name" ≠ none ∧ ∃ k, topKind c.name = some k ∧ Legal x e k c) :
    ∀ {s : PCtx}, s.env = e → ∀ er, parseItems x F incl base cs s ≠ .err er := by
  induction cs with
  | nil => intro s _ er h; cases h
  | cons c cs ih =>
    intro s hs er h
    have hitem : ∀ er, parseItem x F incl base c s ≠ .err er := by
      intro er h
      unfold parseItem at h
      split at h
      · next hn =>
        obtain ⟨a, ha⟩ : ∃ na, c.attr c!"schemaLocation" = some na :=
          Option.ne_none_iff_exists'.1 (fun h0 => hi c (.head _) hn (value_none.2 h0))
        rcases res_bind_err h with h | ⟨l, h1, h⟩
        · rw [tryAttr_ok.2 ha] at h; cases h
        · rw [tryAttr_ok.2 ha] at h1
          cases h1
          rcases res_bind_err h with h | ⟨P, h2, h⟩
          · obtain ⟨er', h⟩ := legal_liftS_err h
            exact hf c a.value (.head _) hn (value_some ha) s.nss s.deps er' h
          · cases h
      · next hn =>
        obtain ⟨g0, g1, kind, g2, g3⟩ := hd c (.head _) hn
        obtain ⟨a, ha⟩ : ∃ na, c.attr c!"name" = some na := Option.ne_none_iff_exists'.1 (fun h0 => g1 (value_none.2 h0))
        rcases res_bind_err h with h | ⟨l, h1, h⟩
        · rw [tryAttr_ok.2 ha] at h; cases h
        · rw [tryAttr_ok.2 ha] at h1
          cases h1
          rcases res_bind_err h with h | ⟨r, h2, h⟩
          · obtain ⟨er', h⟩ := legal_liftX_err h
            exact (definition_quiet hN g2 g0 g3 c.fuel ⟨a.value, s.target⟩ s hs).1 er' h
          · cases h
    unfold parseItems at h
    cases hr : parseItem x F incl base c s with
    | ok s1 =>
      rw [hr] at h
      exact ih (fun d hd' => hi d (.tail _ hd')) (fun d l hd' => hf d l (.tail _ hd')) (fun d hd' => hd d (.tail _ hd'))
        ((itemRun_env (parseItem_run hr)).trans hs) er h
    | err er => exact hitem er hr
    | panic => rw [hr] at h; cases h
    | diverge => rw [hr] at h; cases h

/-- No error is reported for a supported file. -/
theorem legalFile_quiet {path : Str} (h : LegalFile x F path) : (∀ q d, Reads F path q d → (d.root.1.nss.map Prod.fst).Nodup) →
    ∀ k t deps er, parseFileWith x F k path t deps ≠ .err er := by
  induction h with
  | @mk path d hr hn hi hf hd ih =>
    intro hN k t deps er h
    cases k with
    | zero => cases h
    | succ k =>
      unfold parseFileWith at h
      rw [hr] at h
      dsimp only at h
      unfold parseDoc at h
      have hN' := hN _ _ (.here hr)
      have hsame := docEnv_same hN' (((Nd.of d.root).attr c!"targetNamespace").map XAttr.value) t deps
      have key : ∀ er, parseSchemaRoot x F (parseFileWith x F k) (F.parent path) (Nd.of d.root) t deps ≠ .err er := by
        intro er h
        unfold parseSchemaRoot at h
        have hroot : ¬ ((Nd.of d.root).info.name.ns ≠ some nsXsd ∨ (Nd.of d.root).name ≠ c!"schema") := by
          show ¬ (d.root.1.name.ns ≠ _ ∨ d.root.1.name.loc ≠ _)
          rw [hn]
          simp
        rw [if_neg hroot] at h
        have hq := parseItems_quiet (x := x) (F := F) (incl := parseFileWith x F k) (base := F.parent path)
          (C33_declared d.root.1 (((Nd.of d.root).attr c!"targetNamespace").map XAttr.value) t deps hN').1 hi
          (fun c l hc hn hl t deps er => ih c l hc hn hl (fun q d' h' => hN q d' (.step hr hc hn hl h')) k t deps er)
          (fun c hc hn => ⟨kid_fresh hc, (hd c hc hn).1, by
            obtain ⟨kind, g1, g2⟩ := (hd c hc hn).2
            exact ⟨kind, g1, by rw [← legal_same hsame]; exact g2⟩⟩) rfl
        rcases res_bind_err h with h | ⟨s, _, h⟩
        · exact hq er h
        · cases h
      split at h
      · cases h
      · next er' hk => exact key er' hk
      · cases h
      · cases h

/-- Some fuel is enough for every file of a list. -/
theorem fuel_for_all {α : Type} (p : α → Nat → Prop) (mono : ∀ a k k', k ≤ k' → p a k → p a k') :
    ∀ (l : List α), (∀ a ∈ l, ∃ k, p a k) → ∃ k, ∀ a ∈ l, p a k
  | [], _ => ⟨0, nofun⟩
  | a :: l, h => by
    obtain ⟨k1, h1⟩ := h a (.head _)
    obtain ⟨k2, h2⟩ := fuel_for_all p mono l fun b hb => h b (.tail _ hb)
    refine ⟨max k1 k2, fun b hb => ?_⟩
    rcases List.mem_cons.1 hb with rfl | hb
    · exact mono _ _ _ (Nat.le_max_left _ _) h1
    · exact mono _ _ _ (Nat.le_max_right _ _) (h2 b hb)

/-- A supported file is parsed with some fuel. -/
theorem legalFile_tot {path : Str} (h : LegalFile x F path) : ∃ k, ∀ t deps, (parseFileWith x F k path t deps).Tot := by
  induction h with
  | @mk path d hr hn hi hf hd ih =>
    obtain ⟨k, hk⟩ := fuel_for_all (fun (c : Nd) k => ∀ l, c.name = c!"include" ∨ c.name = c!"import" → c.value c!"schemaLocation" = some l →
        ∀ t deps, (parseFileWith x F k (F.push (F.parent path) l) t deps).Tot)
      (fun c k k' hle h l hn hl t deps => by
        have := h l hn hl t deps
        rw [Res.Tot, parseFileWith_le hle this]
        exact this) (Nd.of d.root).xsdKids (by
        intro c hc
        cases hl : c.value c!"schemaLocation" with
        | none => exact ⟨0, fun l _ hl' => by cases hl'⟩
        | some l =>
          by_cases hn : c.name = c!"include" ∨ c.name = c!"import"
          · obtain ⟨k, hk⟩ := ih c l hc hn hl
            exact ⟨k, fun l' _ hl' => by cases hl'; exact hk⟩
          · exact ⟨0, fun _ hn' => absurd hn' hn⟩)
    refine ⟨k + 1, fun t deps => parseFileWith_step ?_⟩
    rintro q t deps ⟨d', c, l, hd', hc, hn, hl, rfl⟩
    cases FileContent.doc.inj (Option.some.inj (hr.symm.trans hd'))
    exact hk c hc l hn hl t deps

end

/-- **C61**, one half: a schema that is parsed is supported: all nodes that are interpreted have only attributes and children with
a meaning, and everything that is required is there once and well-formed. (The documents declare no prefix twice, as XML
demands.) -/
theorem C61_only_supported (x : Ext) (F : Files) (k : Nat) (path : Str) (P : PSchema)
    (hN : ∀ q d, Reads F path q d → (d.root.1.nss.map Prod.fst).Nodup) (h : parseFile x F k path = .ok P) : LegalFile x F path :=
  parsed_legalFile ⟨[], rfl⟩ hN h

/-- **C61**, the other half: no error is reported for a supported schema, and parsing it ends. -/
theorem C61_no_error (x : Ext) (F : Files) (path : Str) (hN : ∀ q d, Reads F path q d → (d.root.1.nss.map Prod.fst).Nodup)
    (h : LegalFile x F path) : (∀ k er, parseFile x F k path ≠ .err er) ∧ ∃ k, parseFile x F k path ≠ .diverge := by
  obtain ⟨k, hk⟩ := legalFile_tot h
  exact ⟨fun k er => legalFile_quiet h hN k _ _ er, k, hk _ _⟩

/-- **C61**: a schema with names in ASCII is parsed if and only if it is supported. -/
theorem C61_accepts_partial (x : Ext) (hx : x.SnakeAscii) (F : Files) (path : Str)
    (hN : ∀ q d, Reads F path q d → (d.root.1.nss.map Prod.fst).Nodup) (hA : ∀ q d, Reads F path q d → AsciiNames d.root) :
    (∃ k P, parseFile x F k path = .ok P) ↔ LegalFile x F path := by
  constructor
  · rintro ⟨k, P, h⟩
    exact C61_only_supported x F k path P hN h
  · intro h
    obtain ⟨h1, k, h2⟩ := C61_no_error x F path hN h
    cases hr : parseFile x F k path with
    | ok P => exact ⟨k, P, hr⟩
    | err er => exact absurd hr (h1 k er)
    | panic => exact absurd hr (C44_parse_partial x hx F k path hA)
    | diverge => exact absurd hr h2

end Xsd
