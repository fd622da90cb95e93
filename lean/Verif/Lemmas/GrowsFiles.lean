import Verif.Lemmas.Grows
/-!
# The groups of parsed schemas
-/
namespace Xsd.Tree

theorem TreeFiles.refs {F : Files} {path : Str} (B : TreeFiles F path) : NoForeignRefs F path := by
  intro p d hr c hc a ha hn
  cases B.nodes p d hr c hc with
  | mk h _ => exact h.occurs a ha (.inr (.inr hn))

/-- The file is parsed to types whose groups are groups. -/
def FileGrows (F : Files) (G : Name → Option Root) (path : Str) (P : PSchema) : Prop :=
  ∃ N, ∀ f, N ≤ f → ∃ log, P.context.elements = applyAll log [] ∧ log.length ≤ typesOf F f path ∧
    (log.length = typesOf F f path → (∀ p ∈ log, G p.1 = some p.2) → ∀ p ∈ log, RootGroups G p.2)

section
variable {x : Ext} {F : Files} {root : Str} {G : Name → Option Root}
  {incl : Str → Namespaces → List (Name × List Name) → Res SErr PSchema}
  (hgrows : ∀ path t' deps P, incl path t' deps = .ok P → (∀ p d, Reads F path p d → Reads F root p d) → FileGrows F G path P)
include hgrows

theorem parseItems_grow {path : Str} {cs : List Nd} {s s' : PCtx}
    (hk : ∀ c ∈ cs, c.seen = [] ∧ ∀ a ∈ c.info.attrs, a.loc = c!"ref" → a.ns = none)
    (hr : ∀ c ∈ cs, (c.name = c!"include" ∨ c.name = c!"import") → ∀ l, c.value c!"schemaLocation" = some l →
      ∀ p d, Reads F (F.push (F.parent path) l) p d → Reads F root p d)
    (h : parseItems x F incl (F.parent path) cs s = .ok s') :
    ∃ N, ∀ f, N ≤ f → Grows G s s' (cs.map (itemTypes F path f)).sum True := by
  induction cs generalizing s with
  | nil =>
    cases h
    exact ⟨0, fun f _ => .nil rfl trivial⟩
  | cons c cs ih =>
    obtain ⟨s1, h1, h2⟩ := Res.bind_eq_ok.1 h
    replace h1 := parseItem_run h1
    obtain ⟨N2, hN2⟩ := ih (fun c hc => hk c (.tail _ hc)) (fun c hc => hr c (.tail _ hc)) h2
    suffices hs : ∃ N, ∀ f, N ≤ f → Grows G s s1 (itemTypes F path f c) True by
      obtain ⟨N1, hN1⟩ := hs
      exact ⟨max N1 N2, fun f hf => ((hN1 f (by omega)).trans (hN2 f (by omega))).imp fun _ => trivial⟩
    cases h1 with
    | «include» location schema hn hl h =>
      obtain ⟨N, hN⟩ := hgrows _ _ _ _ h (hr c (.head _) hn _ (value_some hl))
      refine ⟨N, fun f hf => ?_⟩
      obtain ⟨log, h3, h4, h5⟩ := hN f hf
      obtain ⟨h6, h7⟩ := applyAll_length log []
      rw [← h3] at h6 h7
      simp only [List.length_nil, Nat.zero_add] at h6 h7
      unfold itemTypes
      rw [if_pos hn, value_some hl]
      refine ⟨schema.context.elements, foldl_addRoot_roots _ s, by show _ ≤ typesOf _ _ _; omega, fun ha hb => ⟨trivial, fun p hp => ?_⟩⟩
      have ha : schema.context.elements.length = typesOf F f (F.push (F.parent path) location.value) := ha
      refine h5 (by omega) (fun p hp => hb p (h7 (by omega) p (.inr hp))) p ?_
      rw [h3] at hp
      exact (mem_applyAll _ _ _ hp).elim nofun id
    | definition nameAttr r s2 hn ha h =>
      refine ⟨c.fuel + 3, fun f hf => ?_⟩
      have hA := (growAll x G c.fuel).root (nd := c.see c!"name") (f := f) hf (.inr ⟨by
        show c!"ref" ∉ c!"name" :: c.seen
        rw [(hk c (.head _)).1]
        decide, (hk c (.head _)).2⟩) h
      have hA' := hA.add (r := r) (n := ⟨nameAttr.value, s.target⟩) id
      rw [show typesBelow f (c.see c!"name") = typesBelow f c from below_see (ns := [c!"name"])] at hA'
      unfold itemTypes
      rw [if_neg hn, Nat.add_comm]
      exact Grows.imp (s' := s2.addRoot _ _) hA' fun _ => trivial

theorem parseDoc_grows (B : NoForeignRefs F root) {path : Str} {d : XDoc} {t' : Namespaces} {deps : List (Name × List Name)} {P : PSchema}
    (hf : F.read path = some (.doc d)) (hr : ∀ p d, Reads F path p d → Reads F root p d)
    (h : parseDoc x F incl path d t' deps = .ok P) : FileGrows F G path P := by
  have hrd := hr _ _ (.here hf)
  obtain ⟨s, s', hs, h1, rfl⟩ : ∃ s s', s = PCtx.new d.root.1 (((Nd.of d.root).attr c!"targetNamespace").map XAttr.value) t' deps ∧
      parseItems x F incl (F.parent path) (Nd.of d.root).xsdKids s = .ok s' ∧ P = s'.intoSchema := by
    unfold parseDoc at h
    split at h
    · next P' hh =>
      cases h
      unfold parseSchemaRoot at hh
      split at hh
      · cases hh
      · obtain ⟨s1, h1, h2⟩ := Res.bind_eq_ok.1 hh
        cases h2
        exact ⟨_, _, rfl, h1, rfl⟩
    all_goals cases h
  obtain ⟨N, hN⟩ := parseItems_grow (G := G) hgrows (path := path) (fun c hc => ⟨kid_seen hc, B _ _ hrd c hc⟩)
    (fun c hc hn l hl p d' hp => hr _ _ (Reads.step hf hc hn hl hp)) h1
  refine ⟨N + 1, fun f hf' => ?_⟩
  obtain ⟨g, rfl⟩ : ∃ g, f = g + 1 := ⟨f - 1, by omega⟩
  obtain ⟨log, h2, h3, h4⟩ := hN g (by omega)
  have hc : typesOf F (g + 1) path = ((Nd.of d.root).xsdKids.map (itemTypes F path g)).sum := by
    show (match F.read path with | some (.doc d) => _ | _ => 0) = _
    rw [hf]
    rfl
  rw [hc]
  refine ⟨log, ?_, h3, fun ha hb => (h4 ha hb).2⟩
  show s'.roots = _
  rw [h2, hs]
  rfl

end

theorem parseFileWith_grows {x : Ext} {F : Files} {root : Str} {G : Name → Option Root} (B : NoForeignRefs F root) (k : Nat) :
    ∀ path t' deps P, parseFileWith x F k path t' deps = .ok P → (∀ p d, Reads F path p d → Reads F root p d) → FileGrows F G path P := by
  induction k with
  | zero => intro path t deps P h; cases h
  | succ k ih =>
    intro path t' deps P h hr
    unfold parseFileWith at h
    split at h
    · cases h
    · cases h
    · next d hf => exact parseDoc_grows ih B hf hr h

/-- In a schema with as many types as its files have nodes that become types, groups are groups. -/
theorem parsed_groups {x : Ext} {F : Files} {path : Str} {k : Nat} {P : PSchema} (B : NoForeignRefs F path) (h : parseFile x F k path = .ok P)
    (hc : TypeCount F path P.context.elements.length) :
    ∀ n r, P.context.get n = some r → RootGroups P.context.get r := by
  obtain ⟨N, hN⟩ := parseFileWith_grows (G := P.context.get) B k path _ _ P h (fun _ _ h => h)
  obtain ⟨k0, hk0⟩ := hc
  obtain ⟨log, h1, h2, h3⟩ := hN (max N k0) (by omega)
  rw [hk0 _ (by omega)] at h2 h3
  obtain ⟨h4, h5⟩ := applyAll_length log []
  rw [← h1] at h4 h5
  simp only [List.length_nil, Nat.zero_add] at h4 h5
  have hnd := (parseFileWith_log k path _ _ P ⟨[], rfl⟩ h).1
  have h6 := h3 (by omega) (fun p hp => alookup_of_mem hnd (h5 (by omega) p (.inr hp)))
  intro n r hr
  have hm := alookup_mem hr
  rw [h1] at hm
  exact h6 _ ((mem_applyAll _ _ _ hm).elim nofun id)

end Xsd.Tree
