import Verif.Lemmas.TreeAll
import Verif.Props.NoPanic
/-!
# Parsing files adds the types of their nodes

If a schema has as many types as its files have nodes that become types, no type has overwritten another one, and so all the types
are there.
-/
namespace Xsd.Tree
open Xsd.Flat (Typ RefersTo TypeAttr LocalNs SimpleType Lexical attributeNodes Names TypIs DocOK)

/-! ## The attributes that were looked at do not matter -/

section
variable {F : Files} {path : Str} {t : Namespaces} {G : Name → Option Root} {d : XDoc} {nd : Nd} {n : Str}

theorem typeAttr_see {ty : Typ} : TypeAttr d (nd.see n) ty ↔ TypeAttr d nd ty := by
  constructor
  · rintro (⟨a, b, c⟩ | ⟨a, b, c⟩ | ⟨a, b, c⟩)
    · exact .builtin a b c
    · exact .fixed a b c
    · exact .own a b c
  · rintro (⟨a, b, c⟩ | ⟨a, b, c⟩ | ⟨a, b, c⟩)
    · exact .builtin a b c
    · exact .fixed a b c
    · exact .own a b c

theorem simpleType_see {D : Flat.Def} : SimpleType d (nd.see n) D ↔ SimpleType d nd D := by
  constructor
  · rintro (⟨a, b, c, e, f⟩ | ⟨a, b, c, e⟩)
    · exact .text a b c e f
    · exact .enumeration a b c e
  · rintro (⟨a, b, c, e, f⟩ | ⟨a, b, c, e⟩)
    · exact .text a b c e f
    · exact .enumeration a b c e

theorem contentFor_see {c : Option ElementContent} {as : List Nd} (h : ContentFor F path t G d (nd.see n) c as) :
    ContentFor F path t G d nd c as := by
  cases h with
  | empty a => exact .empty a
  | once a b c e f g h => exact .once a b c e f g h
  | all a b c e f g h i j => exact .all a b c e f g h i j
  | group a b c e => exact .group a b c e
  | choice a b c e f g h => exact .choice a b c e f g h
  | simpleContent a b c e f g h i j => exact .simpleContent a b c e f g h i j
  | complexContent a b c e f g h i j k => exact .complexContent a b c e f g h i j k
  | extension a b c e f g h i j k l m o p q => exact .extension a b c e f g h i j k l m o p q

theorem rootFor_see {r : Root} (h : RootFor F path t G d (nd.see n) r) : RootFor F path t G d nd r := by
  cases h with
  | typed a b c e => exact .typed a (typeAttr_see.1 b) (fun ty h => c ty (typeAttr_see.2 h)) e
  | inline a b c e f g => exact .inline a b c e f g
  | text a b c => exact .text a (simpleType_see.1 b) (fun D h => c D (simpleType_see.2 h))
  | enumeration a b c => exact .enumeration a (simpleType_see.1 b) (fun D h => c D (simpleType_see.2 h))
  | complex a b c => exact .complex a (contentFor_see b) c

end

/-! ## Overwriting -/

theorem ainsert_length (m : List (Name × Root)) (n : Name) (r : Root) :
    (ainsert m n r).length ≤ m.length + 1 ∧ ((ainsert m n r).length = m.length + 1 → (n, r) ∈ ainsert m n r ∧ ∀ p ∈ m, p ∈ ainsert m n r) := by
  induction m with
  | nil => exact ⟨Nat.le_refl _, fun _ => ⟨.head _, nofun⟩⟩
  | cons q m ih =>
    unfold ainsert
    split
    · refine ⟨by simp, fun h => ?_⟩
      simp at h
    · refine ⟨by simpa using ih.1, fun h => ?_⟩
      obtain ⟨h1, h2⟩ := ih.2 (by simpa using h)
      refine ⟨.tail _ h1, fun p hp => ?_⟩
      rcases List.mem_cons.1 hp with rfl | hp
      · exact .head _
      · exact .tail _ (h2 p hp)

theorem applyAll_length (log m : List (Name × Root)) :
    (applyAll log m).length ≤ m.length + log.length ∧
      ((applyAll log m).length = m.length + log.length → ∀ p, p ∈ m ∨ p ∈ log → p ∈ applyAll log m) := by
  induction log generalizing m with
  | nil => exact ⟨Nat.le_refl _, fun _ p hp => hp.elim id nofun⟩
  | cons q log ih =>
    obtain ⟨h1, h2⟩ := ih (ainsert m q.1 q.2)
    obtain ⟨h3, h4⟩ := ainsert_length m q.1 q.2
    have he : applyAll (q :: log) m = applyAll log (ainsert m q.1 q.2) := rfl
    rw [he, List.length_cons]
    refine ⟨by omega, fun h p hp => ?_⟩
    obtain ⟨h5, h6⟩ := h4 (by omega)
    refine h2 (by omega) p ?_
    rcases hp with hp | hp
    · exact .inl (h6 p hp)
    · rcases List.mem_cons.1 hp with rfl | hp
      · exact .inl h5
      · exact .inr hp

theorem mem_applyAll (log m : List (Name × Root)) (p : Name × Root) (h : p ∈ applyAll log m) : p ∈ m ∨ p ∈ log := by
  induction log generalizing m with
  | nil => exact .inl h
  | cons q log ih =>
    rcases ih _ h with h | h
    · rcases mem_ainsert h with h | h
      · exact .inr (h ▸ .head _)
      · exact .inl h
    · exact .inr (.tail _ h)

/-! ## Files -/

theorem reads_first {F : Files} {path q : Str} {d : XDoc} (h : Reads F path q d) : (q = path ∧ F.read path = some (.doc d)) ∨
    ∃ d0 c l, F.read path = some (.doc d0) ∧ c ∈ (Nd.of d0.root).xsdKids ∧ (c.name = c!"include" ∨ c.name = c!"import") ∧
      c.value c!"schemaLocation" = some l ∧ Reads F (F.push (F.parent path) l) q d := by
  induction h with
  | here h => exact .inl ⟨rfl, h⟩
  | there h hc hn hl h' ih =>
    rcases ih with ⟨rfl, h0⟩ | ⟨d0, c0, l0, h1, h2, h3, h4, h5⟩
    · exact .inr ⟨_, _, _, h0, hc, hn, hl, .here h'⟩
    · exact .inr ⟨d0, c0, l0, h1, h2, h3, h4, .there h5 hc hn hl h'⟩

section
variable (F : Files) (root : Str) (t : Namespaces) (G : Name → Option Root)

/-- The types made of the top-level nodes of a file, and of those it includes or imports. -/
def FileFor (path : Str) : Prop :=
  ∀ p d, Reads F path p d → ∀ c ∈ (Nd.of d.root).xsdKids, ¬ (c.name = c!"include" ∨ c.name = c!"import") → ∀ n, c.value c!"name" = some n →
    ∃ m r, Names t m ⟨n, targetOf d⟩ ∧ G m = some r ∧ RootFor F root t G d c r

/-- What is made of a top-level node. -/
def ItemFor (path : Str) (d : XDoc) (c : Nd) : Prop :=
  ((c.name = c!"include" ∨ c.name = c!"import") → ∀ l, c.value c!"schemaLocation" = some l → FileFor F root t G (F.push (F.parent path) l)) ∧
  (¬ (c.name = c!"include" ∨ c.name = c!"import") → ∀ n, c.value c!"name" = some n →
    ∃ m r, Names t m ⟨n, targetOf d⟩ ∧ G m = some r ∧ RootFor F root t G d c r)

/-- The number of types of a top-level node. -/
def itemTypes (path : Str) (k : Nat) (c : Nd) : Nat :=
  if c.name = c!"include" ∨ c.name = c!"import" then
    match c.value c!"schemaLocation" with
    | some l => typesOf F k (F.push (F.parent path) l)
    | none => 0
  else 1 + typesBelow k c

/-- The file is parsed to types. -/
def FileAdds (path : Str) (P : PSchema) : Prop :=
  ∃ N, ∀ f, N ≤ f → ∃ log, P.context.elements = applyAll log [] ∧ log.length ≤ typesOf F f path ∧
    (log.length = typesOf F f path → (∀ p ∈ log, G p.1 = some p.2) → FileFor F root t G path)

end

section
variable {x : Ext} {F : Files} {root : Str} {t : Namespaces} {G : Name → Option Root}
  {incl : Str → Namespaces → List (Name × List Name) → Res SErr PSchema}
  (hincl : ∀ path t deps P, t.Reachable → incl path t deps = .ok P → NamesOK t P)
  (hadds : ∀ path t' deps P, t'.Reachable → incl path t' deps = .ok P → (∀ p d, Reads F path p d → Reads F root p d) →
    P.context.namespaces.Extends t → FileAdds F root t G path P)
include hincl hadds

theorem parseItems_adds {path : Str} {d : XDoc} (hd : DocOK d) {cs : List Nd} {s s' : PCtx} (hI : nsLaw.I s) (ho : On d t s)
    (hk : ∀ c ∈ cs, TreeOK F root d c ∧ c.seen = [])
    (hr : ∀ c ∈ cs, (c.name = c!"include" ∨ c.name = c!"import") → ∀ l, c.value c!"schemaLocation" = some l →
      ∀ p d, Reads F (F.push (F.parent path) l) p d → Reads F root p d)
    (h : parseItems x F incl (F.parent path) cs s = .ok s') (hx : s'.nss.Extends t) :
    ∃ N, ∀ f, N ≤ f → Adds G s s' (cs.map (itemTypes F path f)).sum (∀ c ∈ cs, ItemFor F root t G path d c) := by
  induction cs generalizing s with
  | nil =>
    cases h
    exact ⟨0, fun f _ => .nil rfl nofun⟩
  | cons c cs ih =>
    obtain ⟨s1, h1, h2⟩ := Res.bind_eq_ok.1 h
    obtain ⟨hI1, hR1⟩ := parseItem_names hincl hI h1
    have hR2 := (parseItems_names hincl hI1 h2).2
    have hx1 : s1.nss.Extends t := hR2.1.trans hx
    replace h1 := parseItem_run h1
    have he := itemRun_env h1
    have he' : s1.target = s.target := congrArg Env.target he
    have ho1 : On d t s1 := ⟨he ▸ ho.env, hI1.1, he' ▸ ho.target⟩
    obtain ⟨N2, hN2⟩ := ih hI1 ho1 (fun c hc => hk c (.tail _ hc)) (fun c hc => hr c (.tail _ hc)) h2
    suffices hs : ∃ N, ∀ f, N ≤ f → Adds G s s1 (itemTypes F path f c) (ItemFor F root t G path d c) by
      obtain ⟨N1, hN1⟩ := hs
      refine ⟨max N1 N2, fun f hf => ?_⟩
      refine ((hN1 f (by omega)).trans (hN2 f (by omega))).imp ?_
      rintro ⟨a, b⟩ c' hc'
      rcases List.mem_cons.1 hc' with rfl | hc'
      · exact a
      · exact b c' hc'
    cases h1 with
    | «include» location schema hn hl h =>
      obtain ⟨N, hN⟩ := hadds _ _ _ _ hI.1 h (hr c (.head _) hn _ (value_some hl)) hx1
      refine ⟨N, fun f hf => ?_⟩
      obtain ⟨log, h3, h4, h5⟩ := hN f hf
      obtain ⟨h6, h7⟩ := applyAll_length log []
      rw [← h3] at h6 h7
      simp only [List.length_nil, Nat.zero_add] at h6 h7
      unfold itemTypes
      rw [if_pos hn, value_some hl]
      refine ⟨schema.context.elements, foldl_addRoot_roots _ s, by show _ ≤ typesOf _ _ _; omega, fun ha hb => ?_⟩
      have ha : schema.context.elements.length = typesOf F f (F.push (F.parent path) location.value) := ha
      have h8 := h5 (by omega) (fun p hp => hb p (h7 (by omega) p (.inr hp)))
      refine ⟨fun _ l hl' => ?_, fun hn' => absurd hn hn'⟩
      rw [value_some hl] at hl'
      cases hl'
      exact h8
    | definition nameAttr r s2 hn ha h =>
      refine ⟨c.fuel + 3, fun f hf => ?_⟩
      have hA := (treeAll x F root t G hd c.fuel).root hf ho (tree_sees [c!"name"] (hk c (.head _)).1) (.inr (by
        show c!"ref" ∉ c!"name" :: c.seen
        rw [(hk c (.head _)).2]
        decide)) h hx1
      have hA' := (hA.imp rootFor_see).add (r := r) (n := ⟨nameAttr.value, s.target⟩) (p := ⟨nameAttr.value, s.target⟩)
      rw [below_see] at hA'
      unfold itemTypes
      rw [if_neg hn, Nat.add_comm]
      refine Adds.imp (s' := s2.addRoot _ _) hA' ?_
      rintro ⟨h3, h4⟩
      refine ⟨fun hn' => absurd hn' hn, fun _ n hn' => ?_⟩
      rw [value_some ha] at hn'
      cases hn'
      exact ⟨_, r, ⟨rfl, ho.target⟩, h4, h3⟩

theorem parseDoc_adds (B : TreeFiles F root) {path : Str} {d : XDoc} {t' : Namespaces} {deps : List (Name × List Name)} {P : PSchema}
    (ht : t'.Reachable) (hf : F.read path = some (.doc d)) (hr : ∀ p d, Reads F path p d → Reads F root p d)
    (h : parseDoc x F incl path d t' deps = .ok P) (hx : P.context.namespaces.Extends t) : FileAdds F root t G path P := by
  obtain ⟨s, hs, _, ⟨s', h1, rfl⟩, hext, _⟩ := parseDoc_items hincl ht h
  have hrd := hr _ _ (.here hf)
  have hnew : nsLaw.I s := hs ▸ nsLaw_new ht
  have hst : Stands s.nss s.target (targetOf d) := by rw [hs]; exact stands_new
  obtain ⟨N, hN⟩ := parseItems_adds hincl hadds (path := path) ⟨(B.files _ _ hrd).1, (B.files _ _ hrd).2⟩ hnew
    ⟨by rw [hs]; exact envOf_new _ _ _ _, hnew.1, (hst.mono hext).mono hx⟩
    (fun c hc => ⟨B.nodes _ _ hrd c hc, kid_seen hc⟩)
    (fun c hc hn l hl p d' hp => hr _ _ (Reads.step hf hc hn hl hp)) h1 hx
  refine ⟨N + 1, fun f hf' => ?_⟩
  obtain ⟨g, rfl⟩ : ∃ g, f = g + 1 := ⟨f - 1, by omega⟩
  obtain ⟨log, h2, h3, h4⟩ := hN g (by omega)
  have hc : typesOf F (g + 1) path = ((Nd.of d.root).xsdKids.map (itemTypes F path g)).sum := by
    show (match F.read path with | some (.doc d) => _ | _ => 0) = _
    rw [hf]
    rfl
  rw [hc]
  refine ⟨log, ?_, h3, fun ha hb => ?_⟩
  · show s'.roots = _
    rw [h2, hs]
    rfl
  · have h5 := h4 ha hb
    intro p d' hp c hc hn n hv
    rcases reads_first hp with ⟨rfl, h7⟩ | ⟨d0, c0, l0, h7, h8, h9, h10, h11⟩
    · rw [hf] at h7
      cases h7
      exact (h5 c hc).2 hn n hv
    · rw [hf] at h7
      cases h7
      exact (h5 c0 h8).1 h9 l0 h10 p d' h11 c hc hn n hv

end

theorem parseFileWith_adds {x : Ext} {F : Files} {root : Str} {t : Namespaces} {G : Name → Option Root} (B : TreeFiles F root) (k : Nat) :
    ∀ path t' deps P, t'.Reachable → parseFileWith x F k path t' deps = .ok P → (∀ p d, Reads F path p d → Reads F root p d) →
    P.context.namespaces.Extends t → FileAdds F root t G path P := by
  induction k with
  | zero => intro path t deps P _ h; cases h
  | succ k ih =>
    intro path t' deps P ht h hr hx
    unfold parseFileWith at h
    split at h
    · cases h
    · cases h
    · next d hf => exact parseDoc_adds (parseFileWith_names k) ih B ht hf hr h hx

/-- The types of the nodes are in the parsed schema if it has as many as there are. -/
theorem parsed_for {x : Ext} {F : Files} {path : Str} {k : Nat} {P : PSchema} (B : TreeFiles F path) (h : parseFile x F k path = .ok P)
    (hc : TypeCount F path P.context.elements.length) :
    ∀ q d c, Top F path q d c → ∃ n r, Names P.context.namespaces n q ∧ P.context.get n = some r ∧
      RootFor F path P.context.namespaces P.context.get d c r := by
  obtain ⟨N, hN⟩ := parseFileWith_adds (t := P.context.namespaces) (G := P.context.get) B k path _ _ P ⟨[], rfl⟩ h (fun _ _ h => h) (.refl _)
  obtain ⟨k0, hk0⟩ := hc
  obtain ⟨log, h1, h2, h3⟩ := hN (max N k0) (by omega)
  rw [hk0 _ (by omega)] at h2 h3
  obtain ⟨h4, h5⟩ := applyAll_length log []
  rw [← h1] at h4 h5
  simp only [List.length_nil, Nat.zero_add] at h4 h5
  have hnd := (parseFileWith_log k path _ _ P ⟨[], rfl⟩ h).1
  have h6 := h3 (by omega) (fun p hp => alookup_of_mem hnd (h5 (by omega) p (.inr hp)))
  intro q d c ht
  cases ht with
  | mk hr hc hk hn =>
    obtain ⟨k', hk'⟩ := Option.isSome_iff_exists.1 hk
    exact h6 _ _ hr _ hc (topKind_not_include hk') _ hn

end Xsd.Tree
