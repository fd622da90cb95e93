import Verif.Lemmas.Reorder
import Verif.Props.Local
import Verif.Props.Dependencies
import Verif.Props.OrderCode
/-!
# The order of the definitions in a schema file does not matter (C79)
-/
namespace Xsd
namespace Reord
open Again

theorem onlyChild_exists {d : XDoc} {c : Nd} (hc : c ∈ (Nd.of d.root).xsdKids) : ∃ d', OnlyChild d d' c := by
  unfold Nd.xsdKids at hc
  obtain ⟨e, he, rfl⟩ := List.mem_map.1 hc
  refine ⟨⟨(d.root.1, [.elem e.1 e.2]), d.pos⟩, rfl, ?_⟩
  unfold Nd.xsdKids
  have : e.1.name.ns = some nsXsd := by simpa using (List.mem_filter.1 he).2
  show List.map Nd.of (List.filter (fun e => decide (e.1.name.ns = some nsXsd)) [e]) = _
  rw [List.filter_cons, if_pos (by simpa using this)]
  rfl

/-- The context that the children of a schema element are parsed in. -/
abbrev start (d : XDoc) (t : Namespaces) (deps : List (Name × List Name)) : PCtx :=
  PCtx.new d.root.1 (((Nd.of d.root).attr c!"targetNamespace").map XAttr.value) t deps

theorem start_congr {d d' : XDoc} (h : d'.root.1 = d.root.1) (t : Namespaces) (deps : List (Name × List Name)) :
    start d' t deps = start d t deps := by
  have : (Nd.of d'.root).attr c!"targetNamespace" = (Nd.of d.root).attr c!"targetNamespace" := by
    unfold Nd.attr
    rw [show (Nd.of d'.root).info = (Nd.of d.root).info from h]
  unfold start
  rw [this, h]

theorem parseDoc_iff {x : Ext} {F : Files} {incl : Str → Namespaces → List (Name × List Name) → Res SErr PSchema} {p : Str} {d : XDoc}
    {t : Namespaces} {deps : List (Name × List Name)} {S : PSchema} : parseDoc x F incl p d t deps = .ok S ↔
      (d.root.1.name.ns = some nsXsd ∧ d.root.1.name.loc = c!"schema") ∧
      ∃ s, parseItems x F incl (F.parent p) (Nd.of d.root).xsdKids (start d t deps) = .ok s ∧ S = s.intoSchema := by
  unfold parseDoc parseSchemaRoot
  by_cases hc : (Nd.of d.root).info.name.ns ≠ some nsXsd ∨ (Nd.of d.root).name ≠ c!"schema"
  · rw [if_pos hc]
    constructor
    · intro h; cases h
    · rintro ⟨⟨h1, h2⟩, _⟩
      exact absurd hc (by rintro (h | h); exact h h1; exact h h2)
  · rw [if_neg hc]
    have hc' : d.root.1.name.ns = some nsXsd ∧ d.root.1.name.loc = c!"schema" :=
      ⟨Classical.byContradiction fun h => hc (.inl h), Classical.byContradiction fun h => hc (.inr h)⟩
    show (match (parseItems x F incl (F.parent p) (Nd.of d.root).xsdKids (start d t deps) >>= fun s => pure s.intoSchema) with
      | .ok s => Res.ok s | .err e => .err (locate p d e) | .panic => .panic | .diverge => .diverge) = _ ↔ _
    cases parseItems x F incl (F.parent p) (Nd.of d.root).xsdKids (start d t deps) with
    | ok s =>
      constructor
      · intro h; cases h; exact ⟨hc', s, rfl, rfl⟩
      · rintro ⟨_, s', h, rfl⟩; cases h; rfl
    | err e => exact ⟨fun h => (by cases h), fun ⟨_, _, h, _⟩ => (by cases h)⟩
    | panic => exact ⟨fun h => (by cases h), fun ⟨_, _, h, _⟩ => (by cases h)⟩
    | diverge => exact ⟨fun h => (by cases h), fun ⟨_, _, h, _⟩ => (by cases h)⟩

section
variable {x : Ext} {F : Files} {k : Nat} {p : Str} {d : XDoc}

/-- What a document is parsed to, from what its children add. -/
theorem outcome {cs : List Nd} {s : PCtx} {N : Namespaces} {base : Str}
    (h : parseItems x F (parseFileWith x F k) base cs (start d Namespaces.empty []) = .ok s) (hN : UrisKnown s.nss N)
    {w : Nd → List (Name × Root)} {e : Nd → List (Name × Name)} (hw : ∀ c ∈ cs, ∀ R D,
      parseItem x F (parseFileWith x F k) base c (recast (start d Namespaces.empty []) R N D) =
        .ok (recast (start d Namespaces.empty []) (insertAll (w c) R) N (discoverAll (e c) D))) :
    s.roots = insertAll (cs.flatMap w) [] ∧ s.deps = discoverAll (cs.flatMap e) [] := by
  obtain ⟨_, W, E, h1, h2, h3⟩ := parseItems_frame (parseFileWith_frame k) h
  have h4 := h3 [] N [] hN
  rw [parseItems_effects cs hw [] []] at h4
  have h5 := Res.ok.inj h4
  constructor
  · rw [h1]; exact (congrArg PCtx.roots h5).symm
  · rw [h2]; exact (congrArg PCtx.deps h5).symm

/-- Without clashes the types that two children add agree. -/
theorem agree {N : Namespaces} (hroot : d.root.1.name.ns = some nsXsd ∧ d.root.1.name.loc = c!"schema")
    (hN : UrisKnown (start d Namespaces.empty []).nss N) (hc : NoClash x F k p d N)
    {w : Nd → List (Name × Root)} {e : Nd → List (Name × Name)} (hw : ∀ c ∈ (Nd.of d.root).xsdKids, ∀ R D,
      parseItem x F (parseFileWith x F k) (F.parent p) c (recast (start d Namespaces.empty []) R N D) =
        .ok (recast (start d Namespaces.empty []) (insertAll (w c) R) N (discoverAll (e c) D))) :
    ∀ c ∈ (Nd.of d.root).xsdKids, ∀ c' ∈ (Nd.of d.root).xsdKids, ∀ n r r',
      alookup (insertAll (w c) []) n = some r → alookup (insertAll (w c') []) n = some r' → r = r' := by
  have alone : ∀ c ∈ (Nd.of d.root).xsdKids, ∃ S, ParsedAlone x F k p d N c S ∧ S.context.elements = insertAll (w c) [] := by
    intro c hm
    obtain ⟨d1, h1⟩ := onlyChild_exists hm
    refine ⟨_, ⟨d1, h1, parseDoc_iff.2 ⟨by rw [h1.info]; exact hroot,
      recast (start d Namespaces.empty []) (insertAll ([c].flatMap w) []) N (discoverAll ([c].flatMap e) []), ?_, rfl⟩⟩, ?_⟩
    · rw [h1.kids, start_congr h1.info]
      show parseItems _ _ _ _ _ (PCtx.new _ _ N []) = _
      rw [new_again hN]
      exact parseItems_effects [c] (fun b hb => by rw [List.mem_singleton.1 hb]; exact hw c hm) [] []
    · show insertAll ([c].flatMap w) [] = _
      rw [List.flatMap_cons, List.flatMap_nil, List.append_nil]
  intro c hm c' hm' n r r' h1 h2
  obtain ⟨S, hS, hSe⟩ := alone c hm
  obtain ⟨S', hS', hSe'⟩ := alone c' hm'
  refine hc c hm c' hm' S S' hS hS' n r r' ?_ ?_
  · unfold SchemaContext.get; rw [hSe]; exact h1
  · unfold SchemaContext.get; rw [hSe']; exact h2

/-- **C79**, two files that are both accepted: if they have the same children in different orders, number the namespaces in
the same way and no two of the children give different types to one name, then the schemas are the same but for the order of
the definitions. -/
theorem C79_same {p' : Str} {d' : XDoc} (hm : Reordered d d') (hd : F.read p = some (.doc d)) (hd' : F.read p' = some (.doc d'))
    (hp : F.parent p' = F.parent p) {P P' : PSchema} (h : parseFile x F (k + 1) p = .ok P) (h' : parseFile x F (k + 1) p' = .ok P')
    (hns : P'.context.namespaces = P.context.namespaces) (hc : NoClash x F k p d P.context.namespaces) : SameButOrder P P' := by
  obtain ⟨hroot, s, h1, rfl⟩ := (parseFileWith_iff hd).1 h
  obtain ⟨_, s', h1', rfl⟩ := (parseFileWith_iff hd').1 h'
  rw [hp] at h1'
  have h2' : parseItems x F (parseFileWith x F k) (F.parent p) (Nd.of d'.root).xsdKids (start d Namespaces.empty []) = .ok s' := by
    rw [← start_congr hm.info]; exact h1'
  have hns' : s'.nss = s.nss := hns
  obtain ⟨w, e, hw⟩ := effects (parseFileWith_frame k) h1 (.refl s.nss)
  have o := outcome h1 (.refl s.nss) hw
  have o' := outcome h2' (by rw [hns']; exact .refl s.nss) (fun c hc => hw c ((hm.kids c).1 hc))
  have hget : ∀ n, alookup s'.roots n = alookup s.roots n := fun n => by
    rw [o.1, o'.1]
    exact lookup_same hm.kids (agree hroot (parseItems_frame (parseFileWith_frame k) h1).uris hc hw) n
  have same : s.SameDoc s' := SameDoc.trans (b := start d Namespaces.empty []) (by
    obtain ⟨a, b, c, e⟩ := parseItems_doc h1
    exact ⟨a.symm, b.symm, c.symm, e.symm⟩) (parseItems_doc h2')
  refine ⟨perm_of_alookup (parseFileWith_deps _ _ _ _ _ h).nodup (parseFileWith_deps _ _ _ _ _ h').nodup hget, hget, ?_, ?_, hns, fun q n => ?_⟩
  · obtain ⟨a, b, c, e⟩ := same
    first | exact a.symm | exact b.symm | exact c.symm | exact e.symm | exact a | exact b | exact c | exact e
  · obtain ⟨a, b, c, e⟩ := same
    first | exact a.symm | exact b.symm | exact c.symm | exact e.symm | exact a | exact b | exact c | exact e
  · show n ∈ depsOf s'.deps q ↔ n ∈ depsOf s.deps q
    rw [o.2, o'.2, mem_discoverAll, mem_discoverAll, List.mem_flatMap, List.mem_flatMap]
    simp only [hm.kids]

/-- **C79**: if the children of a schema element that is accepted are put into another order, or some of them are repeated,
the result is accepted too, and the schemas are the same but for the order of the definitions. It is required that no
namespace but the target namespace is used, and that no two of the children give different types to one name. -/
theorem C79 {p' : Str} {d' : XDoc} (hm : Reordered d d') (hd : F.read p = some (.doc d)) (hd' : F.read p' = some (.doc d'))
    (hp : F.parent p' = F.parent p) {P : PSchema} (h : parseFile x F (k + 1) p = .ok P)
    (hns : ∀ u n, alookup P.context.namespaces.byUri u = some n → targetOf d = some u)
    (hc : NoClash x F k p d P.context.namespaces) :
    ∃ P', parseFile x F (k + 1) p' = .ok P' ∧ SameButOrder P P' := by
  obtain ⟨hroot, s, h1, rfl⟩ := (parseFileWith_iff hd).1 h
  have hs := (parseItems_frame (parseFileWith_frame k) h1).uris
  have hN : UrisKnown s.nss (start d Namespaces.empty []).nss := by
    intro u n hu
    have ht : ((Nd.of d.root).attr c!"targetNamespace").map XAttr.value = some u := hns u n hu
    obtain ⟨m, _, h3⟩ := Namespaces.getOrInsert_get Namespaces.empty u
    have h4 : alookup (start d Namespaces.empty []).nss.byUri u = some m := by
      unfold start PCtx.new
      rw [ht]
      exact h3
    have h5 := hs u m h4
    rw [hu] at h5
    cases h5
    exact h4
  obtain ⟨w, e, hw⟩ := effects (parseFileWith_frame k) h1 hN
  have h6 : ∀ cs, (∀ c ∈ cs, c ∈ (Nd.of d.root).xsdKids) →
      parseItems x F (parseFileWith x F k) (F.parent p) cs (start d Namespaces.empty []) =
        .ok (recast (start d Namespaces.empty []) (insertAll (cs.flatMap w) []) (start d Namespaces.empty []).nss (discoverAll (cs.flatMap e) [])) :=
    fun cs hcs => parseItems_effects (s := start d Namespaces.empty []) cs (fun c hc => hw c (hcs c hc)) [] []
  have h7 := h6 (Nd.of d'.root).xsdKids (fun c hc => (hm.kids c).1 hc)
  have h8 := h6 (Nd.of d.root).xsdKids (fun c hc => hc)
  have h9 : parseFile x F (k + 1) p' = .ok _ := (parseFileWith_iff hd').2
    ⟨by rw [hm.info]; exact hroot, _, by
      show parseItems _ _ _ _ _ (start d' Namespaces.empty []) = _
      rw [hp, start_congr hm.info]; exact h7, rfl⟩
  refine ⟨_, h9, C79_same hm hd hd' hp h h9 ?_ hc⟩
  rw [h1] at h8
  rw [Res.ok.inj h8]
  rfl

end

/-- **C79**, code: for every name the same item is generated, or the same failure is reported. Code is generated for the whole
schema, or for a name and what it depends on, in both cases or in neither, and it is the same items in some order. -/
theorem C79_code (x : Ext) {P P' : PSchema} (h : SameButOrder P P') :
    (∀ n, generateElement x P'.context n = generateElement x P.context n) ∧
    (∀ ds, generateAll x P.context = .ok ds → ∃ ds', generateAll x P'.context = .ok ds' ∧ ds'.Perm ds) ∧
    (∀ n already ds al, generateWithDeps x P n already = .ok (ds, al) →
      ∃ ds' al', generateWithDeps x P' n already = .ok (ds', al') ∧ ds'.Perm ds ∧ ∀ a, a ∈ al' ↔ a ∈ al) := by
  have hel : ∀ n, generateElement x P'.context n = generateElement x P.context n := fun n =>
    C64_code x (A := fun _ => True) ⟨h.target, h.qualified, h.namespaces, fun n _ => h.get n, fun _ _ _ _ _ _ => trivial⟩ trivial
  refine ⟨hel, fun ds hds => ?_, fun n already ds al hds => ?_⟩
  · unfold generateAll at hds ⊢
    rw [show generateElement x P'.context = generateElement x P.context from funext hel]
    exact mapRes_perm (h.elements.map Prod.fst) hds
  · have hneed : ∀ a, Needs P'.deps n a ↔ Needs P.deps n a := by
      intro a
      constructor
      · intro hn
        induction hn with
        | self => exact .self
        | @dep b c l _ hl hc ih =>
          have := (h.deps b c).1 (by rw [hl]; exact hc)
          cases hl' : alookup P.deps b with
          | none => rw [hl'] at this; cases this
          | some l' => rw [hl'] at this; exact .dep ih hl' this
      · intro hn
        induction hn with
        | self => exact .self
        | @dep b c l _ hl hc ih =>
          have := (h.deps b c).2 (by rw [hl]; exact hc)
          cases hl' : alookup P'.deps b with
          | none => rw [hl'] at this; cases this
          | some l' => rw [hl'] at this; exact .dep ih hl' this
    obtain ⟨names, hnd, hmem, hok, hal⟩ := C46 x P n already al ds hds
    obtain ⟨⟨ds', al'⟩, h'⟩ := C46_succeeds x P' n already (fun a ha hna => by
      have h1 : generateElement x P.context a ∈ names.map (generateElement x P.context) :=
        List.mem_map_of_mem ((hmem a).2 ⟨(hneed a).1 ha, hna⟩)
      rw [hok] at h1
      obtain ⟨t, _, ht⟩ := List.mem_map.1 h1
      exact ⟨t, by rw [hel, ← ht]⟩)
    obtain ⟨names', hnd', hmem', hok', hal'⟩ := C46 x P' n already al' ds' h'
    refine ⟨ds', al', h', ?_, fun a => by rw [hal, hal', hneed]⟩
    have hperm : names'.Perm names := (List.perm_ext_iff_of_nodup hnd' hnd).2 fun a => by rw [hmem, hmem', hneed]
    have h2 : (ds'.map (Res.ok (ε := Str))).Perm (ds.map Res.ok) := by
      rw [← hok, ← hok', show generateElement x P'.context = generateElement x P.context from funext hel]
      exact hperm.map _
    have h3 : ∀ l : List TypeDef, (l.map (Res.ok (ε := Str))).filterMap (fun r => match r with | .ok t => some t | _ => none) = l := by
      intro l
      induction l with
      | nil => rfl
      | cons t l ih => rw [List.map_cons, List.filterMap_cons, ih]
    rw [← h3 ds, ← h3 ds']
    exact h2.filterMap _

end Reord
end Xsd
