import Verif.Lemmas.AnnotationsParse
/-!
# C78: annotations do not influence the code
-/
namespace Xsd
namespace Ann

/-! ## Files -/

theorem plain_fold (rs : List (Name × Root)) (s : PCtx) :
    (plainRoots rs).foldl (fun s p => s.addRoot p.1 p.2) (plainCtx s) = plainCtx (rs.foldl (fun s p => s.addRoot p.1 p.2) s) := by
  induction rs generalizing s with
  | nil => rfl
  | cons r rs ih =>
    have h : (plainCtx s).addRoot r.1 (plainRoot r.2) = plainCtx (s.addRoot r.1 r.2) := by
      unfold plainCtx PCtx.addRoot
      rw [plainRoots_insert]
    show (plainRoots rs).foldl _ ((plainCtx s).addRoot r.1 (plainRoot r.2)) = _
    rw [h]
    exact ih _

theorem attrOf_bare (i : ElemInfo) (n : Str) : attrOf (placeless i) n = attrOf i n := by
  unfold attrOf
  show ((i.attrs.map placelessAttr).find? _).map _ = _
  rw [List.find?_map, Option.map_map]
  rfl

theorem liftX_ok {α : Type} {r : Res XErr α} {a : α} : liftX r = .ok a ↔ r = .ok a := by
  cases r <;> simp [liftX]

theorem liftS_ok {α : Type} {r : Res SErr α} {a : α} : liftS r = .ok a ↔ r = .ok a := by
  cases r <;> simp [liftS]

section
variable (x : Ext) (F : Files) {incl incl' : Str → Namespaces → List (Name × List Name) → Res SErr PSchema}
  (hi : ∀ p t deps S, incl p t deps = .ok S → incl' p t deps = .ok (plainSchema S))
include hi

theorem item_bare (base : Str) (c : Nd) (s t : PCtx) (h : parseItem x F incl base c s = .ok t) :
    (¬ c.info.name = annName) ∧ parseItem x (bareFiles F) incl' base (bareNd c) (plainCtx s) = .ok (plainCtx t) := by
  unfold parseItem at h ⊢
  by_cases hc : c.name = c!"include" ∨ c.name = c!"import"
  · rw [if_pos hc] at h
    rw [if_pos (show (bareNd c).name = c!"include" ∨ (bareNd c).name = c!"import" from hc)]
    obtain ⟨loc, h1, h⟩ := Res.bind_eq_ok.1 h
    obtain ⟨S, h2, h⟩ := Res.bind_eq_ok.1 h
    cases h
    refine ⟨fun hn => ?_, ?_⟩
    · have hn' : c.name = c!"annotation" := congrArg QName.loc hn
      rw [hn'] at hc
      exact absurd hc (by decide)
    · refine Res.bind_eq_ok.2 ⟨placelessAttr loc, liftX_ok.2 (tryAttr_bare (liftX_ok.1 h1)), Res.bind_eq_ok.2 ⟨_, liftS_ok.2 (hi _ _ _ _ (liftS_ok.1 h2)), ?_⟩⟩
      show Res.ok { (plainRoots S.context.elements).foldl (fun s p => s.addRoot p.1 p.2) (plainCtx s) with nss := S.context.namespaces, deps := S.deps } = _
      rw [plain_fold]
      rfl
  · rw [if_neg hc] at h
    rw [if_neg (show ¬ ((bareNd c).name = c!"include" ∨ (bareNd c).name = c!"import") from hc)]
    obtain ⟨a, h1, h⟩ := Res.bind_eq_ok.1 h
    obtain ⟨⟨root, s1⟩, h2, h⟩ := Res.bind_eq_ok.1 h
    cases h
    have h2 := liftX_ok.1 h2
    refine ⟨fun hn => ?_, Res.bind_eq_ok.2 ⟨placelessAttr a, liftX_ok.2 (tryAttr_bare (liftX_ok.1 h1)), ?_⟩⟩
    · have hn' : (c.see c!"name").name = c!"annotation" := congrArg QName.loc hn
      revert h2
      show parseRoot x (3 * kidsDepth c.kids + 2 + 1) _ _ _ = _ → False
      unfold parseRoot
      rw [hn']
      exact fun h => nomatch h
    · rcases (annOK x c.fuel).root (bareNd c).fuel (c.see c!"name") _ s root s1 h2 with h3 | h3
      · refine Res.bind_eq_ok.2 ⟨_, liftX_ok.2 h3, ?_⟩
        exact congrArg Res.ok (plain_fold [(⟨a.value, s.target⟩, root)] s1)
      · exact absurd h3 (C40_definition x (bareNd (c.see c!"name")) _ _)

theorem items_bare (base : Str) : ∀ (cs : List Nd) (s t : PCtx), parseItems x F incl base cs s = .ok t →
    parseItems x (bareFiles F) incl' base (bareNds cs) (plainCtx s) = .ok (plainCtx t)
  | [], s, t, h => by cases h; rfl
  | c :: cs, s, t, h => by
    unfold parseItems at h
    obtain ⟨s1, h1, h⟩ := Res.bind_eq_ok.1 h
    obtain ⟨hn, h2⟩ := item_bare x F hi base c s s1 h1
    have he : bareNds (c :: cs) = bareNd c :: bareNds cs := by
      unfold bareNds
      rw [List.filter_cons, if_pos (by simp [hn]), List.map_cons]
    rw [he]
    unfold parseItems
    exact Res.bind_eq_ok.2 ⟨_, h2, items_bare base cs s1 t h⟩

theorem schemaRoot_bare (base : Str) (e : Elem) (nss : Namespaces) (deps : List (Name × List Name)) (S : PSchema)
    (h : parseSchemaRoot x F incl base (Nd.of e) nss deps = .ok S) :
    parseSchemaRoot x (bareFiles F) incl' base (Nd.of (placeless e.1, bareKids e.2)) nss deps = .ok (plainSchema S) := by
  unfold parseSchemaRoot at h ⊢
  split at h
  · cases h
  · next hc =>
    rw [if_neg (show ¬ ((Nd.of (placeless e.1, bareKids e.2)).info.name.ns ≠ some nsXsd ∨ (Nd.of (placeless e.1, bareKids e.2)).name ≠ c!"schema") from hc)]
    obtain ⟨s, h1, h⟩ := Res.bind_eq_ok.1 h
    cases h
    refine Res.bind_eq_ok.2 ⟨plainCtx s, ?_, rfl⟩
    have := items_bare x F hi base _ _ _ h1
    rw [← xsdKids_bare] at this
    have hn : PCtx.new (placeless e.1) (((bareNd (Nd.of e)).attr c!"targetNamespace").map XAttr.value) nss deps =
        plainCtx (PCtx.new e.1 (((Nd.of e).attr c!"targetNamespace").map XAttr.value) nss deps) := by
      rw [attrVal_bare]
      unfold PCtx.new
      rw [attrOf_bare]
      rfl
    exact (congrArg _ hn).trans this

end

/-- **C78**: removing all annotations, text and comments from all files does not change what is read from them, except for
the documentation. -/
theorem C78_file (x : Ext) (F : Files) (k : Nat) (path : Str) (nss : Namespaces) (deps : List (Name × List Name)) (P : PSchema)
    (h : parseFileWith x F k path nss deps = .ok P) : parseFileWith x (bareFiles F) k path nss deps = .ok (plainSchema P) := by
  induction k generalizing path nss deps P with
  | zero => cases h
  | succ k ih =>
    unfold parseFileWith at h ⊢
    show (match (F.read path).map bareFile with | none => _ | some (.malformed r c) => _ | some (.doc d) => _) = _
    cases hr : F.read path with
    | none => rw [hr] at h; cases h
    | some f =>
      rw [hr] at h
      cases f with
      | malformed r c => cases h
      | doc d =>
        simp only [Option.map_some, bareFile] at h ⊢
        unfold parseDoc at h ⊢
        cases hs : parseSchemaRoot x F (parseFileWith x F k) (F.parent path) (Nd.of d.root) nss deps with
        | ok S =>
          rw [hs] at h
          cases h
          have := schemaRoot_bare x F ih (F.parent path) d.root nss deps P hs
          show (match parseSchemaRoot x (bareFiles F) (parseFileWith x (bareFiles F) k) (F.parent path) (Nd.of (placeless d.root.1, bareKids d.root.2)) nss deps with
            | .ok s => _ | .err e => _ | .panic => _ | .diverge => _) = _
          rw [this]
        | err e => rw [hs] at h; cases h
        | panic => rw [hs] at h; cases h
        | diverge => rw [hs] at h; cases h

/-! ## Code -/

theorem plain_get (S : SchemaContext) (n : Name) : (plainContext S).get n = (S.get n).map plainRoot := by
  unfold SchemaContext.get
  show alookup (plainRoots S.elements) n = _
  unfold plainRoots
  induction S.elements with
  | nil => rfl
  | cons p rs ih =>
    obtain ⟨m, r⟩ := p
    simp only [List.map_cons, alookup]
    split
    · rfl
    · exact ih

theorem plain_alias (S : SchemaContext) (k : Nat) (c : LeafContent) : inlineAlias (plainContext S) k c = inlineAlias S k c := by
  induction k generalizing c with
  | zero => cases c <;> rfl
  | succ k ih =>
    cases c with
    | literal t => rfl
    | fixed s => rfl
    | named n =>
      unfold inlineAlias
      rw [plain_get]
      cases S.get n with
      | none => rfl
      | some r =>
        cases r with
        | leaf d => exact ih d.content
        | enum ns => rfl
        | element d => rfl
        | choice vs v d => rfl

theorem plain_inlined (S : SchemaContext) (c : LeafContent) : inlined (plainContext S) c = inlined S c := by
  unfold inlined
  rw [plain_alias]
  unfold SchemaContext.aliasFuel
  rw [show (plainContext S).elements.length = S.elements.length from List.length_map ..]

theorem plain_resolveFrom (S : SchemaContext) (k : Nat) (o : Option Root) :
    (plainContext S).resolveFrom k (o.map plainRoot) =
      (match S.resolveFrom k o with | .ok r => .ok (r.map plainRoot) | .err e => .err e | .panic => .panic | .diverge => .diverge) := by
  induction k generalizing o with
  | zero => rfl
  | succ k ih =>
    cases o with
    | none => rfl
    | some r =>
      cases r with
      | leaf d =>
        obtain ⟨c, rs, docs⟩ := d
        cases c with
        | named m =>
          show (plainContext S).resolveFrom k ((plainContext S).get m) = (match S.resolveFrom k (S.get m) with | .ok r => _ | .err e => _ | .panic => _ | .diverge => _)
          rw [plain_get]
          exact ih _
        | literal t => rfl
        | fixed s => rfl
      | enum ns => rfl
      | element d => rfl
      | choice vs v d => rfl

theorem plain_resolve (S : SchemaContext) (n : Name) : (plainContext S).resolve n =
    (match S.resolve n with | .ok r => .ok (r.map plainRoot) | .err e => .err e | .panic => .panic | .diverge => .diverge) := by
  unfold SchemaContext.resolve
  rw [plain_get, plain_resolveFrom]
  unfold SchemaContext.aliasFuel
  rw [show (plainContext S).elements.length = S.elements.length from List.length_map ..]

theorem mapRes_map {α β γ : Type} (f : α → β) (g : β → Res Str γ) (h : α → Res Str γ) (he : ∀ a, g (f a) = h a) (as : List α) :
    mapRes g (as.map f) = mapRes h as := by
  induction as with
  | nil => rfl
  | cons a as ih => rw [List.map_cons, mapRes, mapRes, he, ih]

section
variable (x : Ext) (S : SchemaContext)

theorem plain_ty (c : LeafContent) : contentTy x (plainContext S) c = contentTy x S c := by
  unfold contentTy
  rw [plain_inlined]

theorem plain_write (c : LeafContent) : contentWrite x (plainContext S) c = contentWrite x S c := by
  unfold contentWrite
  rw [plain_inlined]

theorem plain_read (c : LeafContent) : contentRead x (plainContext S) c = contentRead x S c := by
  unfold contentRead
  rw [plain_inlined]

theorem plain_leafDecl (l : Leaf) : leafDecl x (plainContext S) (plainLeaf l) = leafDecl x S l := by
  unfold leafDecl
  rw [plain_ty]
  rfl

theorem plain_leafRead (l : Leaf) : leafRead x (plainContext S) (plainLeaf l) = leafRead x S l := by
  unfold leafRead
  rw [plain_read]
  rfl

theorem plain_leafWrite (l : Leaf) : leafWrite x (plainContext S) (plainLeaf l) = leafWrite x S l := by
  obtain ⟨n, ⟨c, rs, docs⟩, u, v, mn, mx⟩ := l
  unfold leafWrite
  rw [plain_write]
  cases c with
  | literal t => rfl
  | fixed s => rfl
  | named m =>
    simp only [plainLeaf, plainLeafDef]
    rw [plain_resolve]
    cases S.resolve m with
    | ok r =>
      cases r with
      | none => rfl
      | some r =>
        cases r with
        | leaf d => rfl
        | enum ns => rfl
        | element d => rfl
        | choice vs v d => rfl
    | err e => rfl
    | panic => rfl
    | diverge => rfl

theorem plain_attrDecl (a : Attribute) : attrDecl x (plainContext S) (plainAttr a) = attrDecl x S a := by
  unfold attrDecl
  rw [plain_ty]
  rfl

theorem plain_attrWrite (a : Attribute) : attrWrite x (plainContext S) (plainAttr a) = attrWrite x S a := by
  unfold attrWrite
  rw [plain_ty]
  rfl

theorem plain_attrRead (a : Attribute) : attrRead x (plainContext S) (plainAttr a) = attrRead x S a := by
  unfold attrRead
  rw [plain_ty]
  rfl

theorem plain_variantDecl (l : Leaf) : variantDecl x (plainContext S) (plainLeaf l) = variantDecl x S l := by
  unfold variantDecl
  rw [plain_ty]
  rfl

theorem plain_variantWrite (l : Leaf) : variantWrite x (plainContext S) (plainLeaf l) = variantWrite x S l := by
  unfold variantWrite
  rw [plain_write]
  rfl

theorem plain_variantRead (l : Leaf) : variantRead x (plainContext S) (plainLeaf l) = variantRead x S l := by
  unfold variantRead
  rw [plain_read]
  rfl

theorem plain_decl (r : Root) : rootDecl x (plainContext S) (plainRoot r) = rootDecl x S r := by
  cases r with
  | leaf d => simp only [plainRoot, rootDecl, plain_ty]; rfl
  | enum ns => rfl
  | element d =>
    simp only [plainRoot, rootDecl, plainElem]
    rw [mapRes_map _ _ _ (plain_attrDecl x S)]
    have : contentDecl x (plainContext S) (d.content.map plainContent) = contentDecl x S d.content := by
      cases d.content with
      | none => rfl
      | some c =>
        cases c with
        | leaf n d => simp only [Option.map_some, plainContent, contentDecl, plain_ty]; rfl
        | leaves ls => exact mapRes_map _ _ _ (plain_leafDecl x S) ls
    rw [this]
  | choice vs v d =>
    simp only [plainRoot, rootDecl]
    rw [mapRes_map _ _ _ (plain_variantDecl x S)]

theorem plain_rootWrite (r : Root) : rootWrite x (plainContext S) (plainRoot r) = rootWrite x S r := by
  cases r with
  | leaf d => simp only [plainRoot, rootWrite, plain_write]; rfl
  | enum ns => rfl
  | element d =>
    simp only [plainRoot, rootWrite, plainElem]
    rw [mapRes_map _ _ _ (plain_attrWrite x S)]
    have h1 : elementContentWrite x (plainContext S) (d.content.map plainContent) = elementContentWrite x S d.content := by
      cases d.content with
      | none => rfl
      | some c =>
        cases c with
        | leaf n d => simp only [Option.map_some, plainContent, elementContentWrite, plain_write]; rfl
        | leaves ls =>
          simp only [Option.map_some, plainContent, elementContentWrite]
          rw [mapRes_map _ _ _ (plain_leafWrite x S)]
    have h2 : isNamedLeaf (d.content.map plainContent) = isNamedLeaf d.content := by
      cases d.content with
      | none => rfl
      | some c => cases c <;> rfl
    rw [h1, h2]
  | choice vs v d =>
    simp only [plainRoot, rootWrite]
    rw [mapRes_map _ _ _ (plain_variantWrite x S)]

theorem plain_rootRead (r : Root) : rootRead x (plainContext S) (plainRoot r) = rootRead x S r := by
  cases r with
  | leaf d => simp only [plainRoot, rootRead, plain_read]; rfl
  | enum ns => rfl
  | element d =>
    simp only [plainRoot, rootRead, plainElem]
    rw [mapRes_map _ _ _ (plain_attrRead x S)]
    have : elementContentRead x (plainContext S) (d.content.map plainContent) = elementContentRead x S d.content := by
      cases d.content with
      | none => rfl
      | some c =>
        cases c with
        | leaf n d => simp only [Option.map_some, plainContent, elementContentRead, plain_read]; rfl
        | leaves ls =>
          simp only [Option.map_some, plainContent, elementContentRead]
          rw [mapRes_map _ _ _ (plain_leafRead x S)]
    rw [this]
  | choice vs v d =>
    simp only [plainRoot, rootRead]
    rw [mapRes_map _ _ _ (plain_variantRead x S)]

theorem plain_lookLeaves (ls : List Leaf) : lookLeaves (ls.map plainLeaf) = (lookLeaves ls).map plainLeaf := by
  induction ls with
  | nil => rfl
  | cons l ls ih =>
    rw [List.map_cons, lookLeaves, lookLeaves, ih]
    show (if l.isOptional = true then _ else _) = _
    split <;> rfl

theorem plain_look (r : Root) : rootLook x (plainContext S) (plainRoot r) = rootLook x S r := by
  have hc : ∀ l, leafCheck x (plainContext S) (plainLeaf l) = leafCheck x S l := fun _ => rfl
  cases r with
  | leaf d => rfl
  | enum ns => rfl
  | element d =>
    obtain ⟨as, c, v, docs⟩ := d
    cases c with
    | none => rfl
    | some c =>
      cases c with
      | leaf n d => rfl
      | leaves ls =>
        simp only [plainRoot, rootLook, plainElem, Option.map_some, plainContent]
        rw [plain_lookLeaves, mapRes_map _ _ _ hc]
  | choice vs v d =>
    simp only [plainRoot, rootLook]
    rw [mapRes_map _ _ _ hc]

/-- The code generated for a definition does not depend on documentation. -/
theorem C78_element (n : Name) : generateElement x (plainContext S) n = generateElement x S n := by
  unfold generateElement
  rw [plain_get]
  cases S.get n with
  | none => rfl
  | some r =>
    simp only [Option.map_some, plain_decl, plain_rootWrite, plain_rootRead, plain_look]
    rfl

theorem plain_emit (ns already : List Name) : emitNames x (plainContext S) ns already = emitNames x S ns already := by
  induction ns generalizing already with
  | nil => rfl
  | cons n ns ih => simp only [emitNames, ih, C78_element]

theorem plain_all : generateAll x (plainContext S) = generateAll x S := by
  unfold generateAll
  have h : (plainContext S).elements.map Prod.fst = S.elements.map Prod.fst := by
    show (S.elements.map _).map _ = _
    rw [List.map_map]
    rfl
  rw [h]
  congr 1
  funext n
  exact C78_element x S n

end

theorem plain_deps (x : Ext) (P : PSchema) (n : Name) (already : List Name) : generateWithDeps x (plainSchema P) n already = generateWithDeps x P n already := by
  unfold generateWithDeps
  show (collectNames P.deps (depsFuel P.deps) [] [n] >>= fun names => match emitNames x (plainContext P.context) names already with
    | .ok r => _ | .err m => _ | .panic => _ | .diverge => _) = _
  simp only [plain_emit]
  rfl

/-- **C78**: files that are the same apart from annotations, text, comments and where things stand, and are both accepted, give the same code: for the whole schema, and for every
name with what it depends on. -/
theorem C78_code (x : Ext) {F F' : Files} (hs : bareFiles F = bareFiles F') (k k' : Nat) (path : Str) {P P' : PSchema}
    (h : parseFile x F k path = .ok P) (h' : parseFile x F' k' path = .ok P') :
    generateAll x P.context = generateAll x P'.context ∧ ∀ n already, generateWithDeps x P n already = generateWithDeps x P' n already := by
  have key : plainSchema P = plainSchema P' := by
    have h1 := parseFileWith_le (Nat.le_max_left k k') (x := x) (F := F) (path := path) (t := Namespaces.empty) (deps := []) (by
      show parseFile x F k path ≠ .diverge
      rw [h]; nofun)
    have h2 := parseFileWith_le (Nat.le_max_right k k') (x := x) (F := F') (path := path) (t := Namespaces.empty) (deps := []) (by
      show parseFile x F' k' path ≠ .diverge
      rw [h']; nofun)
    have h3 := C78_file x F (max k k') path _ _ P (h1.trans h)
    have h4 := C78_file x F' (max k k') path _ _ P' (h2.trans h')
    rw [hs, h4] at h3
    exact (Res.ok.inj h3).symm
  refine ⟨?_, fun n already => ?_⟩
  · rw [← plain_all x P.context, ← plain_all x P'.context]
    exact congrArg (fun P => generateAll x P.context) key
  · rw [← plain_deps, ← plain_deps x P', key]

/-- Annotations directly in `xs:schema` are never accepted. -/
theorem C78_toplevel (x : Ext) (F : Files) (k : Nat) (path : Str) {d : XDoc} {P : PSchema} (hd : F.read path = some (.doc d))
    (h : parseFile x F k path = .ok P) : ∀ e ∈ elemKids d.root.2, e.1.name ≠ ⟨c!"annotation", some nsXsd⟩ := by
  intro e he hn
  cases k with
  | zero => cases h
  | succ k =>
    unfold parseFile parseFileWith at h
    rw [hd] at h
    simp only at h
    unfold parseDoc at h
    cases hs : parseSchemaRoot x F (parseFileWith x F k) (F.parent path) (Nd.of d.root) Namespaces.empty [] with
    | ok S =>
      unfold parseSchemaRoot at hs
      split at hs
      · cases hs
      · obtain ⟨s, h1, _⟩ := Res.bind_eq_ok.1 hs
        have hm : Nd.of e ∈ (Nd.of d.root).xsdKids :=
          List.mem_map.2 ⟨e, List.mem_filter.2 ⟨he, by rw [hn]; rfl⟩, rfl⟩
        have key : ∀ (cs : List Nd) (s t : PCtx), parseItems x F (parseFileWith x F k) (F.parent path) cs s = .ok t →
            ∀ c ∈ cs, ¬ c.info.name = annName := by
          intro cs
          induction cs with
          | nil => nofun
          | cons c cs ih =>
            intro s t h
            unfold parseItems at h
            obtain ⟨s1, h1, h⟩ := Res.bind_eq_ok.1 h
            intro c' hc'
            rcases List.mem_cons.1 hc' with rfl | hc'
            · exact (item_bare x F (fun p t deps S h => C78_file x F k p t deps S h) _ _ _ _ h1).1
            · exact ih _ _ h c' hc'
        exact key _ _ _ h1 _ hm hn
    | err e => rw [hs] at h; cases h
    | panic => rw [hs] at h; cases h
    | diverge => rw [hs] at h; cases h

end Ann
end Xsd
