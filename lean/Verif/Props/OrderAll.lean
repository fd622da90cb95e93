import Verif.Props.OrderRun
import Verif.Props.SchemaNames
import Verif.Props.DefinitionsSample
/-!
# C50: results do not depend on the iteration order of maps
-/
namespace Xsd

variable {x : Ext} {F : Files} {k : Nat} {path : Str}

/-- **C50, parsing.** Whatever order the definitions of included files are handed over in, the result is the same failure, or the same
schema with its definitions in some order. (Which of several unsupported attributes an error names does depend on the order:
the model of `prevent_unvisited_attributes` takes the first.) -/
theorem C50_parse_partial {r : Res SErr PSchema} (h : Runs x F k path Namespaces.empty [] r) : Shuffled (parseFile x F k path) r :=
  (runs_same k path Namespaces.empty [] r h).shuffled

/-- The order that the model takes is one of them. -/
theorem C50_model : Runs x F k path Namespaces.empty [] (parseFile x F k path) := runs_self k path _ _

/-- **C50, unsupported attributes.** Whether there is one does not depend on the order, and in every order an attribute is named that is not supported. -/
theorem C50_attributes (nd : Nd) {m : List XAttr} (hm : m.Perm (lastAttrs nd.info.attrs)) :
    (unvisitedIn m nd = .ok () ↔ nd.preventUnvisitedAttributes = .ok ()) ∧
    ∀ e, unvisitedIn m nd = .err e → ∃ a ∈ lastAttrs nd.info.attrs, a.ns = none ∧ a.loc ∉ nd.seen ∧ e = .unsupportedAttribute a.loc nd.name a.start := by
  have key : ∀ l : List XAttr, (unvisitedIn l nd = .ok () ↔ ∀ a ∈ l, ¬ (a.ns = none ∧ a.loc ∉ nd.seen)) := by
    intro l
    unfold unvisitedIn
    cases hf : l.find? (fun a => decide (a.ns = none ∧ a.loc ∉ nd.seen)) with
    | none => simpa using hf
    | some a =>
      simp only [reduceCtorEq, false_iff]
      intro h
      exact h a (List.mem_of_find?_eq_some hf) (by simpa using List.find?_some hf)
  refine ⟨?_, fun e he => ?_⟩
  · have e : nd.preventUnvisitedAttributes = unvisitedIn (lastAttrs nd.info.attrs) nd := rfl
    rw [e, key, key]
    exact ⟨fun h a ha => h a (hm.mem_iff.2 ha), fun h a ha => h a (hm.mem_iff.1 ha)⟩
  · unfold unvisitedIn at he
    split at he
    · next a ha =>
      cases he
      have h2 : a.ns = none ∧ a.loc ∉ nd.seen := by simpa using List.find?_some ha
      exact ⟨a, hm.mem_iff.1 (List.mem_of_find?_eq_some ha), h2.1, h2.2, rfl⟩
    · cases he

/-- **C50 is false for errors**: which unsupported attribute is named depends on the order. -/
theorem C50_error_false : ∃ nd m, m.Perm (lastAttrs nd.info.attrs) ∧ unvisitedIn m nd ≠ nd.preventUnvisitedAttributes :=
  ⟨⟨⟨⟨c!"element", some nsXsd⟩, [⟨c!"id", none, c!"a", 0⟩, ⟨c!"block", none, c!"b", 0⟩], [], 0⟩, [], []⟩,
    [⟨c!"block", none, c!"b", 0⟩, ⟨c!"id", none, c!"a", 0⟩], .swap _ _ _, by decide +kernel⟩

theorem findType_perm {P P' : List TypeDef} (hn : (P.map TypeDef.ident).Nodup) (h : P'.Perm P) (i : Str) : findType P' i = findType P i := by
  have hn' : (P'.map TypeDef.ident).Nodup := (h.map TypeDef.ident).nodup_iff.2 hn
  cases hq : findType P i with
  | some t =>
    have h1 := List.mem_of_find?_eq_some hq
    have h2 : t.ident = i := by simpa using List.find?_some hq
    rw [← h2]
    exact findType_of_mem hn' (h.mem_iff.2 h1)
  | none =>
    unfold findType at hq ⊢
    rw [List.find?_eq_none] at hq ⊢
    exact fun p hp => hq p (h.mem_iff.1 hp)

theorem SameDefs.find {es ds : List TypeDef} (h : SameDefs es ds) (i : Str) : (findType es i = none ∧ findType ds i = none) ∨
    ∃ t t', findType es i = some t ∧ findType ds i = some t' ∧ SameDef t t' := by
  induction h with
  | nil => exact .inl ⟨rfl, rfl⟩
  | @cons d d' ds ds' hd _ ih =>
    by_cases hi : d.ident = i
    · refine .inr ⟨d, d', ?_, ?_, hd⟩
      · unfold findType; rw [List.find?_cons]; simp [hi]
      · unfold findType; rw [List.find?_cons]; simp [hd.ident, hi]
    · have e1 : findType (d :: ds) i = findType ds i := by unfold findType; rw [List.find?_cons]; simp [hi]
      have e2 : findType (d' :: ds') i = findType ds' i := by unfold findType; rw [List.find?_cons]; simp [hd.ident, hi]
      rw [e1, e2]
      exact ih

theorem SameCode.prog {ds ds' : List TypeDef} (h : SameCode ds ds') (hn : (ds.map TypeDef.ident).Nodup) (hu : ∀ t ∈ ds, t.Distinct) :
    SameProg ds ds' := by
  obtain ⟨es, hp, hd⟩ := h
  refine ⟨fun i => ?_⟩
  rw [← findType_perm hn hp]
  rcases hd.find i with h | ⟨t, t', h1, h2, h3⟩
  · exact .inl h
  · exact .inr ⟨t, t', h1, h2, h3, hu t (hp.mem_iff.1 (List.mem_of_find?_eq_some h1))⟩

/-- The values of every enumeration are different. -/
def SchemaContext.DistinctValues (S : SchemaContext) : Prop := ∀ n ns, S.get n = some (.enum ns) → (ns.map Name.name).Nodup

theorem generated_distinct {S : SchemaContext} (hr : S.namespaces.Reachable) (hv : S.DistinctValues) {n : Name} {t : TypeDef}
    (h : generateElement x S n = .ok t) : t.Distinct := by
  obtain ⟨r, hg, G⟩ := generateElement_ok h
  have hd : ∀ vs, t.decl = .enum vs → (vs.map Prod.fst).Nodup ∧ (vs.map Prod.snd).Nodup := by
    intro vs he
    have hdecl := G.decl
    cases r with
    | enum ns =>
      obtain ⟨tab, htab, hd, _⟩ := rootDecl_enum hdecl
      obtain ⟨tab', h1, h2, h3, _⟩ := C25_variants (x := x) ns
      rw [htab] at h1; cases h1
      rw [hd] at he; cases he
      exact ⟨h3, by rw [h2]; exact hv _ _ hg⟩
    | leaf d =>
      obtain ⟨_, _, h⟩ := Res.bind_eq_ok.1 hdecl
      cases h' : t.decl <;> rw [h'] at h he <;> cases h <;> cases he
    | element d =>
      obtain ⟨_, _, h⟩ := Res.bind_eq_ok.1 hdecl
      obtain ⟨_, _, h⟩ := Res.bind_eq_ok.1 h
      cases h' : t.decl <;> rw [h'] at h he <;> cases h <;> cases he
    | choice a b c =>
      obtain ⟨_, _, h⟩ := Res.bind_eq_ok.1 hdecl
      cases h' : t.decl <;> rw [h'] at h he <;> cases h <;> cases he
  exact ⟨(schemaNss_spec hr G.nss).2.2.2, fun vs h => (hd vs h).1, fun vs h => (hd vs h).2⟩

/-- Code can be generated in one order if it can in another. -/
theorem Reorders.generates {S : SchemaContext} {E : List (Name × Root)} {B : List (Nat × NsDef)} (h : Reorders S E B)
    {ords : Name → List (Str × Str) → List (Str × Str)} (hord : ∀ n m, (ords n m).Perm m) {ds' : List TypeDef}
    (hds : Xsd.generateAllIn x (S.reordered E B) ords = .ok ds') : ∃ ds, generateAll x S = .ok ds := by
  have key : ∀ (l : List Name) {es : List TypeDef}, mapRes (fun n => Xsd.generateElementIn x (S.reordered E B) (ords n) n) l = .ok es →
      ∃ ds, mapRes (Xsd.generateElement x S) l = .ok ds := by
    intro l
    induction l with
    | nil => intro es _; exact ⟨[], rfl⟩
    | cons n l ih =>
      intro es hes
      obtain ⟨b, cs, h1, h2, rfl⟩ := mapRes_cons_ok.1 hes
      obtain ⟨ds', h3⟩ := ih h2
      have hr := h.generateElementIn (x := x) (hord n) n
      rw [h1] at hr
      generalize hg : Xsd.generateElement x S n = g at hr
      cases hr with
      | ok hr => exact ⟨_, mapRes_cons_ok.2 ⟨_, _, hg, h3, rfl⟩⟩
  obtain ⟨ds, h1⟩ := key _ hds
  obtain ⟨ds2, h2, _⟩ := mapRes_perm (h.perm.map Prod.fst).symm h1
  exact ⟨ds2, h2⟩

/-- **C50, generating.** Take any order in the parser, and then any order of the definitions and namespaces in the generator and any order
of the variants of each enumeration. Code is generated if it is in the order of the model, and then it is the same items up to the order of items,
of variants and of namespace declarations. -/
theorem C50_generate {P P' : PSchema} (h : parseFile x F k path = .ok P) (hr : Runs x F k path Namespaces.empty [] (.ok P'))
    {E : List (Name × Root)} (hE : E.Perm P'.context.elements) {B : List (Nat × NsDef)} (hB : B.Perm P'.context.namespaces.byId)
    {ords : Name → List (Str × Str) → List (Str × Str)} (hord : ∀ n m, (ords n m).Perm m) :
    (∀ ds, generateAll x P.context = .ok ds → ∃ ds', generateAllIn x (P'.context.reordered E B) ords = .ok ds' ∧ SameCode ds ds') ∧
    ((∃ ds', generateAllIn x (P'.context.reordered E B) ords = .ok ds') → ∃ ds, generateAll x P.context = .ok ds) := by
  have hnd := (parseFileWith_deps k _ _ _ _ h).nodup
  have hns : P.context.namespaces.Reachable := C32_table x F k path P h
  have hsh := C50_parse_partial hr
  rw [h] at hsh
  have key : ∃ E', E'.Perm P.context.elements ∧ P' = { P with context := { P.context with elements := E' } } := by
    rcases hsh with he | ⟨P1, E', h1, h2, h3⟩
    · cases he; exact ⟨_, .refl _, rfl⟩
    · cases h1; cases h3; exact ⟨E', h2, rfl⟩
  obtain ⟨E', hp, rfl⟩ := key
  have R : Reorders P.context E B := ⟨hnd, hE.trans hp, hns.inv.ids, hB⟩
  exact ⟨fun ds hds => R.generateAllIn hord hds, fun ⟨ds', hds'⟩ => R.generates hord hds'⟩

/-- **C50, decoding and encoding.** If moreover the types have different identifiers (otherwise the code does not compile) and the values of every
enumeration are different, every document is read with the same result, and every value is written as the same
events up to the order of namespace declarations, which denote the same document. -/
theorem C50_run_partial {P P' : PSchema} (h : parseFile x F k path = .ok P) (hr : Runs x F k path Namespaces.empty [] (.ok P'))
    {E : List (Name × Root)} (hE : E.Perm P'.context.elements) {B : List (Nat × NsDef)} (hB : B.Perm P'.context.namespaces.byId)
    {ords : Name → List (Str × Str) → List (Str × Str)} (hord : ∀ n m, (ords n m).Perm m)
    {ds ds' : List TypeDef} (hds : generateAll x P.context = .ok ds) (hds' : generateAllIn x (P'.context.reordered E B) ords = .ok ds')
    (hn : (ds.map TypeDef.ident).Nodup) (hv : P.context.DistinctValues) :
    (∀ k i d, fromXml x cursorOps ds' k i d = fromXml x cursorOps ds k i d) ∧
    (∀ k i v, SameOut (toXml x ds k i v) (toXml x ds' k i v)) ∧
    (∀ k i v evs, toXml x ds k i v = .ok evs → ∃ evs', toXml x ds' k i v = .ok evs' ∧ buildDoc evs' = buildDoc evs) := by
  obtain ⟨ds1, h1, hc⟩ := (C50_generate h hr hE hB hord).1 ds hds
  rw [hds'] at h1; cases h1
  have hP : SameProg ds ds' := hc.prog hn (fun t ht => by
    obtain ⟨n, _, hg⟩ := (mapRes_ok hds).2 t ht
    exact generated_distinct (C32_table x F k path P h) hv hg)
  refine ⟨fun k i d => hP.fromXml k i d, fun k i v => hP.toXml k i v, fun k i v evs he => ?_⟩
  have := hP.toXml (x := x) k i v
  rw [he] at this
  generalize hr : toXml x ds' k i v = r at this
  cases this with
  | ok hs => exact ⟨_, rfl, hs.buildDoc⟩
  | fail hf => exact absurd rfl (hf _)

theorem runsItems_with {R : Str → Namespaces → List (Name × List Name) → Res SErr PSchema → Prop} {base : Str}
    {incl : Str → Namespaces → List (Name × List Name) → Res SErr PSchema} (hi : ∀ q n d, ∃ r, R q n d r ∧ Shuffled r (incl q n d)) :
    ∀ cs s, RunsItems x F R base cs s (parseItems x F incl base cs s) := by
  intro cs
  induction cs with
  | nil => exact fun _ => .nil
  | cons c cs ih =>
    intro s
    unfold parseItems
    cases hc : parseItem x F incl base c s with
    | ok s1 => exact .step incl hi hc (ih s1)
    | err e => exact .stop incl hi hc nofun
    | panic => exact .stop incl hi hc nofun
    | diverge => exact .stop incl hi hc nofun

namespace SchemaSample

/-- `main.xsd`: imports `types.xsd`, and has a type that refers to it. -/
def orderDoc : XDoc := xdoc (schemaElem [(some c!"xs", nsXsd), (some c!"t", c!"urn:t"), (some c!"m", c!"urn:m")] [(c!"targetNamespace", c!"urn:m")]
  [xe c!"import" [(c!"schemaLocation", c!"types.xsd")] [],
   xe c!"complexType" [(c!"name", c!"Order")]
     [xe c!"sequence" [] [xe c!"element" [(c!"name", c!"to"), (c!"type", c!"t:City")] []]]])

/-- The two files. -/
def orderFiles : Files where
  read p := if p = c!"main.xsd" then some (.doc orderDoc) else if p = c!"types.xsd" then some (.doc typesDoc) else none
  parent _ := []
  push _ l := l

/-- The schema. -/
def orderSchema : PSchema := match parseFile sampleExt orderFiles 2 c!"main.xsd" with | .ok P => P | _ => ⟨⟨[], .none, false, .empty⟩, []⟩

/-- The definitions of an included file, in reverse order. -/
def reversed (q : Str) (n : Namespaces) (d : List (Name × List Name)) : Res SErr PSchema :=
  match parseFileWith sampleExt orderFiles 1 q n d with
  | .ok P => .ok { P with context := { P.context with elements := P.context.elements.reverse } }
  | r => r

/-- The result of parsing the two files that way. -/
def reversedRun : Res SErr PSchema := docResult c!"main.xsd" orderDoc (parseItems sampleExt orderFiles reversed [] (Nd.of orderDoc.root).xsdKids
  (PCtx.new orderDoc.root.1 (((Nd.of orderDoc.root).attr c!"targetNamespace").map XAttr.value) Namespaces.empty []))

theorem reversedRun_runs : Runs sampleExt orderFiles 2 c!"main.xsd" Namespaces.empty [] reversedRun := by
  refine ⟨_, runsItems_with (incl := reversed) (fun q n d => ⟨_, runs_self 1 q n d, ?_⟩) _ _, rfl⟩
  unfold reversed
  split
  · next P h => rw [h]; exact .inr ⟨P, _, rfl, List.reverse_perm _, rfl⟩
  · exact .inl rfl

/-- The schema parsed that way. -/
def reversedSchema : PSchema := match reversedRun with | .ok P => P | _ => ⟨⟨[], .none, false, .empty⟩, []⟩

/-- The code in the order of the model, and with every order reversed. -/
def codeInOrder : List TypeDef := match generateAll sampleExt orderSchema.context with | .ok ds => ds | _ => []

/-- The code with every order reversed. -/
def codeReversed : List TypeDef := match generateAllIn sampleExt (reversedSchema.context.reordered reversedSchema.context.elements.reverse
    reversedSchema.context.namespaces.byId.reverse) (fun _ => List.reverse) with | .ok ds => ds | _ => []

/-- The hypotheses of the theorems are met by another order in every place: the definitions of the included file, all definitions, the
namespaces, and the variants. -/
example : parseFile sampleExt orderFiles 2 c!"main.xsd" = .ok orderSchema ∧
    Runs sampleExt orderFiles 2 c!"main.xsd" Namespaces.empty [] (.ok reversedSchema) ∧
    reversedSchema.context.elements ≠ orderSchema.context.elements ∧
    generateAll sampleExt orderSchema.context = .ok codeInOrder ∧
    generateAllIn sampleExt (reversedSchema.context.reordered reversedSchema.context.elements.reverse
      reversedSchema.context.namespaces.byId.reverse) (fun _ => List.reverse) = .ok codeReversed ∧
    (codeInOrder.map TypeDef.ident).Nodup ∧ codeInOrder.map TypeDef.nss ≠ codeReversed.map TypeDef.nss ∧
    codeInOrder.length = 3 := by
  refine ⟨by decide +kernel, ?_, by decide +kernel, by decide +kernel, by decide +kernel, by decide +kernel, by decide +kernel, by decide +kernel⟩
  have := reversedRun_runs
  rwa [show reversedRun = .ok reversedSchema by decide +kernel] at this

example : orderSchema.context.DistinctValues := by
  intro n ns h
  have h1 := alookup_mem h
  have h2 : ∀ p ∈ orderSchema.context.elements, ∀ ns, p.2 = .enum ns → (ns.map Name.name).Nodup := by
    have h3 : (orderSchema.context.elements.all fun p => match p.2 with | .enum ns => decide (ns.map Name.name).Nodup | _ => true) = true := by
      decide +kernel
    intro p hp ns he
    have h4 := List.all_eq_true.1 h3 p hp
    rw [he] at h4
    exact of_decide_eq_true h4
  exact h2 _ h1 ns rfl

/-- `<xs:simpleType name="E">` with the value `a` twice. -/
def repeated : Files := oneFile (tDoc
  [xe c!"simpleType" [(c!"name", c!"E")] [xe c!"restriction" [(c!"base", c!"xs:string")]
     [xe c!"enumeration" [(c!"value", c!"a")] [], xe c!"enumeration" [(c!"value", c!"a")] []]]])

/-- The schema. -/
def repeatedSchema : PSchema := match parseFile sampleExt repeated 1 c!"a.xsd" with | .ok P => P | _ => ⟨⟨[], .none, false, .empty⟩, []⟩

/-- The code, with the variants in an order. -/
def repeatedCode (ord : List (Str × Str) → List (Str × Str)) : List TypeDef :=
  match generateAllIn sampleExt repeatedSchema.context (fun _ => ord) with | .ok ds => ds | _ => []

/-- `<E>a</E>`. -/
def repeatedDoc : Doc := ⟨(⟨⟨c!"E", some c!"urn:t"⟩, [], [], 0⟩, [.text c!"a"])⟩

/-- **C50 is false in general**: a value that occurs twice in an enumeration is read as one variant or the other. -/
theorem C50_false : ∃ (F : Files) (P : PSchema) (ord ord' : List (Str × Str) → List (Str × Str)) (ds ds' : List TypeDef) (d : Doc) (v v' : Val),
    parseFile sampleExt F 1 c!"a.xsd" = .ok P ∧ (∀ m, (ord m).Perm m) ∧ (∀ m, (ord' m).Perm m) ∧
    generateAllIn sampleExt P.context (fun _ => ord) = .ok ds ∧ generateAllIn sampleExt P.context (fun _ => ord') = .ok ds' ∧
    fromXml sampleExt cursorOps ds 2 c!"E" d = .ok v ∧ fromXml sampleExt cursorOps ds' 2 c!"E" d = .ok v' ∧ v ≠ v' := by
  refine ⟨repeated, repeatedSchema, id, List.reverse, repeatedCode id, repeatedCode List.reverse, repeatedDoc, .enumv c!"A", .enumv c!"Variant1",
    by decide +kernel, fun m => .refl _, fun m => List.reverse_perm m, by decide +kernel, by decide +kernel, rfl, rfl, ?_⟩
  intro h
  exact absurd (Val.enumv.inj h) (by decide)

end SchemaSample

end Xsd
