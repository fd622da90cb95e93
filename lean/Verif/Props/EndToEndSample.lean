import Verif.Props.EndToEnd
import Verif.Props.LegalSample
import Verif.Props.CompilesSample
/-!
# Concrete cases for `Verif/Props/EndToEnd.lean`
-/
namespace Xsd.Flat.Sample
open SchemaSample

/-- `types.xsd` -/
def types : XDoc := xdoc (schemaElem [(some c!"xs", nsXsd), (some c!"u", c!"urn:t")]
  [(c!"targetNamespace", c!"urn:t"), (c!"elementFormDefault", c!"qualified")]
  [xe c!"complexType" [(c!"name", c!"City")]
     [xe c!"sequence" [] [xe c!"element" [(c!"name", c!"zip"), (c!"type", c!"xs:string")] []],
      xe c!"attribute" [(c!"name", c!"country"), (c!"type", c!"u:Country")] []],
   xe c!"simpleType" [(c!"name", c!"Country")] [xe c!"restriction" [(c!"base", c!"xs:string")]
     [xe c!"enumeration" [(c!"value", c!"de")] [], xe c!"enumeration" [(c!"value", c!"fr")] []]]])

/-- `main.xsd` -/
def main : XDoc := xdoc (schemaElem [(some c!"xs", nsXsd), (some c!"t", c!"urn:t"), (some c!"m", c!"urn:m")]
  [(c!"targetNamespace", c!"urn:m"), (c!"elementFormDefault", c!"qualified")]
  [xe c!"import" [(c!"schemaLocation", c!"types.xsd")] [],
   xe c!"element" [(c!"name", c!"list"), (c!"type", c!"m:Order")] [],
   xe c!"complexType" [(c!"name", c!"Order")]
     [xe c!"sequence" []
        [xe c!"element" [(c!"name", c!"to"), (c!"type", c!"t:City")] [],
         xe c!"element" [(c!"name", c!"note"), (c!"type", c!"xs:string"), (c!"minOccurs", c!"0"), (c!"maxOccurs", c!"3")] [],
         xe c!"element" [(c!"name", c!"part"), (c!"type", c!"m:Order"), (c!"minOccurs", c!"0"), (c!"maxOccurs", c!"unbounded")] []],
      xe c!"attribute" [(c!"name", c!"id"), (c!"type", c!"xs:int"), (c!"use", c!"required")] []]])

/-- The two files, in one directory. -/
def both : Files where
  read p := if p = c!"main.xsd" then some (.doc main) else if p = c!"types.xsd" then some (.doc types) else none
  parent _ := []
  push _ l := l

/-- The schema. -/
def parsed : PSchema := match parseFile sampleExt both 2 c!"main.xsd" with | .ok P => P | _ => ⟨⟨[], .none, false, .empty⟩, []⟩

theorem both_parsed : parseFile sampleExt both 2 c!"main.xsd" = .ok parsed := by decide +kernel

theorem both_read {q : Str} {d : XDoc} (h : Reads both c!"main.xsd" q d) : d = main ∨ d = types := by
  have hf : ∀ q d, both.read q = some (.doc d) → d = main ∨ d = types := by
    intro q d h
    unfold both at h
    dsimp only at h
    split at h
    · cases h; exact .inl rfl
    · split at h
      · cases h; exact .inr rfl
      · cases h
  exact hf q d (by cases h <;> assumption)

theorem laws : ExtLaws sampleExt where
  snake := sampleExt_snakeAscii
  names := sampleExt_nameLaws
  nums := Xsd.Sample.numLaws
  variants n := by
    have h : (showNat n).all (fun c => c.isAlphanum || c == '_') = true := by
      refine List.all_eq_true.2 fun c hc => ?_
      obtain ⟨d, hd, rfl⟩ := showNat_all_digits _ _ c hc
      clear hc
      revert d
      decide
    show ((c!"Variant" ++ showNat n) != [] && (c!"Variant" ++ showNat n).all (fun c => c.isAlphanum || c == '_')) = true
    rw [List.all_append, h]
    rfl

/-! ## The declarations -/

instance {v p n : Str} : Decidable (Prefixed v p n) := by unfold Prefixed; infer_instance
instance {d : XDoc} : Decidable (Qualified d) := by unfold Qualified; infer_instance


/-- The names. -/
abbrev nList : QName := ⟨c!"list", some c!"urn:m"⟩
abbrev nOrder : QName := ⟨c!"Order", some c!"urn:m"⟩
abbrev nCity : QName := ⟨c!"City", some c!"urn:t"⟩
abbrev nCountry : QName := ⟨c!"Country", some c!"urn:t"⟩

/-- `Order` -/
def order : Def := .record (.elements
  [⟨⟨c!"to", some c!"urn:m"⟩, .own nCity, 1, .number 1⟩, ⟨⟨c!"note", some c!"urn:m"⟩, .builtin .string, 0, .number 3⟩,
   ⟨⟨c!"part", some c!"urn:m"⟩, .own nOrder, 0, .unbounded⟩]) [⟨c!"id", .builtin .int32, true⟩]
/-- `City` -/
def city : Def := .record (.elements [⟨⟨c!"zip", some c!"urn:t"⟩, .builtin .string, 1, .number 1⟩]) [⟨c!"country", .own nCountry, false⟩]

theorem ref {root : ElemInfo} {v : Str} (p n u : Str) (h : Prefixed v p n ∧ (some p, u) ∈ root.nss) : RefersTo root v ⟨n, some u⟩ := .pfx h.1 h.2

theorem main_list : TopLevel main (xn c!"element" [(c!"name", c!"list"), (c!"type", c!"m:Order")] []) (.sameAs nOrder) :=
  .typed (ty := .own nOrder) rfl (.own rfl (ref c!"m" c!"Order" c!"urn:m" (by decide +kernel)) (by decide))

theorem main_order : TopLevel main (Nd.of (elemKids main.root.2)[2]) order := by
  refine .complexType rfl (.elements (.head _) rfl (parseMinOccurs_minOf (by decide +kernel)) (parseMaxOccurs_maxOf (by decide +kernel))
    (by decide +kernel) ?_ ?_)
  · refine .cons (.typed (by decide +kernel) (by decide +kernel) (by decide +kernel)
      (.own (v := c!"t:City") (by decide +kernel) (ref c!"t" c!"City" c!"urn:t" (by decide +kernel)) (by decide)) (.qualified (by decide +kernel))
      (parseMinOccurs_minOf (by decide +kernel)) (parseMaxOccurs_maxOf (by decide +kernel))) ?_
    refine .cons (.typed (by decide +kernel) (by decide +kernel) (by decide +kernel)
      (.builtin (v := c!"xs:string") (by decide +kernel) ⟨c!"string", ref c!"xs" c!"string" nsXsd (by decide +kernel), by decide +kernel⟩ (by decide +kernel))
      (.qualified (by decide +kernel)) (parseMinOccurs_minOf (by decide +kernel)) (parseMaxOccurs_maxOf (by decide +kernel))) ?_
    refine .cons (.typed (by decide +kernel) (by decide +kernel) (by decide +kernel)
      (.own (v := c!"m:Order") (by decide +kernel) (ref c!"m" c!"Order" c!"urn:m" (by decide +kernel)) (by decide)) (.qualified (by decide +kernel))
      (parseMinOccurs_minOf (by decide +kernel)) (parseMaxOccurs_maxOf (by decide +kernel))) .nil
  · exact .cons (.typed (by decide +kernel) (by decide +kernel)
      (.builtin (v := c!"xs:int") (by decide +kernel) ⟨c!"int", ref c!"xs" c!"int" nsXsd (by decide +kernel), by decide +kernel⟩ (by decide +kernel))
      (by decide +kernel)) .nil

theorem types_city : TopLevel types (Nd.of (elemKids types.root.2)[0]) city := by
  refine .complexType rfl (.elements (.head _) rfl (parseMinOccurs_minOf (by decide +kernel)) (parseMaxOccurs_maxOf (by decide +kernel))
    (by decide +kernel) ?_ ?_)
  · exact .cons (.typed (by decide +kernel) (by decide +kernel) (by decide +kernel)
      (.builtin (v := c!"xs:string") (by decide +kernel) ⟨c!"string", ref c!"xs" c!"string" nsXsd (by decide +kernel), by decide +kernel⟩ (by decide +kernel))
      (.qualified (by decide +kernel)) (parseMinOccurs_minOf (by decide +kernel)) (parseMaxOccurs_maxOf (by decide +kernel))) .nil
  · exact .cons (.typed (by decide +kernel) (by decide +kernel)
      (.own (v := c!"u:Country") (by decide +kernel) (ref c!"u" c!"Country" c!"urn:t" (by decide +kernel)) (by decide))
      (by decide +kernel)) .nil

theorem types_country : TopLevel types (Nd.of (elemKids types.root.2)[1]) (.enumeration [c!"de", c!"fr"]) := by
  refine .simpleType rfl (.enumeration (.head _) rfl ?_ nofun)
  exact .cons (by decide +kernel) (.cons (by decide +kernel) .nil)

theorem reads_main : Reads both c!"main.xsd" c!"main.xsd" main := .here rfl
theorem reads_types : Reads both c!"main.xsd" c!"types.xsd" types :=
  .there (c := Nd.of (elemKids main.root.2)[0]) (l := c!"types.xsd") reads_main (.head _) (.inr rfl) rfl rfl

/-- The top-level nodes of the two files. -/
theorem nodes {p : Str} {d : XDoc} {c : Nd} (hr : Reads both c!"main.xsd" p d) (hc : c ∈ (Nd.of d.root).xsdKids)
    (hk : (topKind c.name).isSome = true) : (d = main ∧ c = Nd.of (elemKids main.root.2)[1]) ∨ (d = main ∧ c = Nd.of (elemKids main.root.2)[2]) ∨
      (d = types ∧ c = Nd.of (elemKids types.root.2)[0]) ∨ (d = types ∧ c = Nd.of (elemKids types.root.2)[1]) := by
  rcases both_read hr with rfl | rfl
  · cases hc with
    | head => cases hk
    | tail _ hc => cases hc with
      | head => exact .inl ⟨rfl, rfl⟩
      | tail _ hc => cases hc with
        | head => exact .inr (.inl ⟨rfl, rfl⟩)
        | tail _ hc => cases hc
  · cases hc with
    | head => exact .inr (.inr (.inl ⟨rfl, rfl⟩))
    | tail _ hc => cases hc with
      | head => exact .inr (.inr (.inr ⟨rfl, rfl⟩))
      | tail _ hc => cases hc

theorem forms : FlatForms sampleExt both c!"main.xsd" where
  legal := by
    refine C61_only_supported sampleExt both 2 c!"main.xsd" parsed ?_ both_parsed
    intro q d h
    rcases both_read h with rfl | rfl <;> decide +kernel
  files p d hr := by
    rcases both_read hr with rfl | rfl
    · refine ⟨by decide +kernel, asciiNode_sound (by decide +kernel), ?_, ?_, by decide +kernel⟩
      · intro u hu
        simp [main, xdoc, schemaElem] at hu
      · intro p u hu
        simp [main, xdoc, schemaElem] at hu
        rcases hu with ⟨_, rfl⟩ | ⟨_, rfl⟩ | ⟨_, rfl⟩ <;> decide
    · refine ⟨by decide +kernel, asciiNode_sound (by decide +kernel), ?_, ?_, by decide +kernel⟩
      · intro u hu
        simp [types, xdoc, schemaElem] at hu
      · intro p u hu
        simp [types, xdoc, schemaElem] at hu
        rcases hu with ⟨_, rfl⟩ | ⟨_, rfl⟩ <;> decide
  flat p d hr c hc hk := by
    rcases nodes hr hc hk with ⟨rfl, rfl⟩ | ⟨rfl, rfl⟩ | ⟨rfl, rfl⟩ | ⟨rfl, rfl⟩
    · exact ⟨_, main_list⟩
    · exact ⟨_, main_order⟩
    · exact ⟨_, types_city⟩
    · exact ⟨_, types_country⟩
  unique p d p' d' hr hr' c hc c' hc' hk hk' n n' hn hn' he := by
    rcases nodes hr hc hk with ⟨rfl, rfl⟩ | ⟨rfl, rfl⟩ | ⟨rfl, rfl⟩ | ⟨rfl, rfl⟩ <;>
      rcases nodes hr' hc' hk' with ⟨rfl, rfl⟩ | ⟨rfl, rfl⟩ | ⟨rfl, rfl⟩ | ⟨rfl, rfl⟩ <;>
      first
        | exact ⟨rfl, rfl⟩
        | (cases Option.some.inj hn; cases Option.some.inj hn'; exact absurd he (by decide +kernel))

theorem comp_list : Component both c!"main.xsd" nList (.sameAs nOrder) := .mk reads_main (.tail _ (.head _)) rfl rfl main_list
theorem comp_order : Component both c!"main.xsd" nOrder order := .mk reads_main (.tail _ (.tail _ (.head _))) rfl rfl main_order
theorem comp_city : Component both c!"main.xsd" nCity city := .mk reads_types (.head _) rfl rfl types_city
theorem comp_country : Component both c!"main.xsd" nCountry (.enumeration [c!"de", c!"fr"]) :=
  .mk reads_types (.tail _ (.head _)) rfl rfl types_country

/-- All components. -/
theorem components {q : QName} {D : Def} (h : Component both c!"main.xsd" q D) :
    (q = nList ∧ D = .sameAs nOrder) ∨ (q = nOrder ∧ D = order) ∨ (q = nCity ∧ D = city) ∨ (q = nCountry ∧ D = .enumeration [c!"de", c!"fr"]) := by
  have hu : ∀ {D'}, Component both c!"main.xsd" q D' → D = D' := fun h' => forms.unique_def both_parsed h h'
  cases h with
  | mk hr hc hk hn hD =>
    rcases nodes hr hc hk with ⟨rfl, rfl⟩ | ⟨rfl, rfl⟩ | ⟨rfl, rfl⟩ | ⟨rfl, rfl⟩ <;> cases Option.some.inj hn
    · exact .inl ⟨rfl, hu comp_list⟩
    · exact .inr (.inl ⟨rfl, hu comp_order⟩)
    · exact .inr (.inr (.inl ⟨rfl, hu comp_city⟩))
    · exact .inr (.inr (.inr ⟨rfl, hu comp_country⟩))

instance {x : Ext} {w : Str} : Decidable (Usable x w) := by unfold Usable; infer_instance

theorem supported {q : QName} {D : Def} (h : Component both c!"main.xsd" q D) : Supported sampleExt both c!"main.xsd" q D := by
  rcases components h with ⟨rfl, rfl⟩ | ⟨rfl, rfl⟩ | ⟨rfl, rfl⟩ | ⟨rfl, rfl⟩
  · refine ⟨by decide +kernel, fun _ => by decide +kernel, ?_, nofun, nofun, nofun, nofun⟩
    intro q' he
    cases he
    exact ⟨_, comp_order, trivial⟩
  · refine ⟨by decide +kernel, fun h => absurd trivial h, nofun, nofun, ?_, ?_, ?_⟩
    · intro c as he
      cases he
      decide +kernel
    · intro ls as he
      cases he
      intro l hl
      simp only [List.mem_cons, List.not_mem_nil, or_false] at hl
      rcases hl with rfl | rfl | rfl
      · exact ⟨by decide, fun q' he => by cases he; exact ⟨_, comp_city, nofun⟩⟩
      · exact ⟨by decide, nofun⟩
      · exact ⟨by decide, fun q' he => by cases he; exact ⟨_, comp_order, nofun⟩⟩
    · intro c as he
      cases he
      intro a ha
      cases List.mem_singleton.1 ha
      exact ⟨by decide, by decide, nofun⟩
  · refine ⟨by decide +kernel, fun h => absurd trivial h, nofun, nofun, ?_, ?_, ?_⟩
    · intro c as he
      cases he
      decide +kernel
    · intro ls as he
      cases he
      intro l hl
      cases List.mem_singleton.1 hl
      exact ⟨by decide, nofun⟩
    · intro c as he
      cases he
      intro a ha
      cases List.mem_singleton.1 ha
      exact ⟨by decide, by decide, fun q' he => by cases he; exact ⟨_, comp_country, .inr ⟨_, rfl⟩⟩⟩
  · refine ⟨by decide +kernel, fun h => absurd trivial h, nofun, ?_, nofun, nofun, nofun⟩
    intro vs he
    cases he
    decide +kernel

/-- `Order` holds no `Order`, only a list. -/
theorem sized : WellFounded (InsideOf both c!"main.xsd") := by
  refine Subrelation.wf (r := InvImage (· < ·) (fun q : QName => if q = nList then 2 else if q = nOrder then 1 else 0)) ?_ (InvImage.wf _ Nat.lt_wfRel.wf)
  intro q' q h
  cases h with
  | sameAs h =>
    rcases components h with ⟨rfl, he⟩ | ⟨rfl, he⟩ | ⟨rfl, he⟩ | ⟨rfl, he⟩ <;> cases he
    show _ < _
    decide +kernel
  | element h hl ht hmx =>
    rcases components h with ⟨rfl, he⟩ | ⟨rfl, he⟩ | ⟨rfl, he⟩ | ⟨rfl, he⟩ <;> cases he
    · simp only [List.mem_cons, List.not_mem_nil, or_false] at hl
      rcases hl with rfl | rfl | rfl
      · cases ht
        show _ < _
        decide +kernel
      · cases ht
      · rcases hmx with h | h <;> cases h
    · cases List.mem_singleton.1 hl
      cases ht

/-- The files are files of records. -/
theorem flatFile : FlatFile sampleExt both c!"main.xsd" where
  toFlatForms := forms
  qualified d hd hq ht p' d' hr := by
    rcases both_read hr with rfl | rfl <;> exact ⟨by decide +kernel, by decide +kernel⟩
  components q D h := supported h
  sized := sized

/-! ## A valid document -/

/-- An element of the document. -/
def el (n u : Str) (attrs : List (Str × Str)) (kids : List XNode) : Elem :=
  (⟨⟨n, some u⟩, attrs.map (fun p => ⟨p.1, none, p.2, 0⟩), [], 0⟩, kids)

/-- `<to country="de"><zip>…</zip></to>` -/
def town (zip : Str) : Elem := el c!"to" c!"urn:m" [(c!"country", c!"de")]
  [.elem (el c!"zip" c!"urn:t" [] [.text zip]).1 [.text zip]]

/-- A list with two notes and a part. -/
def docList : Elem := el c!"list" c!"urn:m" [(c!"id", c!"7")]
  [.elem (town c!"20095").1 (town c!"20095").2,
   .elem (el c!"note" c!"urn:m" [] []).1 [.text c!"first"],
   .elem (el c!"note" c!"urn:m" [] []).1 [],
   .elem (el c!"part" c!"urn:m" [(c!"id", c!"-8")] []).1 [.elem (town c!"80331").1 (town c!"80331").2]]

theorem town_valid (zip : Str) : ValidTyp sampleExt both c!"main.xsd" false Occurs (.own nCity) (town zip) := by
  refine .own comp_city (.record ?_ (.elements (es := elemKids (town zip).2) (List.append_nil _).symm (fun _ => rfl) ?_))
  · intro a ha
    cases List.mem_singleton.1 ha
    exact .present (s := c!"de") rfl (.enumeration comp_country (by decide))
  · refine .cons (es := elemKids (town zip).2) (es' := []) ?_ ?_ ⟨Nat.le_refl 1, fun m hm => by cases hm; exact Nat.le_refl 1⟩ .nil
    · intro e he
      cases List.mem_singleton.1 he
      rfl
    · intro e he
      cases List.mem_singleton.1 he
      exact .builtin (.some rfl) ⟨_, rfl⟩

/-- The attribute `id`. -/
theorem id_valid {e : Elem} {s : Str} (hs : attrOf e.1 c!"id" = some s) (hl : Lexical sampleExt .int32 s) :
    ∀ a ∈ [(⟨c!"id", .builtin .int32, true⟩ : AttributeDecl)], ValidAttribute sampleExt both c!"main.xsd" false a e.1 := by
  intro a ha
  cases List.mem_singleton.1 ha
  exact .present hs (.builtin hl)

theorem doc_valid : ValidDocument sampleExt both c!"main.xsd" false Occurs nList (.sameAs nOrder) docList := by
  refine ⟨rfl, .sameAs comp_order (.record (id_valid (s := c!"7") rfl ⟨.int 7, rfl⟩)
    (.elements (es := elemKids docList.2) (List.append_nil _).symm (fun _ => rfl) ?_))⟩
  refine .cons (es := [town c!"20095"]) (fun e he => by cases List.mem_singleton.1 he; rfl)
    (fun e he => by cases List.mem_singleton.1 he; exact town_valid _) ⟨by decide, fun m hm => by cases hm; decide⟩ ?_
  refine .cons (es := [(el c!"note" c!"urn:m" [] [.text c!"first"]), el c!"note" c!"urn:m" [] []]) ?_ ?_ ⟨by decide, fun m hm => by cases hm; decide⟩ ?_
  · intro e he
    simp only [List.mem_cons, List.not_mem_nil, or_false] at he
    rcases he with rfl | rfl <;> rfl
  · intro e he
    simp only [List.mem_cons, List.not_mem_nil, or_false] at he
    rcases he with rfl | rfl
    · exact .builtin (.some rfl) ⟨_, rfl⟩
    · exact .builtin (.none rfl) ⟨_, rfl⟩
  refine .cons (es := [el c!"part" c!"urn:m" [(c!"id", c!"-8")] [.elem (town c!"80331").1 (town c!"80331").2]]) (es' := [])
    (fun e he => by cases List.mem_singleton.1 he; rfl) ?_ ⟨by decide, nofun⟩ .nil
  intro e he
  cases List.mem_singleton.1 he
  refine .own comp_order (.record (id_valid (s := c!"-8") rfl ⟨.int (-8), rfl⟩)
    (.elements (es := [town c!"80331"]) (js := []) rfl (fun _ => rfl) ?_))
  refine .cons (es := [town c!"80331"]) (es' := []) (fun e he => by cases List.mem_singleton.1 he; rfl)
    (fun e he => by cases List.mem_singleton.1 he; exact town_valid _) ⟨by decide, fun m hm => by cases hm; decide⟩ ?_
  refine .cons (es := []) (es' := []) nofun nofun ⟨by decide, fun m hm => by cases hm; decide⟩ ?_
  exact .cons (es := []) (es' := []) nofun nofun ⟨by decide, nofun⟩ .nil

/-- `C63_partial` applies: this document is read, and written again. -/
example : ∃ k P ds i v evs e, parseFile sampleExt both k c!"main.xsd" = .ok P ∧ generateAll sampleExt P.context = .ok ds ∧
    TypeOf sampleExt nList i ∧ FromXml sampleExt ds i ⟨docList⟩ (.ok v) ∧ ToXml sampleExt ds i v (.ok evs) ∧ buildDoc evs = some e ∧
    ValidDocument sampleExt both c!"main.xsd" false Occurs nList (.sameAs nOrder) e := by
  obtain ⟨k, P, ds, h1, h2, _, h3⟩ := C63_partial laws flatFile
  obtain ⟨i, h4, _, h5, _⟩ := h3 _ _ comp_list
  obtain ⟨v, h6, _, evs, e, h7, h8, h9, _⟩ := h5 Occurs (.head _) ⟨docList⟩ doc_valid
  exact ⟨k, P, ds, i, v, evs, e, h1, h2, h4, h6, h7, h8, h9⟩

/-- Not every document is valid, even with anything after the declared content: this is not a country. -/
example : ¬ ValidDocument sampleExt both c!"main.xsd" true OccursLoosely nCountry (.enumeration [c!"de", c!"fr"])
    (el c!"Country" c!"urn:t" [] [.text c!"se"]) := by
  rintro ⟨_, h⟩
  cases h with
  | enumeration ht h =>
    cases ht with
    | none h' => cases h'
    | some h' => cases h'; revert h; decide
    | more _ h' => cases h'; revert h; decide

end Xsd.Flat.Sample
