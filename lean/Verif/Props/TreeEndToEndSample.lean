import Verif.Conformance.Documents
import Verif.Props.EndToEndSample
/-!
# A concrete case for `Verif/Props/TreeEndToEnd.lean`

See also `Verif/Conformance/Documents.lean`.
-/
namespace Xsd.Tree.Sample
open SchemaSample Conformance
open Xsd.Flat.Sample (el)
open Xsd.Flat (RefersTo)

/-- A schema file: an element with an anonymous type, with a repeated choice between an element and a group; and an extension. -/
def shop : XDoc := xdoc (schemaElem [(some c!"xs", nsXsd), (some c!"t", c!"urn:o")]
  [(c!"targetNamespace", c!"urn:o"), (c!"elementFormDefault", c!"qualified")]
  [xe c!"element" [(c!"name", c!"order")] [xe c!"complexType" []
     [xe c!"sequence" []
        [xe c!"element" [(c!"name", c!"title"), (c!"type", c!"xs:string")] [],
         xe c!"choice" [(c!"minOccurs", c!"0"), (c!"maxOccurs", c!"unbounded")]
           [xe c!"element" [(c!"name", c!"note"), (c!"type", c!"xs:string")] [],
            xe c!"sequence" []
              [xe c!"element" [(c!"name", c!"sku"), (c!"type", c!"xs:string")] [],
               xe c!"element" [(c!"name", c!"count"), (c!"type", c!"xs:int")] []]],
         xe c!"element" [(c!"name", c!"payer"), (c!"type", c!"t:Company")] []],
      xe c!"attribute" [(c!"name", c!"id"), (c!"type", c!"xs:int"), (c!"use", c!"required")] []]],
   xe c!"complexType" [(c!"name", c!"Party")]
     [xe c!"sequence" [] [xe c!"element" [(c!"name", c!"label"), (c!"type", c!"xs:string")] []]],
   xe c!"complexType" [(c!"name", c!"Company")] [xe c!"complexContent" [] [xe c!"extension" [(c!"base", c!"t:Party")]
     [xe c!"sequence" [] [xe c!"element" [(c!"name", c!"vat"), (c!"type", c!"xs:string"), (c!"minOccurs", c!"0")] []],
      xe c!"attribute" [(c!"name", c!"kind")] [xe c!"simpleType" [] [xe c!"restriction" [(c!"base", c!"xs:string")]
        [xe c!"enumeration" [(c!"value", c!"small")] [], xe c!"enumeration" [(c!"value", c!"big")] []]]]]]]])

/-- It meets the requirements. -/
theorem shop_meets : Meets sampleExt (oneFile shop) c!"a.xsd" [c!"order"] := meetsB_sound (k := 9) (by decide +kernel)

/-! ## A valid document -/

abbrev files : Files := oneFile shop
abbrev main : Str := c!"a.xsd"

theorem reads_shop : Reads files main main shop := .here rfl

/-- The `n`-th child. -/
abbrev kid (nd : Nd) (n : Nat) : Nd := nd.xsdKids.getD n (Nd.of shop.root)

abbrev root : Nd := Nd.of shop.root
abbrev qOrder : QName := ⟨c!"order", some c!"urn:o"⟩
abbrev qParty : QName := ⟨c!"Party", some c!"urn:o"⟩
abbrev qCompany : QName := ⟨c!"Company", some c!"urn:o"⟩

theorem top_order : Top files main qOrder shop (kid root 0) := .mk reads_shop (.head _) rfl rfl
theorem top_party : Top files main qParty shop (kid root 1) := .mk reads_shop (.tail _ (.head _)) rfl rfl
theorem top_company : Top files main qCompany shop (kid root 2) := .mk reads_shop (.tail _ (.tail _ (.head _))) rfl rfl

theorem ref {v : Str} (p n u : Str) (h : Prefixed v p n ∧ (some p, u) ∈ shop.root.1.nss) : RefersTo shop.root.1 v ⟨n, some u⟩ := .pfx h.1 h.2

/-- A text element. -/
def txt (n s : Str) : Elem := el n c!"urn:o" [] [.text s]

/-- `<payer kind="big"><label>…</label></payer>` -/
def payer (s : Str) : Elem := el c!"payer" c!"urn:o" [(c!"kind", c!"big")] [.elem (txt c!"label" s).1 (txt c!"label" s).2]

/-- The document: a note, then an item, then the payer. -/
def order : Elem := el c!"order" c!"urn:o" [(c!"id", c!"7")] ([txt c!"title" c!"first", txt c!"note" c!"urgent", txt c!"sku" c!"a-1", txt c!"count" c!"3",
  payer c!"me"].map (fun e => .elem e.1 e.2))

/-- Exactly once. -/
theorem once {p : Nd} {es : List Elem} (h0 : parseMinOccurs (p.attr c!"minOccurs") = .ok 1) (h1 : parseMaxOccurs (p.attr c!"maxOccurs") = .ok (.number 1))
    (h : VOne sampleExt files main false OccursTidy shop p es) : VOcc sampleExt files main false OccursTidy shop p es := by
  refine .mk (n := 1) ?_ ⟨1, .number 1, parseMinOccurs_minOf h0, parseMaxOccurs_maxOf h1, Nat.le_refl 1, fun m hm => by cases hm; exact Nat.le_refl 1⟩
  have := VMany.succ (hs := VMany.zero) h
  rwa [List.append_nil] at this

/-- A text element is valid. -/
theorem text_valid {p : Nd} (n s ty : Str) (t : LiteralType)
    (h : p.name = c!"element" ∧ p.value c!"ref" = none ∧ p.value c!"name" = some n ∧ p.value c!"type" = some ty ∧ p.value c!"fixed" = none)
    (hp : Prefixed ty c!"xs" (ty.drop 3)) (hb : (ty.drop 3, t) ∈ builtin) (hl : Flat.Lexical sampleExt t s) :
    VOne sampleExt files main false OccursTidy shop p [txt n s] :=
  .element (es := []) (js := []) h.1 h.2.1 h.2.2.1 (.qualified (by decide +kernel)) rfl rfl (fun _ => rfl)
    (.typed h.1 (.builtin h.2.2.2.1 ⟨_, .pfx hp (.head _), hb⟩ h.2.2.2.2) (.builtin (.some rfl) hl))

instance {v p n : Str} : Decidable (Prefixed v p n) := by unfold Prefixed; infer_instance

theorem party_valid (s : Str) : VTyp sampleExt files main false OccursTidy (.own qParty) (payer s) [txt c!"label" s] := by
  refine .own top_party (by decide +kernel) (.complex (by decide +kernel) (.group (c := kid (kid root 1) 0) (.head _) (.inl (by decide +kernel)) ?_ ?_))
  · have : Flat.attributeNodes (kid root 1) = [] := by decide +kernel
    rw [this]
    exact nofun
  · refine once (by decide +kernel) (by decide +kernel) (.sequence (by decide +kernel) ?_)
    exact .cons (es := [_]) (es' := []) (once (by decide +kernel) (by decide +kernel)
      (text_valid c!"label" s c!"xs:string" .string (by decide +kernel) (by decide +kernel) (by decide +kernel) ⟨_, rfl⟩)) .nil

theorem payer_valid (s : Str) : VTyp sampleExt files main false OccursTidy (.own qCompany) (payer s) [txt c!"label" s] := by
  have hq : RefersTo shop.root.1 c!"t:Party" qParty := ref c!"t" c!"Party" c!"urn:o" (by decide +kernel)
  refine .own top_company (by decide +kernel) (.complex (by decide +kernel) (.extension (es := [_]) (es' := []) (c := kid (kid root 2) 0) (r := kid (kid (kid root 2) 0) 0)
    (g := kid (kid (kid (kid root 2) 0) 0) 0)
    (.head _) (by decide +kernel) (.head _) (by decide +kernel) (.own (v := c!"t:Party") (by decide +kernel) hq (by decide)) ?_ (.head _) (by decide +kernel)
    (party_valid s) ?_))
  · intro a ha
    have : a = kid (kid (kid (kid root 2) 0) 0) 1 := List.mem_singleton.1 ha
    subst this
    exact .present (n := c!"kind") (s := c!"big") (by decide +kernel) rfl (.simple (.head _) (by decide +kernel)
      (.enumeration (vs := [c!"small", c!"big"]) (.enumeration (.head _) rfl (.cons (by decide +kernel) (.cons (by decide +kernel) .nil)) nofun) (by decide)))
  · refine once (by decide +kernel) (by decide +kernel) (.sequence (by decide +kernel) ?_)
    refine .cons (es := []) (es' := []) (.mk .zero ?_) .nil
    exact ⟨0, .number 1, parseMinOccurs_minOf (by decide +kernel), parseMaxOccurs_maxOf (by decide +kernel), Nat.le_refl 0, fun m hm => Nat.zero_le _⟩

theorem order_valid : ValidDoc sampleExt files main false OccursTidy qOrder order := by
  refine .mk (es := elemKids order.2) (js := []) top_order rfl (List.append_nil _).symm (fun _ => rfl) ?_
  refine .inline (c := kid (kid root 0) 0) (by decide +kernel) (by decide +kernel) (.head _) (.inl (by decide +kernel)) (.complex (by decide +kernel) ?_)
  refine .group (c := kid (kid (kid root 0) 0) 0) (.head _) (.inl (by decide +kernel)) ?_ ?_
  · intro a ha
    have : a = kid (kid (kid root 0) 0) 1 := List.mem_singleton.1 ha
    subst this
    exact .present (n := c!"id") (s := c!"7") (by decide +kernel) rfl (.typed (by decide +kernel)
      (.builtin (v := c!"xs:int") (t := .int32) (by decide +kernel) ⟨c!"int", ref c!"xs" c!"int" nsXsd (by decide +kernel), by decide +kernel⟩ (by decide +kernel))
      (.builtin ⟨.int 7, rfl⟩))
  · refine once (by decide +kernel) (by decide +kernel) (.sequence (by decide +kernel) ?_)
    refine .cons (es := [txt c!"title" c!"first"]) (once (by decide +kernel) (by decide +kernel)
      (text_valid c!"title" c!"first" c!"xs:string" .string (by decide +kernel) (by decide +kernel) (by decide +kernel) ⟨_, rfl⟩)) ?_
    refine .cons (es := [txt c!"note" c!"urgent", txt c!"sku" c!"a-1", txt c!"count" c!"3"]) (.mk (n := 2) ?_
      ⟨0, .unbounded, parseMinOccurs_minOf (by decide +kernel), parseMaxOccurs_maxOf (by decide +kernel), Nat.zero_le _, nofun⟩) ?_
    · refine .succ (es := [txt c!"note" c!"urgent"]) (.choice (by decide +kernel) (.head _) (once (by decide +kernel) (by decide +kernel)
        (text_valid c!"note" c!"urgent" c!"xs:string" .string (by decide +kernel) (by decide +kernel) (by decide +kernel) ⟨_, rfl⟩)) (fun _ => nofun)) ?_
      refine .succ (es := [txt c!"sku" c!"a-1", txt c!"count" c!"3"]) (es' := []) (.choice (by decide +kernel) (.tail _ (.head _))
        (once (by decide +kernel) (by decide +kernel) (.sequence (by decide +kernel) ?_)) (fun _ => nofun)) .zero
      refine .cons (es := [txt c!"sku" c!"a-1"]) (once (by decide +kernel) (by decide +kernel)
        (text_valid c!"sku" c!"a-1" c!"xs:string" .string (by decide +kernel) (by decide +kernel) (by decide +kernel) ⟨_, rfl⟩)) ?_
      exact .cons (es := [txt c!"count" c!"3"]) (es' := []) (once (by decide +kernel) (by decide +kernel)
        (text_valid c!"count" c!"3" c!"xs:int" .int32 (by decide +kernel) (by decide +kernel) (by decide +kernel) ⟨.int 3, rfl⟩)) .nil
    · refine .cons (es := [payer c!"me"]) (es' := []) (once (by decide +kernel) (by decide +kernel) ?_) .nil
      exact .element (es := [txt c!"label" c!"me"]) (js := []) (by decide +kernel) (by decide +kernel) (by decide +kernel) (.qualified (by decide +kernel)) rfl rfl (fun _ => rfl)
        (.typed (ty := .own qCompany) (by decide +kernel) (.own (v := c!"t:Company") (by decide +kernel) (ref c!"t" c!"Company" c!"urn:o" (by decide +kernel)) (by decide))
          (payer_valid c!"me"))

/-- `C65_partial` applies: this document is read, and written as a valid document. -/
example : ∃ k P ds i v evs e, parseFile sampleExt files k main = .ok P ∧ generateAll sampleExt P.context = .ok ds ∧ Compiles sampleExt ds ∧
    Flat.TypeOf sampleExt qOrder i ∧ FromXml sampleExt ds i ⟨order⟩ (.ok v) ∧ ToXml sampleExt ds i v (.ok evs) ∧ buildDoc evs = some e ∧
    ValidDoc sampleExt files main false OccursTidy qOrder e := by
  obtain ⟨k, P, ds, h1, h2, h3, h4, h5, _, hd⟩ := shop_meets.ex
  obtain ⟨h6, h7⟩ := C65_partial sampleExt_nameLaws Xsd.Sample.numLaws h1 h2 h3 h4 h5
  obtain ⟨n, i, hn, hs, h8, _, _, _, h9⟩ := h7 _ _ _ top_order
  obtain ⟨v, evs, e, h10, h11, h12, h13, _⟩ := (h9 (hd n hs (by rw [hn.1]; decide))).1 ⟨order⟩ order_valid
  exact ⟨k, P, ds, i, v, evs, e, h2, h4, h6, h8, h10, h11, h12, h13⟩

theorem only_shop {q : Str} {d : XDoc} (h : Reads files main q d) : d = shop := by
  have hf : ∀ q d, files.read q = some (.doc d) → d = shop := by
    intro q d h
    simp only [files, oneFile] at h
    split at h
    · cases h; rfl
    · cases h
  exact hf q d (by cases h <;> assumption)

/-- Not every document is valid, even loosely: without `id`, this one is not. -/
example : ¬ ValidDoc sampleExt files main true (Loosely false) qOrder (el c!"order" c!"urn:o" [] order.2) := by
  intro hv
  obtain @⟨d, c, es, js, ht, _, _, _, h⟩ := hv
  have attr : ∀ {e : ElemInfo}, attrOf e c!"id" = none → ¬ ValidAttr sampleExt files main true shop (kid (kid (kid root 0) 0) 1) e := by
    intro e he h
    cases h with
    | prohibited h => exact absurd h (by decide +kernel)
    | present hn h =>
      cases (show some c!"id" = some _ from hn)
      rw [he] at h
      cases h
    | missing _ _ h => exact h (by decide +kernel)
  have complex : ∀ {e : Elem} {es : List Elem}, attrOf e.1 c!"id" = none → ¬ VDefn sampleExt files main true (Loosely false) shop (kid (kid root 0) 0) e es := by
    intro e es he h
    cases h with
    | simple h => exact absurd h (by decide +kernel)
    | typed h => exact absurd h (by decide +kernel)
    | inline h => exact absurd h (by decide +kernel)
    | any h => exact absurd h (by decide +kernel)
    | complex _ h =>
      have none : ∀ c ∈ (kid (kid root 0) 0).xsdKids, c.name ≠ c!"simpleContent" ∧ c.name ≠ c!"complexContent" := by decide +kernel
      cases h with
      | empty _ ha => exact attr he (ha _ (.head _))
      | group _ _ ha => exact attr he (ha _ (.head _))
      | all _ _ _ ha => exact attr he (ha _ (.head _))
      | simpleContent hc hn => exact (none _ hc).1 hn
      | complexContent hc hn => exact (none _ hc).2 hn
      | extension hc hn => exact (none _ hc).2 hn
  generalize hq : qOrder = q at ht
  cases ht with
  | mk hr hc hk hn =>
    cases only_shop hr
    cases hq
    have hc : c = kid root 0 := by
      cases hc with
      | head => rfl
      | tail _ hc => cases hc with
        | head => exact absurd hn (by decide +kernel)
        | tail _ hc => cases hc with
          | head => exact absurd hn (by decide +kernel)
          | tail _ hc => cases hc
    subst hc
    cases h with
    | simple h => exact absurd h (by decide +kernel)
    | complex h => exact absurd h (by decide +kernel)
    | typed _ h =>
      have hn : (kid root 0).value c!"type" = none := by decide +kernel
      cases h with
      | builtin h => rw [hn] at h; cases h
      | fixed h => rw [hn] at h; cases h
      | own h => rw [hn] at h; cases h
    | any _ _ h => exact (h _ (.head _)).2 (by decide +kernel)
    | inline _ _ hc _ h =>
      have := List.mem_singleton.1 hc
      subst this
      exact complex rfl h

/-! ## Members in any order -/

/-- A schema file with an `xs:all`. -/
def place : XDoc := xdoc (schemaElem [(some c!"xs", nsXsd), (some c!"t", c!"urn:o")]
  [(c!"targetNamespace", c!"urn:o"), (c!"elementFormDefault", c!"qualified")]
  [xe c!"complexType" [(c!"name", c!"Spot")]
     [xe c!"all" []
        [xe c!"element" [(c!"name", c!"lat"), (c!"type", c!"xs:int")] [],
         xe c!"element" [(c!"name", c!"lon"), (c!"type", c!"xs:int")] [],
         xe c!"element" [(c!"name", c!"label"), (c!"type", c!"xs:string")] []]],
   xe c!"element" [(c!"name", c!"place"), (c!"type", c!"t:Spot")] []])

/-- It meets the requirements. -/
theorem place_meets : Meets sampleExt (oneFile place) main [c!"place"] := meetsB_sound (k := 9) (by decide +kernel)

abbrev qPlace : QName := ⟨c!"place", some c!"urn:o"⟩
abbrev qPlaceType : QName := ⟨c!"Spot", some c!"urn:o"⟩
abbrev pkid (nd : Nd) (n : Nat) : Nd := nd.xsdKids.getD n (Nd.of place.root)

theorem reads_place : Reads (oneFile place) main main place := .here rfl
theorem top_place : Top (oneFile place) main qPlace place (pkid (Nd.of place.root) 1) := .mk reads_place (.tail _ (.head _)) rfl rfl
theorem top_placeType : Top (oneFile place) main qPlaceType place (pkid (Nd.of place.root) 0) := .mk reads_place (.head _) rfl rfl

/-- The document, with the members in another order. -/
def placeDoc : Elem := el c!"place" c!"urn:o" [] ([txt c!"label" c!"here", txt c!"lon" c!"3", txt c!"lat" c!"7"].map (fun e => .elem e.1 e.2))

theorem place_once {p : Nd} (h0 : parseMinOccurs (p.attr c!"minOccurs") = .ok 1) (h1 : parseMaxOccurs (p.attr c!"maxOccurs") = .ok (.number 1)) :
    OccursTidy p 1 :=
  ⟨1, .number 1, parseMinOccurs_minOf h0, parseMaxOccurs_maxOf h1, Nat.le_refl 1, fun m hm => by cases hm; exact Nat.le_refl 1⟩

theorem place_text {p : Nd} (n s ty : Str) (t : LiteralType)
    (h : p.name = c!"element" ∧ p.value c!"ref" = none ∧ p.value c!"name" = some n ∧ p.value c!"type" = some ty ∧ p.value c!"fixed" = none)
    (h0 : parseMinOccurs (p.attr c!"minOccurs") = .ok 1) (h1 : parseMaxOccurs (p.attr c!"maxOccurs") = .ok (.number 1))
    (hp : Prefixed ty c!"xs" (ty.drop 3)) (hb : (ty.drop 3, t) ∈ builtin) (hl : Flat.Lexical sampleExt t s) :
    VOcc sampleExt (oneFile place) main false OccursTidy place p [txt n s] := by
  have h : VOne sampleExt (oneFile place) main false OccursTidy place p [txt n s] :=
    .element (es := []) (js := []) h.1 h.2.1 h.2.2.1 (.qualified (by decide +kernel)) rfl rfl (fun _ => rfl)
      (.typed h.1 (.builtin h.2.2.2.1 ⟨_, .pfx hp (.head _), hb⟩ h.2.2.2.2) (.builtin (.some rfl) hl))
  have := VMany.succ (hs := VMany.zero) h
  rw [List.append_nil] at this
  exact .mk this (place_once h0 h1)

theorem place_valid : ValidDoc sampleExt (oneFile place) main false OccursTidy qPlace placeDoc := by
  refine .mk (es := elemKids placeDoc.2) (js := []) top_place rfl (List.append_nil _).symm (fun _ => rfl) ?_
  refine .typed (ty := .own qPlaceType) (by decide +kernel)
    (.own (v := c!"t:Spot") (by decide +kernel) (.pfx (p := c!"t") (n := c!"Spot") (by decide +kernel) (by decide +kernel)) (by decide)) ?_
  refine .own top_placeType (by decide +kernel) (.complex (by decide +kernel) ?_)
  refine .all (c := pkid (pkid (Nd.of place.root) 0) 0) (es := [txt c!"lat" c!"7", txt c!"lon" c!"3", txt c!"label" c!"here"]) (js := [])
    (.head _) (by decide +kernel) (place_once (by decide +kernel) (by decide +kernel)) ?_ ?_ (fun _ => rfl) ?_ (fun _ => .inl ?_)
  · have : Flat.attributeNodes (pkid (Nd.of place.root) 0) = [] := by decide +kernel
    rw [this]
    exact nofun
  · refine .cons (es := [txt c!"lat" c!"7"])
      (place_text c!"lat" c!"7" c!"xs:int" .int32 (by decide +kernel) (by decide +kernel) (by decide +kernel) (by decide +kernel) (by decide +kernel) ⟨.int 7, rfl⟩) ?_
    refine .cons (es := [txt c!"lon" c!"3"])
      (place_text c!"lon" c!"3" c!"xs:int" .int32 (by decide +kernel) (by decide +kernel) (by decide +kernel) (by decide +kernel) (by decide +kernel) ⟨.int 3, rfl⟩) ?_
    exact .cons (es := [txt c!"label" c!"here"]) (es' := [])
      (place_text c!"label" c!"here" c!"xs:string" .string (by decide +kernel) (by decide +kernel) (by decide +kernel) (by decide +kernel) (by decide +kernel) ⟨_, rfl⟩) .nil
  · exact ((List.Perm.swap _ _ _).trans (.cons _ (.swap _ _ _))).trans (.swap _ _ _)
  · have h : (pkid (pkid (Nd.of place.root) 0) 0).particles.all requiredB = true := by decide +kernel
    exact fun p hp => requiredB_sound (List.all_eq_true.1 h p hp)

/-- `C65_partial` applies: this document is read, and written as a valid document. -/
example : ∃ k P ds i v evs e, parseFile sampleExt (oneFile place) k main = .ok P ∧ generateAll sampleExt P.context = .ok ds ∧ Compiles sampleExt ds ∧
    Flat.TypeOf sampleExt qPlace i ∧ FromXml sampleExt ds i ⟨placeDoc⟩ (.ok v) ∧ ToXml sampleExt ds i v (.ok evs) ∧ buildDoc evs = some e ∧
    ValidDoc sampleExt (oneFile place) main false OccursTidy qPlace e := by
  obtain ⟨k, P, ds, h1, h2, h3, h4, h5, _, hd⟩ := place_meets.ex
  obtain ⟨h6, h7⟩ := C65_partial sampleExt_nameLaws Xsd.Sample.numLaws h1 h2 h3 h4 h5
  obtain ⟨n, i, hn, hs, h8, _, _, _, h9⟩ := h7 _ _ _ top_place
  obtain ⟨v, evs, e, h10, h11, h12, h13, _⟩ := (h9 (hd n hs (by rw [hn.1]; decide))).1 ⟨placeDoc⟩ place_valid
  exact ⟨k, P, ds, i, v, evs, e, h2, h4, h6, h8, h10, h11, h12, h13⟩

/-! ## Optional members -/

/-- A schema file with an `xs:all` with an optional member. -/
def badge : XDoc := xdoc (schemaElem [(some c!"xs", nsXsd), (some c!"t", c!"urn:o")]
  [(c!"targetNamespace", c!"urn:o"), (c!"elementFormDefault", c!"qualified")]
  [xe c!"element" [(c!"name", c!"badge")] [xe c!"complexType" []
     [xe c!"all" []
        [xe c!"element" [(c!"name", c!"tag"), (c!"type", c!"xs:string"), (c!"minOccurs", c!"0")] [],
         xe c!"element" [(c!"name", c!"size"), (c!"type", c!"xs:int")] []]]]])

/-- It meets the requirements. -/
theorem badge_meets : Meets sampleExt (oneFile badge) main [c!"badge"] := meetsB_sound (k := 9) (by decide +kernel)

abbrev qBadge : QName := ⟨c!"badge", some c!"urn:o"⟩
abbrev bkid (nd : Nd) (n : Nat) : Nd := nd.xsdKids.getD n (Nd.of badge.root)

theorem reads_badge : Reads (oneFile badge) main main badge := .here rfl
theorem top_badge : Top (oneFile badge) main qBadge badge (bkid (Nd.of badge.root) 0) := .mk reads_badge (.head _) rfl rfl

abbrev badgeAll : Nd := bkid (bkid (bkid (Nd.of badge.root) 0) 0) 0

def badgeDoc : Elem := el c!"badge" c!"urn:o" [] ([txt c!"tag" c!"a", txt c!"size" c!"7"].map (fun e => .elem e.1 e.2))
def badgeBack : Elem := el c!"badge" c!"urn:o" [] ([txt c!"size" c!"7", txt c!"tag" c!"a"].map (fun e => .elem e.1 e.2))

theorem badge_doc {occ : Rule} (h1 : ∀ p, Counted p 1 → occ p 1) {ks : List XNode} (hp : [txt c!"tag" c!"a", txt c!"size" c!"7"].Perm (elemKids ks))
    (ho : occ.ordered = true → elemKids ks = [txt c!"tag" c!"a", txt c!"size" c!"7"]) :
    ValidDoc sampleExt (oneFile badge) main false occ qBadge (el c!"badge" c!"urn:o" [] ks) := by
  have one : ∀ {p : Nd} {es : List Elem}, Counted p 1 → VOne sampleExt (oneFile badge) main false occ badge p es →
      VOcc sampleExt (oneFile badge) main false occ badge p es := by
    intro p es h0 h
    have := VMany.succ (hs := VMany.zero) h
    rw [List.append_nil] at this
    exact .mk this (h1 _ h0)
  have text : ∀ {p : Nd} (n s ty : Str) (t : LiteralType),
      (p.name = c!"element" ∧ p.value c!"ref" = none ∧ p.value c!"name" = some n ∧ p.value c!"type" = some ty ∧ p.value c!"fixed" = none) →
      Prefixed ty c!"xs" (ty.drop 3) → (ty.drop 3, t) ∈ builtin → Flat.Lexical sampleExt t s → Counted p 1 →
      VOcc sampleExt (oneFile badge) main false occ badge p [txt n s] := by
    intro p n s ty t h hp hb hl h0
    exact one h0 (.element (es := []) (js := []) h.1 h.2.1 h.2.2.1 (.qualified (by decide +kernel)) rfl rfl (fun _ => rfl)
      (.typed h.1 (.builtin h.2.2.2.1 ⟨_, .pfx hp (.head _), hb⟩ h.2.2.2.2) (.builtin (.some rfl) hl)))
  refine .mk (es := elemKids ks) (js := []) top_badge rfl (List.append_nil _).symm (fun _ => rfl) ?_
  refine .inline (c := bkid (bkid (Nd.of badge.root) 0) 0) (by decide +kernel) (by decide +kernel) (.head _) (.inl (by decide +kernel)) (.complex (by decide +kernel) ?_)
  refine .all (c := badgeAll) (es := [txt c!"tag" c!"a", txt c!"size" c!"7"]) (js := []) (.head _) (by decide +kernel) (h1 _ ?_) ?_ ?_ (fun _ => rfl)
    (by rw [List.append_nil]; exact hp) fun h => .inr (by rw [List.append_nil]; exact ho h)
  · exact ⟨1, .number 1, parseMinOccurs_minOf (by decide +kernel), parseMaxOccurs_maxOf (by decide +kernel), Nat.le_refl 1, fun m hm => by cases hm; exact Nat.le_refl 1⟩
  · have : Flat.attributeNodes (bkid (bkid (Nd.of badge.root) 0) 0) = [] := by decide +kernel
    rw [this]
    exact nofun
  · refine .cons (es := [txt c!"tag" c!"a"])
      (text c!"tag" c!"a" c!"xs:string" .string (by decide +kernel) (by decide +kernel) (by decide +kernel) ⟨_, rfl⟩
        ⟨0, .number 1, parseMinOccurs_minOf (by decide +kernel), parseMaxOccurs_maxOf (by decide +kernel), Nat.zero_le _, fun m hm => by cases hm; exact Nat.le_refl 1⟩) ?_
    exact .cons (es := [txt c!"size" c!"7"]) (es' := [])
      (text c!"size" c!"7" c!"xs:int" .int32 (by decide +kernel) (by decide +kernel) (by decide +kernel) ⟨.int 7, rfl⟩
        ⟨1, .number 1, parseMinOccurs_minOf (by decide +kernel), parseMaxOccurs_maxOf (by decide +kernel), Nat.le_refl 1, fun m hm => by cases hm; exact Nat.le_refl 1⟩) .nil

/-- Both orders are valid. -/
theorem badgeBack_valid : ValidDoc sampleExt (oneFile badge) main false Occurs qBadge badgeBack :=
  badge_doc (occ := Occurs) (fun _ h => h) (.swap _ _ _) fun h => absurd h (by decide)

/-- The declared one is so in the stronger sense, -/
theorem badgeDoc_valid : ValidDoc sampleExt (oneFile badge) main false OccursTidy qBadge badgeDoc :=
  badge_doc (occ := OccursTidy) (fun _ h => h) (.refl _) fun _ => rfl

/-- and read. -/
example : ∃ k P ds i v evs e, parseFile sampleExt (oneFile badge) k main = .ok P ∧ generateAll sampleExt P.context = .ok ds ∧ Compiles sampleExt ds ∧
    Flat.TypeOf sampleExt qBadge i ∧ FromXml sampleExt ds i ⟨badgeDoc⟩ (.ok v) ∧ ToXml sampleExt ds i v (.ok evs) ∧ buildDoc evs = some e ∧
    ValidDoc sampleExt (oneFile badge) main false OccursTidy qBadge e := by
  obtain ⟨k, P, ds, h1, h2, h3, h4, h5, _, hd⟩ := badge_meets.ex
  obtain ⟨h6, h7⟩ := C65_partial sampleExt_nameLaws Xsd.Sample.numLaws h1 h2 h3 h4 h5
  obtain ⟨n, i, hn, hs, h8, _, _, _, h9⟩ := h7 _ _ _ top_badge
  obtain ⟨v, evs, e, h10, h11, h12, h13, _⟩ := (h9 (hd n hs (by rw [hn.1]; decide))).1 ⟨badgeDoc⟩ badgeDoc_valid
  exact ⟨k, P, ds, i, v, evs, e, h2, h4, h6, h8, h10, h11, h12, h13⟩

/-! ## A choice that may be empty -/

/-- A schema file with a choice of which an alternative may be empty. -/
def pick : XDoc := xdoc (schemaElem [(some c!"xs", nsXsd), (some c!"t", c!"urn:o")]
  [(c!"targetNamespace", c!"urn:o"), (c!"elementFormDefault", c!"qualified")]
  [xe c!"element" [(c!"name", c!"pick")] [xe c!"complexType" []
     [xe c!"sequence" []
        [xe c!"choice" []
          [xe c!"element" [(c!"name", c!"tag"), (c!"type", c!"xs:string"), (c!"minOccurs", c!"0"), (c!"maxOccurs", c!"unbounded")] [],
           xe c!"element" [(c!"name", c!"size"), (c!"type", c!"xs:int")] []]]]]])

/-- It meets the requirements. -/
theorem pick_meets : Meets sampleExt (oneFile pick) main [c!"pick"] := meetsB_sound (k := 9) (by decide +kernel)

abbrev qPick : QName := ⟨c!"pick", some c!"urn:o"⟩
abbrev ckid (nd : Nd) (n : Nat) : Nd := nd.xsdKids.getD n (Nd.of pick.root)

theorem reads_pick : Reads (oneFile pick) main main pick := .here rfl
theorem top_pick : Top (oneFile pick) main qPick pick (ckid (Nd.of pick.root) 0) := .mk reads_pick (.head _) rfl rfl

/-- Two tags, and nothing. -/
def twoTags : Elem := el c!"pick" c!"urn:o" [] ([txt c!"tag" c!"a", txt c!"tag" c!"b"].map (fun e => .elem e.1 e.2))
def noTags : Elem := el c!"pick" c!"urn:o" [] []

/-- The choice. -/
abbrev pickChoice : Nd := ckid (ckid (ckid (ckid (Nd.of pick.root) 0) 0) 0) 0

theorem pick_tag (occ : Rule) (s : Str) : VOne sampleExt (oneFile pick) main false occ pick (ckid pickChoice 0) [txt c!"tag" s] :=
  .element (n := c!"tag") (es := []) (js := []) (by decide +kernel) (by decide +kernel) (by decide +kernel) (.qualified (by decide +kernel)) rfl rfl (fun _ => rfl)
    (.typed (by decide +kernel) (.builtin (v := c!"xs:string") (t := .string) (by decide +kernel) ⟨_, .pfx (p := c!"xs") (n := c!"string") (by decide +kernel) (.head _),
      by decide +kernel⟩ (by decide +kernel)) (.builtin (.some rfl) ⟨_, rfl⟩))

/-- Documents are valid if their elements are in the choice. -/
theorem pick_doc {occ : Rule} (h1 : ∀ p, Counted p 1 → occ p 1) {ks : List XNode}
    (h : VOne sampleExt (oneFile pick) main false occ pick pickChoice (elemKids ks)) :
    ValidDoc sampleExt (oneFile pick) main false occ qPick (el c!"pick" c!"urn:o" [] ks) := by
  have one : ∀ {p : Nd} {es : List Elem}, parseMinOccurs (p.attr c!"minOccurs") = .ok 1 → parseMaxOccurs (p.attr c!"maxOccurs") = .ok (.number 1) →
      VOne sampleExt (oneFile pick) main false occ pick p es → VOcc sampleExt (oneFile pick) main false occ pick p es := by
    intro p es h0 hm h
    have := VMany.succ (hs := VMany.zero) h
    rw [List.append_nil] at this
    exact .mk this (h1 _ ⟨1, .number 1, parseMinOccurs_minOf h0, parseMaxOccurs_maxOf hm, Nat.le_refl 1, fun m hm => by cases hm; exact Nat.le_refl 1⟩)
  refine .mk (es := elemKids ks) (js := []) top_pick rfl (List.append_nil _).symm (fun _ => rfl) ?_
  refine .inline (c := ckid (ckid (Nd.of pick.root) 0) 0) (by decide +kernel) (by decide +kernel) (.head _) (.inl (by decide +kernel)) (.complex (by decide +kernel) ?_)
  refine .group (c := ckid (ckid (ckid (Nd.of pick.root) 0) 0) 0) (.head _) (.inl (by decide +kernel)) ?_ ?_
  · have : Flat.attributeNodes (ckid (ckid (Nd.of pick.root) 0) 0) = [] := by decide +kernel
    rw [this]
    exact nofun
  · refine one (by decide +kernel) (by decide +kernel) (.sequence (by decide +kernel) ?_)
    have := VSeq.cons (hs := VSeq.nil) (one (p := pickChoice) (by decide +kernel) (by decide +kernel) h)
    rw [List.append_nil] at this
    exact this

theorem pick_occurs (n : Nat) : Counted (ckid pickChoice 0) n :=
  ⟨0, .unbounded, parseMinOccurs_minOf (by decide +kernel), parseMaxOccurs_maxOf (by decide +kernel), Nat.zero_le _, nofun⟩

/-- With tags, the document is valid without an empty choice, so it is read. -/
theorem twoTags_valid : ValidDoc sampleExt (oneFile pick) main false OccursTidy qPick twoTags := by
  refine pick_doc (occ := OccursTidy) (fun _ h => h) (.choice (c := ckid pickChoice 0) (by decide +kernel) (.head _) ?_ fun _ => nofun)
  exact .mk (n := 2) (.succ (es := [_]) (pick_tag _ c!"a") (.succ (es := [_]) (pick_tag _ c!"b") .zero)) (pick_occurs 2)

example : ∃ k P ds i v evs e, parseFile sampleExt (oneFile pick) k main = .ok P ∧ generateAll sampleExt P.context = .ok ds ∧ Compiles sampleExt ds ∧
    Flat.TypeOf sampleExt qPick i ∧ FromXml sampleExt ds i ⟨twoTags⟩ (.ok v) ∧ ToXml sampleExt ds i v (.ok evs) ∧ buildDoc evs = some e ∧
    ValidDoc sampleExt (oneFile pick) main false OccursTidy qPick e := by
  obtain ⟨k, P, ds, h1, h2, h3, h4, h5, _, hd⟩ := pick_meets.ex
  obtain ⟨h6, h7⟩ := C65_partial sampleExt_nameLaws Xsd.Sample.numLaws h1 h2 h3 h4 h5
  obtain ⟨n, i, hn, hs, h8, _, _, _, h9⟩ := h7 _ _ _ top_pick
  obtain ⟨v, evs, e, h10, h11, h12, h13, _⟩ := (h9 (hd n hs (by rw [hn.1]; decide))).1 ⟨twoTags⟩ twoTags_valid
  exact ⟨k, P, ds, i, v, evs, e, h2, h4, h6, h8, h10, h11, h12, h13⟩

/-- Without, it is valid too, but with an empty choice. -/
theorem noTags_valid : ValidDoc sampleExt (oneFile pick) main false Occurs qPick noTags :=
  pick_doc (occ := Occurs) (ks := []) (fun _ h => h)
    (.choice (c := ckid pickChoice 0) (by decide +kernel) (.head _) (.mk .zero (pick_occurs 0)) fun h => absurd h (by decide))

theorem only_pick {q : Str} {d : XDoc} (h : Reads (oneFile pick) main q d) : d = pick := by
  have hf : ∀ q d, (oneFile pick).read q = some (.doc d) → d = pick := by
    intro q d h
    simp only [oneFile] at h
    split at h
    · cases h; rfl
    · cases h
  exact hf q d (by cases h <;> assumption)

theorem noTags_empty : ¬ ValidDoc sampleExt (oneFile pick) main true (Loosely true) qPick noTags := by
  have once : ∀ {p : Nd} {es : List Elem}, parseMinOccurs (p.attr c!"minOccurs") = .ok 1 → parseMaxOccurs (p.attr c!"maxOccurs") = .ok (.number 1) →
      VOcc sampleExt (oneFile pick) main true (Loosely true) pick p es → VOne sampleExt (oneFile pick) main true (Loosely true) pick p es := by
    intro p es h0 h1 h
    cases h with
    | mk h ho =>
      have := (ho _ _ (parseMinOccurs_minOf h0) (parseMaxOccurs_maxOf h1) (.inr rfl)).2 (by decide)
      subst this
      cases h with
      | succ h hs =>
        cases hs
        rw [List.append_nil]
        exact h
  have choice : ∀ {es : List Elem}, VOne sampleExt (oneFile pick) main true (Loosely true) pick pickChoice es → es ≠ [] := by
    intro es h
    cases h with
    | ref h => exact absurd h (by decide +kernel)
    | element h => exact absurd h (by decide +kernel)
    | sequence h => exact absurd h (by decide +kernel)
    | choice _ _ _ hf => exact hf rfl
  have seq : ∀ {es : List Elem}, VOne sampleExt (oneFile pick) main true (Loosely true) pick (ckid (ckid (ckid (Nd.of pick.root) 0) 0) 0) es → es ≠ [] := by
    intro es h
    cases h with
    | ref h => exact absurd h (by decide +kernel)
    | element h => exact absurd h (by decide +kernel)
    | choice h => exact absurd h (by decide +kernel)
    | sequence _ h =>
      obtain ⟨es', h1, h2⟩ := seq_mem h (c := pickChoice) (.head _)
      exact h2 (choice (once (by decide +kernel) (by decide +kernel) h1))
  have defn : ∀ {e : Elem} {es : List Elem}, VDefn sampleExt (oneFile pick) main true (Loosely true) pick (ckid (ckid (Nd.of pick.root) 0) 0) e es → es ≠ [] := by
    intro e es h
    have none : ∀ c ∈ (ckid (ckid (Nd.of pick.root) 0) 0).xsdKids, c.name ≠ c!"simpleContent" ∧ c.name ≠ c!"complexContent" ∧ c.name ≠ c!"all" := by decide +kernel
    cases h with
    | simple h => exact absurd h (by decide +kernel)
    | typed h => exact absurd h (by decide +kernel)
    | inline h => exact absurd h (by decide +kernel)
    | any h => exact absurd h (by decide +kernel)
    | complex _ h =>
      cases h with
      | empty h => exact absurd (h _ (.head _)) (by decide +kernel)
      | group hc _ _ h =>
        have := List.mem_singleton.1 hc
        subst this
        exact seq (once (by decide +kernel) (by decide +kernel) h)
      | all hc hn => exact absurd hn (none _ hc).2.2
      | simpleContent hc hn => exact absurd hn (none _ hc).1
      | complexContent hc hn => exact absurd hn (none _ hc).2.1
      | extension hc hn => exact absurd hn (none _ hc).2.1
  intro hv
  obtain @⟨d, c, es, js, ht, _, hk, _, h⟩ := hv
  generalize hq : qPick = q at ht
  have hes : es = [] := by
    cases es with
    | nil => rfl
    | cons _ _ => cases hk
  subst hes
  cases ht with
  | mk hr hc _ hn =>
    cases only_pick hr
    cases hq
    have hc : c = ckid (Nd.of pick.root) 0 := List.mem_singleton.1 hc
    subst hc
    cases h with
    | simple h => exact absurd h (by decide +kernel)
    | complex h => exact absurd h (by decide +kernel)
    | typed _ h =>
      have hn : (ckid (Nd.of pick.root) 0).value c!"type" = none := by decide +kernel
      cases h with
      | builtin h => rw [hn] at h; cases h
      | fixed h => rw [hn] at h; cases h
      | own h => rw [hn] at h; cases h
    | any _ _ h => exact (h _ (.head _)).2 (by decide +kernel)
    | inline _ _ hc _ h =>
      have := List.mem_singleton.1 hc
      subst this
      exact defn h rfl

/-- By `C65_partial`, it is not read. -/
example : ∃ k P ds i, parseFile sampleExt (oneFile pick) k main = .ok P ∧ generateAll sampleExt P.context = .ok ds ∧
    Flat.TypeOf sampleExt qPick i ∧ (∃ r, FromXml sampleExt ds i ⟨noTags⟩ r) ∧ ∀ v, ¬ FromXml sampleExt ds i ⟨noTags⟩ (.ok v) := by
  obtain ⟨k, P, ds, h1, h2, h3, h4, h5, _, hd⟩ := pick_meets.ex
  obtain ⟨_, h7⟩ := C65_partial sampleExt_nameLaws Xsd.Sample.numLaws h1 h2 h3 h4 h5
  obtain ⟨n, i, _, _, h8, h9, _, h10, _⟩ := h7 _ _ _ top_pick
  obtain ⟨r, h11, _⟩ := h9 ⟨noTags⟩
  exact ⟨k, P, ds, i, h2, h4, h8, ⟨r, h11⟩, fun v h => noTags_empty (h10 ⟨noTags⟩ v h).1⟩

/-! ## Where no choice can be empty -/

/-- `C65_solid_partial` applies to the first file. -/
theorem shop_solid : SolidFiles files main := solidFilesB_sound (k := 9) (by decide +kernel)

example : ∃ k P ds i v, parseFile sampleExt files k main = .ok P ∧ generateAll sampleExt P.context = .ok ds ∧ Flat.TypeOf sampleExt qOrder i ∧
    FromXml sampleExt ds i ⟨order⟩ (.ok v) := by
  obtain ⟨k, P, ds, h1, h2, h3, h4, h5, _, hd⟩ := shop_meets.ex
  obtain ⟨n, i, hn, hs, h8, h9, _⟩ := C65_solid_partial sampleExt_nameLaws Xsd.Sample.numLaws h1 shop_solid h2 h3 h4 h5 _ _ _ top_order
  obtain ⟨v, h10, _⟩ := h9 ⟨order⟩ order_valid.occurs
  exact ⟨k, P, ds, i, v, h2, h4, h8, h10⟩

end Xsd.Tree.Sample
