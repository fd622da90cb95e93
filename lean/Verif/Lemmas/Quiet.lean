import Verif.Lemmas.Legal
import Verif.Lemmas.NoPanic
/-!
# The parser reports no error for supported definitions
-/
namespace Xsd

/-- In every context with the environment `e`, the computation reports no error, and its results are `Q` and keep the
environment. -/
def P.Quiet {α : Type} (e : Env) (Q : α → Prop) (m : P α) : Prop :=
  ∀ s, s.env = e → (∀ er, m s ≠ .err er) ∧ ∀ a s', m s = .ok (a, s') → s'.env = e ∧ Q a

namespace P.Quiet
variable {α β : Type} {e : Env} {Q : α → Prop} {R : β → Prop}

theorem bind {m : P α} {f : α → P β} (hm : m.Quiet e Q) (hf : ∀ a, Q a → (f a).Quiet e R) : (m >>= f).Quiet e R := by
  intro s hs
  have h := hm s hs
  show (∀ er, P.bnd m f s ≠ .err er) ∧ ∀ a s', P.bnd m f s = _ → _
  unfold P.bnd
  cases hr : m s with
  | ok p =>
    obtain ⟨a, s'⟩ := p
    exact hf a (h.2 a s' hr).2 s' (h.2 a s' hr).1
  | err er => exact absurd hr (h.1 er)
  | panic => exact ⟨nofun, nofun⟩
  | diverge => exact ⟨nofun, nofun⟩

theorem pure {a : α} (h : Q a) : (Pure.pure a : P α).Quiet e Q := by
  intro s hs
  refine ⟨nofun, ?_⟩
  intro b s' hb
  cases hb
  exact ⟨hs, h⟩

theorem diverge : (P.diverge : P α).Quiet e Q := fun _ _ => ⟨nofun, nofun⟩

theorem lift {r : Res XErr α} {a : α} (h : r = .ok a) (hq : Q a) : (P.lift r).Quiet e Q := by
  subst h
  exact pure hq

theorem any {m : P α} (h : m.Quiet e Q) : m.Quiet e Any := fun s hs => ⟨(h s hs).1, fun a s' ha => ⟨((h s hs).2 a s' ha).1, trivial⟩⟩

theorem addRoot (n : Name) (r : Root) : (Xsd.addRoot n r).Quiet e Any := by
  intro s hs
  refine ⟨nofun, ?_⟩
  intro b s' hb
  cases hb
  exact ⟨hs, trivial⟩

theorem discoverType (n p : Name) : (Xsd.discoverType n p).Quiet e Any := by
  intro s hs
  refine ⟨nofun, ?_⟩
  intro b s' hb
  cases hb
  exact ⟨hs, trivial⟩

theorem nodeName (n : Str) : (Xsd.nodeName n).Quiet e Any := by
  intro s hs
  refine ⟨nofun, ?_⟩
  intro b s' hb
  cases hb
  exact ⟨hs, trivial⟩

theorem deriveVirtualName (x : Ext) (ns : List Name) (b : Bool) : (Xsd.deriveVirtualName x ns b).Quiet e Any := by
  intro s hs
  unfold Xsd.deriveVirtualName
  split
  · refine ⟨nofun, ?_⟩
    intro b s' hb
    cases hb
    exact ⟨hs, trivial⟩
  all_goals exact ⟨nofun, nofun⟩

end P.Quiet

/-! ## Attributes, references, numbers -/

theorem effective_of_last {as : List XAttr} {a : XAttr} (h : a ∈ lastAttrs as) : ∃ l r, as = l ++ a :: r ∧ ∀ b ∈ r, b.loc ≠ a.loc := by
  induction as with
  | nil => cases h
  | cons b bs ih =>
    unfold lastAttrs at h
    split at h
    · obtain ⟨l, r, rfl, hr⟩ := ih h
      exact ⟨b :: l, r, rfl, hr⟩
    · next hb =>
      rcases List.mem_cons.1 h with rfl | h
      · refine ⟨[], bs, rfl, fun c hc hn => hb ?_⟩
        exact List.any_eq_true.2 ⟨c, hc, decide_eq_true hn⟩
      · obtain ⟨l, r, rfl, hr⟩ := ih h
        exact ⟨b :: l, r, rfl, hr⟩

theorem prevent_ok {nd : Nd} (h : ∀ a, Effective nd a → a.ns = none → a.loc ∈ nd.seen) : nd.preventUnvisitedAttributes = .ok () := by
  unfold Nd.preventUnvisitedAttributes
  split
  · next a hf =>
    have h1 := List.mem_of_find?_eq_some hf
    have h2 := List.find?_some (p := fun a : XAttr => decide (a.ns = none ∧ ¬ a.loc ∈ nd.seen)) hf
    have h2 := of_decide_eq_true h2
    exact absurd (h a (effective_of_last h1) h2.1) h2.2
  · rfl

section
variable {x : Ext} {e : Env}

theorem denotes_unique (hN : (e.docNss.map Prod.fst).Nodup) {v n n' : Str} {u u' : Option Str}
    (h : Denotes e.defaultNs e.docNss v n u) (h' : Denotes e.defaultNs e.docNss v n' u') : n = n' ∧ u = u' := by
  have col : ∀ {p n}, Prefixed v p n → ':' ∈ v := fun h => by rw [h.1]; simp
  rcases h with ⟨p, w, h1, h2, h3⟩ | ⟨h1, h2, h3⟩
  · rcases h' with ⟨p', w', h1', h2', h3'⟩ | ⟨h1', _⟩
    · have := (splitn2_prefixed.2 h1).symm.trans (splitn2_prefixed.2 h1')
      cases this
      have := (alookup_of_mem hN h2).symm.trans (alookup_of_mem hN h2')
      cases this
      exact ⟨rfl, h3.trans h3'.symm⟩
    · exact absurd (col h1) h1'
  · rcases h' with ⟨p', w', h1', h2', h3'⟩ | ⟨h1', h2', h3'⟩
    · exact absurd (col h1') h1
    · exact ⟨h2.symm.trans h2', h3.trans h3'.symm⟩

theorem getTypeName_quiet_builtin (hN : (e.docNss.map Prod.fst).Nodup) {a : XAttr} (h : Builtin e a.value) :
    (getTypeName a).Quiet e (fun c => ∃ t, c = .literal t) := by
  obtain ⟨n, t, hden, hb⟩ := h
  rintro s rfl
  have hlit : literalOr n a = .ok (.literal t) := by unfold literalOr; rw [(literalFromStr_builtin _ _).2 hb]
  have hok : getTypeName a s = .ok (.literal t, s) := by
    unfold getTypeName
    rcases hden with ⟨p, u, h1, h2, h3⟩ | ⟨h1, h2, h3⟩
    · cases h3
      rw [splitn2_prefixed.2 h1]
      dsimp only
      rw [show alookup s.docNss p = some nsXsd from alookup_of_mem hN h2]
      dsimp only
      rw [if_pos rfl, hlit]
      rfl
    · subst h2
      rw [splitn2_unprefixed h1]
      dsimp only
      rw [if_pos (show s.defaultNs = _ from h3.symm), hlit]
      rfl
  rw [hok]
  refine ⟨nofun, ?_⟩
  intro c s' hc
  cases hc
  exact ⟨rfl, t, rfl⟩

theorem getTypeName_quiet_own (hN : (e.docNss.map Prod.fst).Nodup) {a : XAttr} (h : OwnType e a.value) :
    (getTypeName a).Quiet e (fun c => ∃ n, c = .named n) := by
  obtain ⟨n, u, hden, hu⟩ := h
  rintro s rfl
  have hok : ∃ m s', getTypeName a s = .ok (.named m, s') ∧ s'.env = s.env := by
    unfold getTypeName
    rcases hden with ⟨p, w, h1, h2, h3⟩ | ⟨h1, h2, h3⟩
    · subst h3
      rw [splitn2_prefixed.2 h1]
      dsimp only
      rw [show alookup s.docNss p = some w from alookup_of_mem hN h2]
      dsimp only
      rw [if_neg (fun h => hu (by rw [h]))]
      exact ⟨_, _, rfl, rfl⟩
    · subst h2
      rw [splitn2_unprefixed h1]
      dsimp only
      rw [if_neg (show ¬ s.defaultNs = some nsXsd from fun h => hu (h3.trans h))]
      exact ⟨_, _, rfl, rfl⟩
  obtain ⟨m, s', hok, henv⟩ := hok
  rw [hok]
  refine ⟨nofun, ?_⟩
  intro c s'' hc
  cases hc
  exact ⟨henv, m, rfl⟩

/-- The node after its type was looked at. -/
theorem parseTypeAttr_quiet (hN : (e.docNss.map Prod.fst).Nodup) {nd : Nd} {a : XAttr} {parent : Name} (h : Resolves e a.value) :
    (parseTypeAttr nd a parent).Quiet e (fun r => r.2.info = nd.info ∧ (∀ n ∈ nd.seen, n ∈ r.2.seen) ∧
      ((∃ n, Denotes e.defaultNs e.docNss a.value n (some nsXsd)) → c!"fixed" ∈ r.2.seen)) := by
  unfold parseTypeAttr
  rcases h with h | h
  · refine (getTypeName_quiet_builtin hN h).bind ?_
    rintro c ⟨t, rfl⟩
    dsimp only
    split
    · exact .pure ⟨rfl, fun _ h => .tail _ h, fun _ => .head _⟩
    · exact .pure ⟨rfl, fun _ h => .tail _ h, fun _ => .head _⟩
  · refine (getTypeName_quiet_own hN h).bind ?_
    rintro c ⟨n, rfl⟩
    refine (P.Quiet.discoverType _ _).bind fun _ _ => .pure ⟨rfl, fun _ h => h, ?_⟩
    rintro ⟨m, hm⟩
    obtain ⟨n', u, hden, hu⟩ := h
    exact absurd (denotes_unique hN hden hm).2 hu

theorem minOccurs_ok {nd : Nd} (h : MinOK nd) : ∃ n, parseMinOccurs (nd.attr c!"minOccurs") = .ok n := by
  obtain ⟨n, ⟨h1, h2⟩ | ⟨v, hv, hu⟩⟩ := h
  · rw [value_none.1 h1]; exact ⟨1, rfl⟩
  · obtain ⟨a, ha, rfl⟩ := value_some_iff.1 hv
    rw [ha]
    exact ⟨n, parseU32_ok.2 hu⟩

theorem maxOccurs_ok {nd : Nd} (h : MaxOK nd) : ∃ m, parseMaxOccurs (nd.attr c!"maxOccurs") = .ok m := by
  obtain ⟨m, ⟨h1, h2⟩ | ⟨v, hv, hu⟩⟩ := h
  · rw [value_none.1 h1]; exact ⟨_, rfl⟩
  · obtain ⟨a, ha, rfl⟩ := value_some_iff.1 hv
    rw [ha]
    rcases hu with ⟨h1, _⟩ | ⟨n, _, hu⟩
    · exact ⟨.unbounded, (((C34_max_occurs _).2 a rfl).1).2 h1⟩
    · exact ⟨.number n, (((C34_max_occurs _).2 a rfl).2.1 n).2 hu⟩

theorem annotation1_ok {nd : Nd} (h : AnnotationOK e nd) : ∃ d, parseAnnotation1 x nd = .ok d := by
  obtain ⟨ha, hc, ht⟩ := h
  have hp : nd.preventUnvisitedAttributes = .ok () := prevent_ok fun a h1 h2 => (ha nofun a h1 h2).elim
  have hx := allXsd_kids nd
  have hall : ∀ c ∈ nd.xsdKids, c.info.name = ⟨c!"documentation", some nsXsd⟩ := fun c hm => (info_iff (hx c hm)).2 (hc c hm)
  unfold parseAnnotation1
  have hrest : (removeKids c!"documentation" (removeKid c!"documentation" nd.xsdKids).2).2 = [] := by
    unfold removeKids
    rw [List.filter_eq_nil_iff]
    intro c hm
    simp [hall c (removeKid_rest_mem hm)]
  dsimp only
  rw [hrest]
  cases hk : nd.xsdKids with
  | nil =>
    refine ⟨none, ?_⟩
    show (do let _ ← nd.preventUnvisitedAttributes; pure none : Res XErr (Option Str)) = _
    rw [hp]
    rfl
  | cons d ds =>
    obtain ⟨t, rest, hd⟩ := ht d (by rw [hk]; rfl)
    have e1 : removeKid c!"documentation" (d :: ds) = (some d, ds) := by
      unfold removeKid
      rw [if_pos (hall d (by rw [hk]; exact .head _))]
    rw [e1]
    have e2 : d.tryText = .ok t := by unfold Nd.tryText Nd.text; rw [hd]
    dsimp only
    rw [e2]
    refine ⟨if t = [] then none else some (cleanupDocs x t), ?_⟩
    show (do let _ ← nd.preventUnvisitedAttributes; pure _ : Res XErr (Option Str)) = _
    rw [hp]
    rfl

theorem annotation_ok {o : Option Nd} (h : ∀ c, o = some c → AnnotationOK e c) : ∃ d, parseAnnotation x o = .ok d := by
  cases o with
  | none => exact ⟨none, rfl⟩
  | some c => exact annotation1_ok (h c rfl)

theorem docs_ok {nd : Nd} (h : DocsOK e nd) : ∃ d, parseAnnotation x (nd.child c!"annotation") = .ok d := by
  rw [child_find]
  exact annotation_ok fun c hc => h c hc

theorem facet_ok {c : Nd} (h : FacetOK x c) (hn : c.name ∈ facetNames) : ∃ r, parseFacet x c = .ok r := by
  obtain ⟨v, hv, hu, hd⟩ := h
  obtain ⟨a, ha, rfl⟩ := value_some_iff.1 hv
  have ht : c.tryAttr c!"value" = .ok a := tryAttr_ok.2 ha
  have us : c.name ∈ [c!"length", c!"minLength", c!"maxLength", c!"fractionDigits", c!"totalDigits"] →
      ∃ n, parseUsize a = .ok n := fun h => by obtain ⟨n, hn⟩ := hu h; exact ⟨n, parseUsize_ok.2 hn⟩
  have ds : c.name ∈ [c!"minInclusive", c!"maxInclusive"] → ∃ n, parseDec x a = .ok n := by
    intro h
    unfold parseDec
    cases hp : x.parseDecimal a.value with
    | none => exact absurd hp (hd h)
    | some d => exact ⟨d, rfl⟩
  unfold parseFacet
  rw [ht]
  simp only [facetNames, List.mem_cons, List.not_mem_nil, or_false] at hn
  rcases hn with h | h | h | h | h | h | h | h | h
  all_goals
    rw [h] at us ds
    rw [h]
  all_goals
    first
      | exact ⟨_, rfl⟩
      | (obtain ⟨n, hn⟩ := us (by decide)
         refine ⟨?_, ?_⟩
         rotate_left
         · show (do let n ← parseUsize a; _ : Res XErr _) = _
           rw [hn]
           rfl)
      | (obtain ⟨n, hn⟩ := ds (by decide)
         refine ⟨?_, ?_⟩
         rotate_left
         · show (do let n ← parseDec x a; _ : Res XErr _) = _
           rw [hn]
           rfl)

theorem facets_ok {cs : List Nd} (h : ∀ c ∈ cs, FacetOK x c ∧ c.name ∈ facetNames) : ∃ r, parseFacets x cs = .ok r := by
  induction cs with
  | nil => exact ⟨_, rfl⟩
  | cons c cs ih =>
    obtain ⟨f, hf⟩ := facet_ok (h c (.head _)).1 (h c (.head _)).2
    obtain ⟨r, hr⟩ := ih fun d hd => h d (.tail _ hd)
    unfold parseFacets
    rw [hf]
    show ∃ r, (do let r ← parseFacets x cs; _ : Res XErr _) = _
    rw [hr]
    exact ⟨_, rfl⟩

end

/-! ## Children -/

section
variable {x : Ext} {e : Env}

theorem legal_self {k : Kind} {nd : Nd} (h : Legal x e k nd) : AttrsOK e k nd ∧ ChildrenOK k nd ∧ Filled x e k nd := h _ _ (.refl _ _)

theorem legal_step {k k' : Kind} {nd c : Nd} (h : Legal x e k nd) (hs : Step k nd k' c) : Legal x e k' c :=
  fun _ _ hw => h _ _ (.step hs hw)

theorem annotation_legal {nd : Nd} (h : Legal x e .annotation nd) : AnnotationOK e nd := ⟨(legal_self h).1, (legal_self h).2.1, (legal_self h).2.2⟩

theorem annotation_kid {nd : Nd} (h : ∀ c ∈ nd.xsdKids, c.name = c!"annotation" → Legal x e .annotation c) :
    ∃ d, parseAnnotation x (removeKid c!"annotation" nd.xsdKids).1 = .ok d := by
  refine annotation_ok (e := e) fun c hc => annotation_legal (h c ?_ ?_)
  · exact removeKid_mem (Prod.ext hc rfl)
  · exact name_of_info (rk_name hc).1

theorem no_children (nd : Nd) {ks : List Nd} (h : ∀ c ∈ ks, False) : preventUnvisitedChildren nd ks = .ok () := by
  rw [eq_nil_of_no_mem h]; rfl

theorem tryRemove_ok {nd : Nd} {n : Str} {ks : List Nd} (hx : AllXsd ks) (h : cnt n ks = 1) :
    ∃ c rest, tryRemoveKid nd n ks = .ok (c, rest) ∧ removeKid n ks = (some c, rest) ∧ c ∈ ks ∧ c.name = n ∧ cnt n rest = 0 := by
  obtain ⟨c, hc⟩ := rk_some_of_cnt hx (n := n) (by omega)
  have hr : removeKid n ks = (some c, (removeKid n ks).2) := Prod.ext hc rfl
  exact ⟨c, _, tryRemoveKid_ok.2 hr, hr, removeKid_mem hr, name_of_info (rk_name hc).1, rest_names hx (by omega)⟩

variable (hN : (e.docNss.map Prod.fst).Nodup)
include hN

theorem parseSimpleType_quiet {t : Bool} {nd : Nd} (h : Legal x e (.simpleType t) nd) :
    (parseSimpleType x (if t = true then nd.see c!"name" else nd)).Quiet e Any := by
  obtain ⟨ha, hc, hf1, hf2, hf3⟩ := legal_self h
  have hk : (if t = true then nd.see c!"name" else nd).xsdKids = nd.xsdKids := by split <;> rfl
  have hx := allXsd_kids nd
  unfold parseSimpleType
  rw [hk]
  refine .bind (.lift (prevent_ok fun a h1 h2 => ?_) trivial (Q := Any)) fun _ _ => ?_
  · have h1 : Effective nd a := by
      cases t <;> exact h1
    obtain ⟨rfl, h3⟩ := ha nofun a h1 h2
    rw [h3]
    exact .head _
  obtain ⟨d, hd⟩ := annotation_kid (x := x) (e := e) (nd := nd) fun c hm hn => legal_step h (.simpleAnnotation hm hn)
  refine .bind (.lift hd trivial (Q := Any)) fun _ _ => ?_
  obtain ⟨c, rest, h1, h2, h3, h4, h5⟩ := tryRemove_ok (nd := if t = true then nd.see c!"name" else nd) (allXsd_rest (n := c!"annotation") hx)
    ((cnt_other (by decide) : cnt c!"restriction" _ = _).trans hf2)
  refine .bind (.lift h1 rfl (Q := (· = (c, rest)))) ?_
  rintro _ rfl
  have hck := removeKid_rest_mem h3
  obtain ⟨v, hv, hb⟩ := hf3 c hck h4
  obtain ⟨a, ha', rfl⟩ := value_some_iff.1 hv
  refine .bind (.lift (tryAttr_ok.2 ha') rfl (Q := (· = a))) ?_
  rintro _ rfl
  refine .bind (getTypeName_quiet_builtin hN hb) ?_
  rintro _ ⟨l, rfl⟩
  have hrest : ∀ d ∈ rest, False := by
    intro d hd
    have hd' : d ∈ (removeKid c!"annotation" nd.xsdKids).2 := removeKid_rest_mem (n := c!"restriction") (by rw [h2]; exact hd)
    obtain ⟨k', hs⟩ := hc d (removeKid_rest_mem hd')
    cases hs with
    | simpleRestriction _ hn => exact cnt_zero.1 h5 d hd hn
    | simpleAnnotation _ hn => exact cnt_zero.1 (rest_names hx hf1) d hd' hn
  refine .bind (.lift (no_children _ hrest) trivial (Q := Any)) fun _ _ => ?_
  have hl := legal_self (legal_step h (.simpleRestriction hck h4))
  obtain ⟨r, hr⟩ := facets_ok (x := x) (cs := c.xsdKids) fun f hf => ⟨hl.2.2 f hf, hl.2.1 f hf⟩
  refine .bind (.lift hr trivial (Q := Any)) fun _ _ => .pure trivial

theorem parseAttribute_quiet {nd : Nd} {parent : Name} (hs : nd.seen = []) (h : Legal x e .attribute nd) : (parseAttribute x nd parent).Quiet e Any := by
  obtain ⟨ha, hc, hf1, hf2, hf3, hf4, hf5, hf6⟩ := legal_self h
  have hx := allXsd_kids nd
  unfold parseAttribute
  obtain ⟨na, hna⟩ : ∃ na, nd.attr c!"name" = some na := Option.ne_none_iff_exists'.1 (fun hn => hf1 (value_none.2 hn))
  refine .bind (.lift (tryAttr_ok.2 hna) trivial (Q := Any)) fun _ _ => ?_
  obtain ⟨d, hd⟩ := annotation_kid (x := x) (e := e) (nd := nd) fun c hm hn => legal_step h (.attrAnnotation hm hn)
  refine .bind (.lift hd trivial (Q := Any)) fun docs _ => ?_
  have hcnt : cnt c!"simpleType" (removeKid c!"annotation" nd.xsdKids).2 = nd.count c!"simpleType" := cnt_other (by decide)
  have hrest : ∀ d ∈ (removeKid c!"simpleType" (removeKid c!"annotation" nd.xsdKids).2).2, False := by
    intro d hd
    have hd' := removeKid_rest_mem hd
    obtain ⟨k', hs⟩ := hc d (removeKid_rest_mem hd')
    cases hs with
    | attrSimpleType _ hn => exact cnt_zero.1 (rest_names (allXsd_rest hx) (by rw [hcnt]; exact hf3)) d hd hn
    | attrAnnotation _ hn => exact cnt_zero.1 (rest_names hx hf2) d hd' hn
  have hcont : ∀ p q : Name, (parseAttrContent x (nd.see c!"name") p q
      (removeKid c!"simpleType" (removeKid c!"annotation" nd.xsdKids).2).1).Quiet e (fun r => r.2.info = nd.info ∧ c!"name" ∈ r.2.seen ∧
        ((∀ c ∈ nd.xsdKids, c.name ≠ c!"simpleType") → c!"type" ∈ r.2.seen ∧ (BuiltinType e nd → c!"fixed" ∈ r.2.seen))) := by
    intro p q
    unfold parseAttrContent
    cases hr : (removeKid c!"simpleType" (removeKid c!"annotation" nd.xsdKids).2).1 with
    | some c =>
      have h1 := rk_name hr
      have h2 := removeKid_rest_mem h1.2
      have h3 := name_of_info h1.1
      dsimp only
      refine .bind (parseSimpleType_quiet hN (t := false) (legal_step h (.attrSimpleType h2 h3))) fun root _ => ?_
      have post : (nd.see c!"name").info = nd.info ∧ c!"name" ∈ (nd.see c!"name").seen ∧
        ((∀ c ∈ nd.xsdKids, c.name ≠ c!"simpleType") → c!"type" ∈ (nd.see c!"name").seen ∧ (BuiltinType e nd → c!"fixed" ∈ (nd.see c!"name").seen)) :=
        ⟨rfl, .head _, fun hh => absurd h3 (hh c h2)⟩
      split
      · exact .pure post
      · exact .bind (.nodeName _) fun _ _ => .bind (.deriveVirtualName _ _ _) fun _ _ => .bind (.addRoot _ _) fun _ _ =>
          .bind (.discoverType _ _) fun _ _ => .pure post
    | none =>
      have h0 : nd.count c!"simpleType" = 0 := hcnt ▸ cnt_of_none (allXsd_rest hx) hr
      obtain ⟨v, hv, hres⟩ := hf4 h0
      obtain ⟨a, ha', rfl⟩ := value_some_iff.1 hv
      dsimp only
      refine .bind (.lift (tryAttr_ok.2 ha') rfl (Q := (· = a))) ?_
      rintro _ rfl
      intro s hs'
      obtain ⟨g1, g2⟩ := parseTypeAttr_quiet hN (nd := (nd.see c!"name").see c!"type") (parent := q) hres s hs'
      refine ⟨g1, fun r s' hh => ⟨(g2 r s' hh).1, ?_⟩⟩
      obtain ⟨p1, p2, p3⟩ := (g2 r s' hh).2
      refine ⟨p1, p2 _ (.tail _ (.head _)), fun _ => ⟨p2 _ (.head _), ?_⟩⟩
      rintro ⟨v, n, hv', hden⟩
      cases Option.some.inj (hv.symm.trans hv')
      exact p3 ⟨n, hden⟩
  refine .bind (hcont _ _) ?_
  rintro ⟨content, nd'⟩ ⟨hi, hname, hty⟩
  dsimp only at hi hname hty ⊢
  refine .bind (.lift (no_children _ hrest) trivial (Q := Any)) fun _ _ => ?_
  rw [value_info hi, value_info hi]
  split
  · exact .pure trivial
  · next hp =>
    rw [if_pos (by
      simp only [List.mem_cons, List.not_mem_nil, or_false] at hf5
      rcases hf5 with h | h | h | h
      · exact .inr (.inr h)
      · exact .inr (.inl h)
      · exact .inl h
      · exact absurd h hp)]
    rw [if_neg (by
      rintro ⟨h1, h2⟩
      have h2 := of_decide_eq_false h2
      rw [hf6 (Classical.not_not.1 h2)] at h1
      cases h1)]
    refine .bind (.lift (prevent_ok fun a h1 h2 => ?_) trivial (Q := Any)) fun _ _ => .pure trivial
    have h1 : Effective nd a := by
      unfold Effective at h1 ⊢
      rw [← hi]
      exact h1
    rcases ha (fun _ => hp) a h1 h2 with h3 | ⟨h3, h4⟩
    · simp only [List.mem_cons, List.not_mem_nil, or_false] at h3
      rcases h3 with h3 | h3 | h3
      · rw [h3]; exact .tail _ (.tail _ hname)
      · rw [h3]; exact .tail _ (.head _)
      · rw [h3]; exact .head _
    · rcases h4 with h4 | ⟨h4, h5⟩
      · rw [h4]; exact .tail _ (.tail _ (hty h3).1)
      · rw [h4]; exact .tail _ (.tail _ ((hty h3).2 h5))

theorem parseAttributes_quiet {parent : Name} : ∀ {cs : List Nd}, (∀ c ∈ cs, c.seen = [] ∧ Legal x e .attribute c) →
    (parseAttributes x parent cs).Quiet e Any
  | [], _ => .pure trivial
  | c :: cs, h => .bind (parseAttribute_quiet hN (h c (.head _)).1 (h c (.head _)).2) fun _ _ =>
      .bind (parseAttributes_quiet fun d hd => h d (.tail _ hd)) fun _ _ => .pure trivial

theorem parseSimpleContent_quiet {nd : Nd} {parent : Name} (h : Legal x e .simpleContent nd) : (parseSimpleContent x nd parent).Quiet e Any := by
  obtain ⟨ha, hc, hf1, hf2⟩ := legal_self h
  unfold parseSimpleContent
  refine .bind (.lift (prevent_ok fun a h1 h2 => (ha nofun a h1 h2).elim) trivial (Q := Any)) fun _ _ => ?_
  obtain ⟨c, rest, h1, h2, h3, h4, h5⟩ := tryRemove_ok (nd := nd) (allXsd_kids nd) hf1
  refine .bind (.lift h1 rfl (Q := (· = (c, rest)))) ?_
  rintro _ rfl
  have hrest : ∀ d ∈ rest, False := by
    intro d hd
    obtain ⟨k', hs⟩ := hc d (removeKid_rest_mem (n := c!"extension") (by rw [h2]; exact hd))
    cases hs with
    | simpleExtension _ hn => exact cnt_zero.1 h5 d hd hn
  refine .bind (.lift (no_children _ hrest) trivial (Q := Any)) fun _ _ => ?_
  obtain ⟨v, hv, hb⟩ := hf2 c h3
  obtain ⟨a, ha', rfl⟩ := value_some_iff.1 hv
  refine .bind (.lift (tryAttr_ok.2 ha') rfl (Q := (· = a))) ?_
  rintro a' rfl
  have hg : (getTypeName a').Quiet e Any := by
    rcases hb with hb | hb
    · exact (getTypeName_quiet_builtin hN hb).any
    · exact (getTypeName_quiet_own hN hb).any
  refine .bind hg fun content _ => ?_
  refine .bind (Q := Any) ?_ fun leafName _ => ?_
  · split
    · exact .bind (.discoverType _ _) fun _ _ => .pure trivial
    · exact .pure trivial
  · have hl := legal_step h (.simpleExtension h3 h4)
    have hcs := (legal_self hl).2.1
    refine .bind (parseAttributes_quiet hN fun d hd => ?_) fun _ _ => .bind (.lift (no_children _ ?_) trivial (Q := Any)) fun _ _ => .pure trivial
    · have hd' := (List.mem_filter.1 hd).1
      refine ⟨kid_fresh hd', legal_step hl (.simpleExtAttribute hd' ?_)⟩
      exact name_of_info (of_decide_eq_true (List.mem_filter.1 hd).2)
    · intro d hd
      have hd' := List.mem_filter.1 hd
      obtain ⟨k', hs⟩ := hcs d hd'.1
      cases hs with
      | simpleExtAttribute hc hn => simp [kid_info hc hn] at hd'

omit hN in
theorem addGroup_quiet (p : Name) (ms : List Leaf) (sf : List Name) (r : Root) (d : Option Str) (mn : Nat) (mx : MaxOccurs) :
    (addGroup x p ms sf r d mn mx).Quiet e Any :=
  .bind (.deriveVirtualName _ _ _) fun _ _ => .bind (.deriveVirtualName _ _ _) fun _ _ => .bind (.addRoot _ _) fun _ _ =>
    .bind (.discoverType _ _) fun _ _ => .pure trivial

omit hN in
theorem parseLeaves_quiet {f : Nd → P (Option Leaf)} : ∀ {cs : List Nd}, (∀ c ∈ cs, (f c).Quiet e Any) → (parseLeaves f cs).Quiet e Any
  | [], _ => .pure trivial
  | c :: _, h => .bind (h c (.head _)) fun _ _ => .bind (parseLeaves_quiet fun d hd => h d (.tail _ hd)) fun _ _ => .pure trivial

omit hN in
theorem rk_find {n : Str} : ∀ {ks : List Nd}, AllXsd ks → (removeKid n ks).1 = ks.find? (fun c => c.name = n)
  | [], _ => rfl
  | c :: cs, hx => by
    have ih := rk_find (n := n) (ks := cs) fun d hd => hx d (.tail _ hd)
    unfold removeKid
    by_cases hn : c.name = n
    · rw [if_pos ((info_iff (hx c (.head _))).2 hn), List.find?_cons_of_pos (by simpa using hn)]
    · rw [if_neg (fun h => hn ((info_iff (hx c (.head _))).1 h)), List.find?_cons_of_neg (by simpa using hn)]
      exact ih

omit hN in
theorem docs_rk {nd : Nd} (h : DocsOK e nd) : ∃ d, parseAnnotation x (removeKid c!"annotation" nd.xsdKids).1 = .ok d := by
  rw [rk_find (allXsd_kids nd)]
  exact annotation_ok fun c hc => h c hc

omit hN in
theorem docsOK_legal {nd : Nd} (h : ∀ c ∈ nd.xsdKids, c.name = c!"annotation" → Legal x e .annotation c) : DocsOK e nd := by
  intro c hc
  have h1 := List.mem_of_find?_eq_some hc
  have h2 := List.find?_some (p := fun c : Nd => decide (c.name = c!"annotation")) hc
  exact annotation_legal (h c h1 (of_decide_eq_true h2))

/-- What a node with an element declaration must have, after some of its attributes were looked at. -/
structure RootOK (x : Ext) (e : Env) (nd : Nd) : Prop where
  ann : nd.count c!"annotation" ≤ 1
  docs : DocsOK e nd
  kids : ∀ c ∈ nd.xsdKids, c.name = c!"annotation" ∨ (nd.attr c!"type" = none ∧ (c.name = c!"complexType" ∨ c.name = c!"simpleType"))
  typed : ∀ v, nd.value c!"type" = some v → Resolves e v
  anon : nd.value c!"type" = none → nd.count c!"complexType" + nd.count c!"simpleType" = 1
  attrs : ∀ a, Effective nd a → a.ns = none → a.loc ∈ nd.seen ∨ a.loc = c!"type" ∨ (a.loc = c!"fixed" ∧ BuiltinType e nd)
  ct : ∀ c ∈ nd.xsdKids, nd.attr c!"type" = none → c.name = c!"complexType" → Legal x e (.complexType false) c
  st : ∀ c ∈ nd.xsdKids, nd.attr c!"type" = none → c.name = c!"simpleType" → Legal x e (.simpleType false) c

/-- The functions of the parser report no error for supported nodes. -/
structure AllQuiet (x : Ext) (e : Env) (k : Nat) : Prop where
  root : ∀ {nd : Nd} {p : Name}, nd.name = c!"element" → RootOK x e nd → (parseRoot x k nd p).Quiet e Any
  elementRoot : ∀ {nd : Nd} {p : Name}, RootOK x e nd → (parseElementRoot x k nd p).Quiet e Any
  complexType : ∀ {t : Bool} {nd : Nd} {p : Name}, nd.seen = [] → Legal x e (.complexType t) nd →
    (parseComplexType x k (if t = true then nd.see c!"name" else nd) p).Quiet e Any
  particle : ∀ {kids : List Nd} {p : Name}, AllXsd kids → (∀ c ∈ kids, c.seen = []) →
    cnt c!"sequence" kids + cnt c!"all" kids + cnt c!"choice" kids ≤ 1 →
    (∀ c ∈ kids, c.name = c!"sequence" ∨ c.name = c!"all" → MinOK c ∧ MaxOK c ∧ Legal x e (.sequence minMax) c) →
    (∀ c ∈ kids, c.name = c!"choice" → Legal x e (.choice []) c) →
    (parseParticle x k kids p).Quiet e (fun r => ∀ c ∈ r.2, c ∈ kids ∧ c.name ∉ [c!"sequence", c!"all", c!"choice"])
  complexContent : ∀ {nd : Nd} {p : Name}, nd.seen = [] → Legal x e .complexContent nd → (parseComplexContent x k nd p).Quiet e Any
  extension : ∀ {o : Option Nd} {b p : Name}, (∀ c, o = some c → c.seen = [] ∧ MinOK c ∧ Legal x e (.sequence [c!"minOccurs"]) c) →
    (parseExtension x k o b p).Quiet e Any
  sequence : ∀ {occ : List Str} {nd : Nd} {p : Name}, nd.seen = [] → Legal x e (.sequence occ) nd →
    (parseSequence x k (nd.sees occ) p).Quiet e Any
  choice : ∀ {occ : List Str} {nd : Nd} {p : Name}, nd.seen = [] → Legal x e (.choice occ) nd →
    (parseChoice x k (nd.sees occ) p).Quiet e Any
  elementChild : ∀ {nd : Nd} {p : Name}, nd.seen = [] → nd.name = c!"element" → Legal x e .localElement nd →
    (parseElementChild x k nd p).Quiet e Any

theorem quiet_elementRoot {k : Nat} (ih : AllQuiet x e k) {nd : Nd} {p : Name} (h : RootOK x e nd) :
    (parseElementRoot x (k + 1) nd p).Quiet e Any := by
  have hx := allXsd_kids nd
  unfold parseElementRoot
  obtain ⟨d, hd⟩ := docs_rk (x := x) h.docs
  refine .bind (.lift hd trivial (Q := Any)) fun docs _ => ?_
  have hann := cnt_zero.1 (rest_names hx h.ann)
  split
  · next a ha =>
    refine .bind (parseTypeAttr_quiet hN (h.typed _ (value_some ha))) ?_
    rintro ⟨content, nd'⟩ ⟨h1, h2, h3⟩
    dsimp only at h1 h2 h3 ⊢
    refine .bind (.lift (prevent_ok fun b hb hb' => ?_) trivial (Q := Any)) fun _ _ =>
      .bind (.lift (no_children _ ?_) trivial (Q := Any)) fun _ _ => .pure trivial
    · have hb : Effective nd b := by unfold Effective at hb ⊢; rw [h1] at hb; exact hb
      rcases h.attrs b hb hb' with h4 | h4 | ⟨h4, v, n, h5, h6⟩
      · exact h2 _ (.tail _ h4)
      · exact h2 _ (h4 ▸ .head _)
      · cases Option.some.inj ((value_some ha).symm.trans h5)
        exact h4 ▸ h3 ⟨n, h6⟩
    · intro c hc
      rcases h.kids c (removeKid_rest_mem hc) with h4 | ⟨h4, _⟩
      · exact hann c hc h4
      · rw [h4] at ha; cases ha
  · next ha =>
    have hv := value_none.2 ha
    refine .bind (.lift (prevent_ok fun b hb hb' => ?_) trivial (Q := Any)) fun _ _ => ?_
    · rcases h.attrs b hb hb' with h4 | h4 | ⟨h4, v, n, h5, h6⟩
      · exact .tail _ h4
      · exact h4 ▸ .head _
      · rw [hv] at h5; cases h5
    have hsum := h.anon hv
    have e1 : cnt c!"complexType" (removeKid c!"annotation" nd.xsdKids).2 = nd.count c!"complexType" := cnt_other (by decide)
    have e2 : cnt c!"simpleType" (removeKid c!"annotation" nd.xsdKids).2 = nd.count c!"simpleType" := cnt_other (by decide)
    have hx' : AllXsd (removeKid c!"annotation" nd.xsdKids).2 := allXsd_rest hx
    split
    · next child rest hr =>
      have hm := removeKid_rest_mem (removeKid_mem hr)
      have hn := name_of_info (rk_name (by rw [hr])).1
      have hpos : 1 ≤ cnt c!"complexType" (removeKid c!"annotation" nd.xsdKids).2 := by
        have := cnt_same (n := c!"complexType") (ks := (removeKid c!"annotation" nd.xsdKids).2)
        rw [hr] at this
        simp only [Option.toList_some, List.length_singleton] at this
        omega
      refine .bind (ih.complexType (t := false) (kid_fresh hm) (h.ct _ hm ha hn)) fun _ _ =>
        .bind (.lift (no_children _ ?_) trivial (Q := Any)) fun _ _ => .pure trivial
      intro c hc
      have hc' : c ∈ (removeKid c!"annotation" nd.xsdKids).2 := removeKid_rest_mem (n := c!"complexType") (by rw [hr]; exact hc)
      rcases h.kids c (removeKid_rest_mem hc') with h4 | ⟨_, h4 | h4⟩
      · exact hann c hc' h4
      · have := rest_names hx' (n := c!"complexType") (by omega)
        rw [hr] at this
        exact cnt_zero.1 this c hc h4
      · exact cnt_zero.1 (by omega : cnt c!"simpleType" (removeKid c!"annotation" nd.xsdKids).2 = 0) c hc' h4
    · next hr =>
      have hz := cnt_of_none hx' (show (removeKid c!"complexType" _).1 = none by rw [hr])
      obtain ⟨child, hch⟩ := rk_some_of_cnt hx' (n := c!"simpleType") (by omega)
      split
      · next child rest hr =>
        have hm := removeKid_rest_mem (removeKid_mem hr)
        have hn := name_of_info (rk_name (by rw [hr])).1
        refine .bind (parseSimpleType_quiet hN (t := false) (h.st _ hm ha hn)) fun _ _ =>
          .bind (.lift (no_children _ ?_) trivial (Q := Any)) fun _ _ => .pure trivial
        intro c hc
        have hc' : c ∈ (removeKid c!"annotation" nd.xsdKids).2 := removeKid_rest_mem (n := c!"simpleType") (by rw [hr]; exact hc)
        rcases h.kids c (removeKid_rest_mem hc') with h4 | ⟨_, h4 | h4⟩
        · exact hann c hc' h4
        · exact cnt_zero.1 hz c hc' h4
        · have := rest_names hx' (n := c!"simpleType") (by omega)
          rw [hr] at this
          exact cnt_zero.1 this c hc h4
      · next hr => rw [hr] at hch; cases hch

theorem quiet_complexType {k : Nat} (ih : AllQuiet x e k) {t : Bool} {nd : Nd} {p : Name} (hs : nd.seen = []) (h : Legal x e (.complexType t) nd) :
    (parseComplexType x (k + 1) (if t = true then nd.see c!"name" else nd) p).Quiet e Any := by
  obtain ⟨ha, hc, hf1, hf2, hf3, hf4, hf5⟩ := legal_self h
  have hk : (if t = true then nd.see c!"name" else nd).xsdKids = nd.xsdKids := by split <;> rfl
  have hi : (if t = true then nd.see c!"name" else nd).attr c!"mixed" = nd.attr c!"mixed" := by split <;> rfl
  have hx := allXsd_kids nd
  unfold parseComplexType
  rw [hk, hi]
  rw [if_neg (show ¬ (nd.attr c!"mixed").map XAttr.value = some c!"true" from hf1)]
  refine .bind (.lift (prevent_ok fun a h1 h2 => ?_) trivial (Q := Any)) fun _ _ => ?_
  · have h1 : Effective nd a := by
      cases t <;> exact h1
    rcases ha nofun a h1 h2 with h3 | ⟨rfl, h3⟩
    · rw [h3]; exact .head _
    · rw [h3]; exact .tail _ (.head _)
  obtain ⟨d, hd⟩ := annotation_kid (x := x) (e := e) (nd := nd) fun c hm hn => legal_step h (.complexAnnotation hm hn)
  refine .bind (.lift hd trivial (Q := Any)) fun docs _ => ?_
  have hann := cnt_zero.1 (rest_names hx hf2)
  have hx' : AllXsd (removeKid c!"annotation" nd.xsdKids).2 := allXsd_rest hx
  have cn : ∀ n, n ≠ c!"annotation" → cnt n (removeKid c!"annotation" nd.xsdKids).2 = nd.count n := fun n hn => cnt_other hn
  have c1 := cn c!"simpleContent" (by decide)
  have c2 := cn c!"complexContent" (by decide)
  have c3 := cn c!"sequence" (by decide)
  have c4 := cn c!"all" (by decide)
  have c5 := cn c!"choice" (by decide)
  have c6 := cn c!"attribute" (by decide)
  have names : ∀ c ∈ (removeKid c!"annotation" nd.xsdKids).2, c.name = c!"simpleContent" ∨ c.name = c!"complexContent" ∨ c.name = c!"sequence" ∨
      c.name = c!"all" ∨ c.name = c!"choice" ∨ c.name = c!"attribute" := by
    intro c hcm
    obtain ⟨k', hst⟩ := hc c (removeKid_rest_mem hcm)
    cases hst with
    | complexSimpleContent _ hn => simp [hn]
    | complexComplexContent _ hn => simp [hn]
    | complexSequence _ hn => simp [hn]
    | complexAll _ hn => simp [hn]
    | complexChoice _ hn => simp [hn]
    | complexAttribute _ hn => simp [hn]
    | complexAnnotation _ hn => exact absurd hn (hann c hcm)
  have single : ∀ {n child rest}, n = c!"simpleContent" ∨ n = c!"complexContent" →
      removeKid n (removeKid c!"annotation" nd.xsdKids).2 = (some child, rest) → ∀ c ∈ rest, False := by
    intro n child rest hn hr c hcm
    have hpos : 1 ≤ cnt n (removeKid c!"annotation" nd.xsdKids).2 := by
      have := cnt_same (n := n) (ks := (removeKid c!"annotation" nd.xsdKids).2)
      rw [hr] at this
      simp only [Option.toList_some, List.length_singleton] at this
      omega
    have hc' : c ∈ (removeKid c!"annotation" nd.xsdKids).2 := removeKid_rest_mem (n := n) (by rw [hr]; exact hcm)
    have hz : cnt n rest = 0 := by
      have hle : cnt n (removeKid c!"annotation" nd.xsdKids).2 ≤ 1 := by
        rcases hn with rfl | rfl <;> omega
      have := rest_names hx' hle
      rw [hr] at this
      exact this
    have zero : ∀ {m}, cnt m (removeKid c!"annotation" nd.xsdKids).2 = 0 → c.name ≠ m := fun h0 => cnt_zero.1 h0 c hc'
    have nz : c.name ≠ n := cnt_zero.1 hz c hcm
    have hsum : nd.count c!"simpleContent" + nd.count c!"complexContent" = 1 := by rcases hn with rfl | rfl <;> omega
    have hat := hf4 hsum
    rcases names c hc' with h' | h' | h' | h' | h' | h'
    · rcases hn with rfl | rfl
      · exact nz h'
      · exact zero (by omega) h'
    · rcases hn with rfl | rfl
      · exact zero (by omega) h'
      · exact nz h'
    · exact zero (by omega) h'
    · exact zero (by omega) h'
    · exact zero (by omega) h'
    · exact zero (by omega) h'
  split
  · next child rest hr =>
    have hm := removeKid_rest_mem (removeKid_mem hr)
    have hn := name_of_info (rk_name (by rw [hr])).1
    exact .bind (.lift (no_children _ (single (.inl rfl) hr)) trivial (Q := Any)) fun _ _ =>
      .bind (parseSimpleContent_quiet hN (legal_step h (.complexSimpleContent hm hn))) fun _ _ => .pure trivial
  · next hr1 =>
    have z1 := cnt_of_none hx' (show (removeKid c!"simpleContent" _).1 = none by rw [hr1])
    split
    · next child rest hr =>
      have hm := removeKid_rest_mem (removeKid_mem hr)
      have hn := name_of_info (rk_name (by rw [hr])).1
      exact .bind (.lift (no_children _ (single (.inr rfl) hr)) trivial (Q := Any)) fun _ _ =>
        .bind (ih.complexContent (kid_fresh hm) (legal_step h (.complexComplexContent hm hn))) fun _ _ => .pure trivial
    · next hr2 =>
      have z2 := cnt_of_none hx' (show (removeKid c!"complexContent" _).1 = none by rw [hr2])
      refine .bind (ih.particle hx' (fun c hcm => kid_fresh (removeKid_rest_mem hcm)) (by omega) ?_ ?_) ?_
      · intro c hcm hn
        have hm := removeKid_rest_mem hcm
        refine ⟨(hf5 c hm hn).1, (hf5 c hm hn).2, ?_⟩
        rcases hn with hn | hn
        · exact legal_step h (.complexSequence hm hn)
        · exact legal_step h (.complexAll hm hn)
      · intro c hcm hn
        exact legal_step h (.complexChoice (removeKid_rest_mem hcm) hn)
      · rintro ⟨content, rest⟩ hrest
        dsimp only at hrest ⊢
        refine .bind (parseAttributes_quiet hN fun d hd => ?_) fun _ _ => .bind (.lift (no_children _ ?_) trivial (Q := Any)) fun _ _ => .pure trivial
        · have hd' := List.mem_filter.1 hd
          have hm := removeKid_rest_mem (hrest d hd'.1).1
          exact ⟨kid_fresh hm, legal_step h (.complexAttribute hm (name_of_info (of_decide_eq_true hd'.2)))⟩
        · intro d hd
          have hd' := List.mem_filter.1 hd
          obtain ⟨g1, g2⟩ := hrest d hd'.1
          have hat : d.name ≠ c!"attribute" := by
            intro hn
            have := (info_iff (hx' d g1)).2 hn
            simp [this] at hd'
          simp only [List.mem_cons, List.not_mem_nil, or_false, not_or] at g2
          rcases names d g1 with h' | h' | h' | h' | h' | h'
          · exact cnt_zero.1 z1 d g1 h'
          · exact cnt_zero.1 z2 d g1 h'
          · exact g2.1 h'
          · exact g2.2.1 h'
          · exact g2.2.2 h'
          · exact hat h'

omit hN in
theorem quiet_particle {k : Nat} (ih : AllQuiet x e k) {kids : List Nd} {p : Name} (hx : AllXsd kids) (hs : ∀ c ∈ kids, c.seen = [])
    (hcnt : cnt c!"sequence" kids + cnt c!"all" kids + cnt c!"choice" kids ≤ 1)
    (hseq : ∀ c ∈ kids, c.name = c!"sequence" ∨ c.name = c!"all" → MinOK c ∧ MaxOK c ∧ Legal x e (.sequence minMax) c)
    (hch : ∀ c ∈ kids, c.name = c!"choice" → Legal x e (.choice []) c) :
    (parseParticle x (k + 1) kids p).Quiet e (fun r => ∀ c ∈ r.2, c ∈ kids ∧ c.name ∉ [c!"sequence", c!"all", c!"choice"]) := by
  have rest_ok : ∀ {n child rest}, n ∈ [c!"sequence", c!"all", c!"choice"] → removeKid n kids = (some child, rest) →
      ∀ c ∈ rest, c ∈ kids ∧ c.name ∉ [c!"sequence", c!"all", c!"choice"] := by
    intro n child rest hn hr c hc
    have hck : c ∈ kids := removeKid_rest_mem (n := n) (by rw [hr]; exact hc)
    refine ⟨hck, fun hmem => ?_⟩
    have hpos : 1 ≤ cnt n kids := by
      have := cnt_same (n := n) (ks := kids)
      rw [hr] at this
      simp only [Option.toList_some, List.length_singleton] at this
      omega
    have nz : c.name ≠ n := by
      have := rest_names hx (n := n) (by
        simp only [List.mem_cons, List.not_mem_nil, or_false] at hn
        rcases hn with rfl | rfl | rfl <;> omega)
      rw [hr] at this
      exact cnt_zero.1 this c hc
    simp only [List.mem_cons, List.not_mem_nil, or_false] at hn hmem
    rcases hmem with h | h | h
    all_goals
      rcases hn with rfl | rfl | rfl
      all_goals first
        | exact nz h
        | exact cnt_zero.1 (show cnt c!"sequence" kids = 0 by omega) c hck h
        | exact cnt_zero.1 (show cnt c!"all" kids = 0 by omega) c hck h
        | exact cnt_zero.1 (show cnt c!"choice" kids = 0 by omega) c hck h
  have hfirst : ∀ {c rest}, (match removeKid c!"sequence" kids with
      | (some c, rest) => (some c, rest)
      | (none, _) => removeKid c!"all" kids) = (some c, rest) →
      c ∈ kids ∧ (c.name = c!"sequence" ∨ c.name = c!"all") ∧ ∀ d ∈ rest, d ∈ kids ∧ d.name ∉ [c!"sequence", c!"all", c!"choice"] := by
    intro c rest hc
    split at hc
    · next hr =>
      cases hc
      exact ⟨removeKid_mem hr, .inl (name_of_info (rk_name (by rw [hr])).1), rest_ok (by simp) hr⟩
    · exact ⟨removeKid_mem hc, .inr (name_of_info (rk_name (by rw [hc])).1), rest_ok (by simp) hc⟩
  unfold parseParticle
  split
  · next child rest hr =>
    obtain ⟨h1, h2, h3⟩ := hfirst hr
    obtain ⟨g1, g2, g3⟩ := hseq _ h1 h2
    obtain ⟨mn, hmn⟩ := minOccurs_ok g1
    obtain ⟨mx, hmx⟩ := maxOccurs_ok g2
    refine .bind (.lift hmn trivial (Q := Any)) fun mn _ => .bind (.lift hmx trivial (Q := Any)) fun mx _ =>
      .bind (ih.sequence (hs _ h1) g3) fun ls _ => ?_
    dsimp only
    split
    · exact .bind (addGroup_quiet _ _ _ _ _ _ _) fun _ _ => .pure h3
    · exact .pure h3
  · next hr =>
    split
    · next child rest hr =>
      have hm := removeKid_mem hr
      exact .bind (ih.choice (hs _ hm) (hch _ hm (name_of_info (rk_name (by rw [hr])).1))) fun _ _ => .bind (.nodeName _) fun _ _ =>
        .bind (.deriveVirtualName _ _ _) fun _ _ => .bind (.addRoot _ _) fun _ _ => .bind (.discoverType _ _) fun _ _ =>
        .pure (rest_ok (by simp) hr)
    · next hr3 =>
      have z3 := cnt_of_none hx (show (removeKid c!"choice" kids).1 = none by rw [hr3])
      have z : cnt c!"sequence" kids = 0 ∧ cnt c!"all" kids = 0 := by
        split at hr
        · cases hr
        · next hr1 =>
          exact ⟨cnt_of_none hx (by rw [hr1]), cnt_of_none hx (by rw [hr])⟩
      refine .pure fun c hc => ⟨hc, fun hmem => ?_⟩
      simp only [List.mem_cons, List.not_mem_nil, or_false] at hmem
      rcases hmem with h | h | h
      · exact cnt_zero.1 z.1 c hc h
      · exact cnt_zero.1 z.2 c hc h
      · exact cnt_zero.1 z3 c hc h

theorem quiet_complexContent {k : Nat} (ih : AllQuiet x e k) {nd : Nd} {p : Name} (h : Legal x e .complexContent nd) :
    (parseComplexContent x (k + 1) nd p).Quiet e Any := by
  obtain ⟨ha, hc, hf1, hf2⟩ := legal_self h
  unfold parseComplexContent
  refine .bind (.lift (prevent_ok fun a h1 h2 => (ha nofun a h1 h2).elim) trivial (Q := Any)) fun _ _ => ?_
  obtain ⟨c, rest, h1, h2, h3, h4, h5⟩ := tryRemove_ok (nd := nd) (allXsd_kids nd) hf1
  refine .bind (.lift h1 rfl (Q := (· = (c, rest)))) ?_
  rintro _ rfl
  have hrest : ∀ d ∈ rest, False := by
    intro d hd
    obtain ⟨k', hs⟩ := hc d (removeKid_rest_mem (n := c!"extension") (by rw [h2]; exact hd))
    cases hs with
    | complexExtension _ hn => exact cnt_zero.1 h5 d hd hn
  refine .bind (.lift (no_children _ hrest) trivial (Q := Any)) fun _ _ => ?_
  obtain ⟨v, hv, hb⟩ := hf2 c h3
  obtain ⟨a, ha', rfl⟩ := value_some_iff.1 hv
  refine .bind (.lift (tryAttr_ok.2 ha') rfl (Q := (· = a))) ?_
  rintro a' rfl
  refine .bind (getTypeName_quiet_own hN hb) ?_
  rintro _ ⟨m, rfl⟩
  have hl := legal_step h (.complexExtension h3 h4)
  obtain ⟨_, hec, hef1, hef2⟩ := legal_self hl
  have hx := allXsd_kids c
  have kidsOf : ∀ d ∈ (if (removeKid c!"sequence" c.xsdKids).1.isSome = true then (removeKid c!"sequence" c.xsdKids).2 else c.xsdKids),
      d ∈ c.xsdKids ∧ d.name ≠ c!"sequence" := by
    intro d hd
    split at hd
    · exact ⟨removeKid_rest_mem hd, cnt_zero.1 (rest_names hx hef1) d hd⟩
    · next hn =>
      refine ⟨hd, cnt_zero.1 (cnt_of_none hx ?_) d hd⟩
      simpa using hn
  refine .bind (.discoverType _ _) fun _ _ => .bind (ih.extension fun d hd => ?_) fun vl _ =>
    .bind (parseAttributes_quiet hN fun d hd => ?_) fun _ _ => .bind (.lift (no_children _ ?_) trivial (Q := Any)) fun _ _ => ?_
  · have hm := rk_name hd
    have hn := name_of_info hm.1
    exact ⟨kid_fresh hm.2, hef2 d hm.2 hn, legal_step hl (.complexExtSequence hm.2 hn)⟩
  · have hd' := List.mem_filter.1 hd
    have hm := (kidsOf d hd'.1).1
    exact ⟨kid_fresh hm, legal_step hl (.complexExtAttribute hm (name_of_info (of_decide_eq_true hd'.2)))⟩
  · intro d hd
    have hd' := List.mem_filter.1 hd
    obtain ⟨hm, hns⟩ := kidsOf d hd'.1
    obtain ⟨k', hst⟩ := hec d hm
    cases hst with
    | complexExtAttribute _ hn => simp [kid_info hm hn] at hd'
    | complexExtSequence _ hn => exact hns hn
  · split
    · exact .pure trivial
    · exact .bind (.nodeName _) fun _ _ => .pure trivial

omit hN in
theorem quiet_extension {k : Nat} (ih : AllQuiet x e k) {o : Option Nd} {b p : Name}
    (h : ∀ c, o = some c → c.seen = [] ∧ MinOK c ∧ Legal x e (.sequence [c!"minOccurs"]) c) : (parseExtension x (k + 1) o b p).Quiet e Any := by
  cases o with
  | none => exact .pure trivial
  | some c =>
    obtain ⟨h1, h2, h3⟩ := h c rfl
    obtain ⟨mn, hmn⟩ := minOccurs_ok h2
    unfold parseExtension
    exact .bind (.lift hmn trivial (Q := Any)) fun _ _ => .bind (ih.sequence h1 h3) fun _ _ => .bind (.nodeName _) fun _ _ =>
      .bind (.deriveVirtualName _ _ _) fun _ _ => .bind (.addRoot _ _) fun _ _ => .bind (.discoverType _ _) fun _ _ => .pure trivial

omit hN in
theorem quiet_sequence {k : Nat} (ih : AllQuiet x e k) {occ : List Str} {nd : Nd} {p : Name} (h : Legal x e (.sequence occ) nd) :
    (parseSequence x (k + 1) (nd.sees occ) p).Quiet e Any := by
  obtain ⟨ha, hc, hf⟩ := legal_self h
  unfold parseSequence
  refine .bind (.lift (prevent_ok fun a h1 h2 => List.mem_append_left _ (ha nofun a h1 h2)) trivial (Q := Any)) fun _ _ =>
    parseLeaves_quiet fun c hm => ?_
  have hm : c ∈ nd.xsdKids := hm
  split
  · next hn => exact .bind (ih.elementChild (kid_fresh hm) hn (legal_step h (.seqElement hm hn))) fun _ _ => .pure trivial
  · next n1 =>
    split
    · next hn =>
      obtain ⟨g1, g2⟩ := (hf c hm).1 hn
      obtain ⟨mn, hmn⟩ := minOccurs_ok g1
      obtain ⟨mx, hmx⟩ := maxOccurs_ok g2
      exact .bind (.lift hmn trivial (Q := Any)) fun _ _ => .bind (.lift hmx trivial (Q := Any)) fun _ _ =>
        .bind (ih.choice (kid_fresh hm) (legal_step h (.seqChoice hm hn))) fun _ _ => .bind (addGroup_quiet _ _ _ _ _ _ _) fun _ _ => .pure trivial
    · next n2 =>
      split
      · next hn =>
        obtain ⟨g1, g2⟩ := (hf c hm).2 hn
        obtain ⟨mn, hmn⟩ := minOccurs_ok g1
        obtain ⟨d, hd⟩ := docs_ok (x := x) g2
        exact .bind (.lift hd trivial (Q := Any)) fun _ _ => .bind (.lift hmn trivial (Q := Any)) fun _ _ =>
          .bind (ih.sequence (kid_fresh hm) (legal_step h (.seqSequence hm hn))) fun _ _ => .bind (addGroup_quiet _ _ _ _ _ _ _) fun _ _ => .pure trivial
      · next n3 =>
        split
        · exact .pure trivial
        · next n4 =>
          exfalso
          rcases hc c hm with hn | ⟨k', hst⟩
          · exact n4 hn
          · cases hst with
            | seqElement _ hn => exact n1 hn
            | seqChoice _ hn => exact n2 hn
            | seqSequence _ hn => exact n3 hn

omit hN in
theorem quiet_choice {k : Nat} (ih : AllQuiet x e k) {occ : List Str} {nd : Nd} {p : Name} (h : Legal x e (.choice occ) nd) :
    (parseChoice x (k + 1) (nd.sees occ) p).Quiet e Any := by
  obtain ⟨ha, hc, hf⟩ := legal_self h
  unfold parseChoice
  refine .bind (.lift (prevent_ok fun a h1 h2 => List.mem_append_left _ (ha nofun a h1 h2)) trivial (Q := Any)) fun _ _ =>
    parseLeaves_quiet fun c hm => ?_
  have hm : c ∈ nd.xsdKids := hm
  split
  · next hn => exact .bind (ih.elementChild (kid_fresh hm) hn (legal_step h (.choiceElement hm hn))) fun _ _ => .pure trivial
  · next n1 =>
    split
    · next hn =>
      obtain ⟨g1, g2, g3⟩ := hf c hm hn
      obtain ⟨mn, hmn⟩ := minOccurs_ok g1
      obtain ⟨mx, hmx⟩ := maxOccurs_ok g2
      obtain ⟨d, hd⟩ := docs_ok (x := x) g3
      exact .bind (.lift hd trivial (Q := Any)) fun _ _ => .bind (.lift hmn trivial (Q := Any)) fun _ _ => .bind (.lift hmx trivial (Q := Any)) fun _ _ =>
        .bind (ih.sequence (kid_fresh hm) (legal_step h (.choiceSequence hm hn))) fun _ _ => .bind (.nodeName _) fun _ _ =>
        .bind (addGroup_quiet _ _ _ _ _ _ _) fun _ _ => .pure trivial
    · next n2 =>
      split
      · exact .pure trivial
      · next n4 =>
        exfalso
        rcases hc c hm with hn | ⟨k', hst⟩
        · exact n4 hn
        · cases hst with
          | choiceElement _ hn => exact n1 hn
          | choiceSequence _ hn => exact n2 hn

theorem quiet_elementChild {k : Nat} (ih : AllQuiet x e k) {nd : Nd} {p : Name} (hname : nd.name = c!"element") (h : Legal x e .localElement nd) :
    (parseElementChild x (k + 1) nd p).Quiet e Any := by
  obtain ⟨ha, hc, hf1, hf2, hf3, hf4⟩ := legal_self h
  replace ha := ha nofun
  have hx := allXsd_kids nd
  unfold parseElementChild
  obtain ⟨mn, hmn⟩ := minOccurs_ok hf1
  obtain ⟨mx, hmx⟩ := maxOccurs_ok hf2
  refine .bind (.lift hmn trivial (Q := Any)) fun mn _ => .bind (.lift hmx trivial (Q := Any)) fun mx _ => ?_
  dsimp only
  split
  · next a hr =>
    have hr : nd.attr c!"ref" = some a := hr
    refine .bind (.lift (prevent_ok fun b h1 h2 => ?_) trivial (Q := Any)) fun _ _ => ?_
    · have h1 : Effective nd b := h1
      rcases ha b h1 h2 with h3 | h3 | ⟨_, h3⟩ | ⟨h3, _⟩
      · rw [h3]; exact .tail _ (.tail _ (.head _))
      · rw [h3]; exact .tail _ (.head _)
      · rw [h3]; exact .head _
      · rw [hr] at h3; cases h3
    · refine .bind (getTypeName_quiet_own hN (hf3 _ (value_some hr))) ?_
      rintro _ ⟨m, rfl⟩
      exact .bind (.discoverType _ _) fun _ _ => .pure trivial
  · next hr =>
    have hr : nd.attr c!"ref" = none := hr
    obtain ⟨f1, f2, f3, f4⟩ := hf4 (value_none.2 hr)
    obtain ⟨na, hna⟩ : ∃ na, nd.attr c!"name" = some na := Option.ne_none_iff_exists'.1 (fun hn => f1 (value_none.2 hn))
    obtain ⟨d, hd⟩ := docs_ok (x := x) f2
    refine .bind (.lift (tryAttr_ok.2 hna) trivial (Q := Any)) fun _ _ => .bind (.nodeName _) fun name _ =>
      .bind (.lift hd trivial (Q := Any)) fun docs _ => ?_
    -- the attributes that have been looked at
    have attrs : ∀ b, Effective nd b → b.ns = none →
        b.loc ∈ [c!"type", c!"form", c!"default", c!"name", c!"ref", c!"maxOccurs", c!"minOccurs"] ∨ (b.loc = c!"fixed" ∧ BuiltinType e nd) := by
      intro b h1 h2
      rcases ha b h1 h2 with h3 | h3 | ⟨h3, _⟩ | ⟨_, h3 | h3⟩
      · simp [h3]
      · simp [h3]
      · exact absurd hr h3
      · simp only [List.mem_cons, List.not_mem_nil, or_false] at h3
        rcases h3 with h3 | h3 | h3 | h3 <;> simp [h3]
      · exact .inr h3
    split
    · next a ht =>
      have ht : nd.attr c!"type" = some a := ht
      refine .bind (parseTypeAttr_quiet hN (f3 _ (value_some ht))) ?_
      rintro ⟨content, nd'⟩ ⟨h1, h2, h3⟩
      dsimp only at h1 h2 h3 ⊢
      refine .bind (.lift (prevent_ok fun b hb hb' => ?_) trivial (Q := Any)) fun _ _ => .pure trivial
      have hb : Effective nd b := by unfold Effective at hb ⊢; rw [h1] at hb; exact hb
      rcases attrs b hb hb' with h4 | ⟨h4, v, n, h5, h6⟩
      · exact h2 _ (List.mem_append_left nd.seen h4)
      · cases Option.some.inj ((value_some ht).symm.trans h5)
        exact h4 ▸ h3 ⟨n, h6⟩
    · next ht =>
      have ht : nd.attr c!"type" = none := ht
      have hvt := value_none.2 ht
      have attrs' : ∀ b, Effective nd b → b.ns = none →
          b.loc ∈ [c!"type", c!"form", c!"default", c!"name", c!"ref", c!"maxOccurs", c!"minOccurs"] := by
        intro b h1 h2
        rcases attrs b h1 h2 with h3 | ⟨_, v, n, h5, _⟩
        · exact h3
        · rw [hvt] at h5; cases h5
      split
      · exact .bind (.lift (prevent_ok fun b h1 h2 => List.mem_append_left nd.seen (attrs' b h1 h2)) trivial (Q := Any)) fun _ _ => .pure trivial
      · next hnn =>
        refine .bind (.lift (prevent_ok fun b h1 h2 => List.mem_append_left nd.seen (attrs' b h1 h2)) trivial (Q := Any)) fun _ _ =>
          .bind (.nodeName _) fun _ _ => .bind (.deriveVirtualName _ _ _) fun vn _ => .bind (ih.root hname ?_) fun _ _ =>
          .bind (.addRoot _ _) fun _ _ => .bind (.discoverType _ _) fun _ _ => .pure trivial
        -- one of the two kinds of types is there
        have hex : ∃ c ∈ nd.xsdKids, c.name = c!"complexType" ∨ c.name = c!"simpleType" := by
          apply Classical.byContradiction
          intro hne
          apply hnn
          have none_of : ∀ n, (∀ c ∈ nd.xsdKids, c.name ≠ n) → (nd.child n).isNone = true := by
            intro n hn
            rw [child_find, Option.isNone_iff_eq_none, List.find?_eq_none]
            intro c hm
            simpa using hn c hm
          exact ⟨none_of _ fun c hm hn => hne ⟨c, hm, .inr hn⟩, none_of _ fun c hm hn => hne ⟨c, hm, .inl hn⟩⟩
        obtain ⟨c, hm, hn⟩ := hex
        have hstep : ∃ k' c, Step .localElement nd k' c := by
          rcases hn with hn | hn
          · exact ⟨_, c, .localComplexType hm hr ht hn⟩
          · exact ⟨_, c, .localSimpleType hm hr ht hn⟩
        have hpos : nd.count c!"complexType" + nd.count c!"simpleType" ≠ 0 := by
          intro h0
          rcases hn with hn | hn
          · exact cnt_zero.1 (show cnt c!"complexType" nd.xsdKids = 0 from Nat.eq_zero_of_add_eq_zero_right h0) c hm hn
          · exact cnt_zero.1 (show cnt c!"simpleType" nd.xsdKids = 0 from Nat.eq_zero_of_add_eq_zero_left h0) c hm hn
        obtain ⟨g1, g2⟩ := (f4 hvt).resolve_left hpos
        exact {
          ann := g2
          docs := f2
          kids := by
            intro c hm
            rcases hc hstep c hm with hn | ⟨k', hst⟩
            · exact .inl hn
            · refine .inr ⟨ht, ?_⟩
              cases hst with
              | localComplexType _ _ _ hn => exact .inl hn
              | localSimpleType _ _ _ hn => exact .inr hn
          typed := f3
          anon := fun _ => g1
          attrs := fun b h1 h2 => .inl (List.mem_append_left nd.seen (attrs' b h1 h2))
          ct := fun c hm _ hn => legal_step h (.localComplexType hm hr ht hn)
          st := fun c hm _ hn => legal_step h (.localSimpleType hm hr ht hn) }

theorem allQuiet (k : Nat) : AllQuiet x e k := by
  induction k with
  | zero =>
    constructor
    case extension => intros; unfold parseExtension; exact .diverge
    all_goals (intros; exact .diverge)
  | succ k ih =>
    constructor
    case root =>
      intro nd p hn h
      unfold parseRoot
      rw [if_pos hn]
      exact ih.elementRoot h
    case elementRoot => exact quiet_elementRoot hN ih
    case complexType => exact quiet_complexType hN ih
    case particle => exact quiet_particle ih
    case complexContent => exact fun _ => quiet_complexContent hN ih
    case extension => exact quiet_extension ih
    case sequence => exact fun _ => quiet_sequence ih
    case choice => exact fun _ => quiet_choice ih
    case elementChild => exact fun _ => quiet_elementChild hN ih

/-- Supported definitions are parsed without an error. -/
theorem definition_quiet {kind : Kind} {nd : Nd} (hk : topKind nd.name = some kind) (hs : nd.seen = []) (h : Legal x e kind nd) (k : Nat) (p : Name) :
    (parseRoot x k (nd.see c!"name") p).Quiet e Any := by
  cases k with
  | zero => exact .diverge
  | succ k =>
    unfold parseRoot
    have hname : (nd.see c!"name").name = nd.name := rfl
    rw [hname]
    unfold topKind at hk
    split at hk
    · next hn =>
      cases hk
      rw [if_pos hn]
      obtain ⟨ha, hc, hf1, hf2, hf3⟩ := legal_self h
      refine (allQuiet hN k).elementRoot {
          ann := hf1
          docs := docsOK_legal fun c hm hn => legal_step h (.topAnnotation hm hn)
          kids := ?_
          typed := hf2
          anon := hf3
          attrs := ?_
          ct := fun c hm ht hn => legal_step h (.topComplexType hm ht hn)
          st := fun c hm ht hn => legal_step h (.topSimpleType hm ht hn) }
      · intro c hm
        obtain ⟨k', hst⟩ := hc c hm
        cases hst with
        | topComplexType _ ht hn => exact .inr ⟨ht, .inl hn⟩
        | topSimpleType _ ht hn => exact .inr ⟨ht, .inr hn⟩
        | topAnnotation _ hn => exact .inl hn
      · intro a h1 h2
        rcases ha nofun a h1 h2 with h3 | h3 | h3
        · exact .inl (h3 ▸ .head _)
        · exact .inr (.inl h3)
        · exact .inr (.inr h3)
    · next n1 =>
      split at hk
      · next hn =>
        cases hk
        rw [if_neg n1, if_pos hn]
        exact (allQuiet hN k).complexType (t := true) hs h
      · next n2 =>
        split at hk
        · next hn =>
          cases hk
          rw [if_neg n1, if_neg n2, if_pos hn]
          exact parseSimpleType_quiet hN (t := true) h
        · cases hk

end

end Xsd
