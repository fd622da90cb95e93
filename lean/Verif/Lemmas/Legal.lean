import Verif.Spec.Legal
import Verif.Props.Grammar
import Verif.Lemmas.Terminates
/-!
# Counting children, and what a successful run says about a node
-/
namespace Xsd

/-! ## Counting -/

/-- The number of nodes with a name. -/
def cnt (n : Str) (ks : List Nd) : Nat := ks.countP (fun c => c.name = n)

/-- All nodes are in the XSD namespace. -/
def AllXsd (ks : List Nd) : Prop := ∀ c ∈ ks, c.info.name.ns = some nsXsd

theorem allXsd_kids (nd : Nd) : AllXsd nd.xsdKids := fun _ hc => (mem_xsdKids hc).choose_spec.2.2

theorem allXsd_rest {n : Str} {ks : List Nd} (h : AllXsd ks) : AllXsd (removeKid n ks).2 := fun c hc => h c (removeKid_rest_mem hc)

theorem info_iff {c : Nd} {n : Str} (h : c.info.name.ns = some nsXsd) : c.info.name = ⟨n, some nsXsd⟩ ↔ c.name = n := by
  unfold Nd.name
  generalize c.info.name = q at h
  cases q
  cases h
  exact ⟨fun h => by cases h; rfl, fun h => by cases h; rfl⟩

theorem cnt_cons {n : Str} {c : Nd} {ks : List Nd} : cnt n (c :: ks) = cnt n ks + (if c.name = n then 1 else 0) := by
  unfold cnt
  rw [List.countP_cons]
  simp only [decide_eq_true_eq]

theorem cnt_other {n m : Str} {ks : List Nd} (hm : m ≠ n) : cnt m (removeKid n ks).2 = cnt m ks := by
  induction ks with
  | nil => rfl
  | cons c cs ih =>
    unfold removeKid
    split
    · next h =>
      rw [cnt_cons, if_neg (by rw [name_of_info h]; exact Ne.symm hm)]
      rfl
    · dsimp only
      rw [cnt_cons, cnt_cons, ih]

theorem cnt_same {n : Str} {ks : List Nd} : cnt n ks = (removeKid n ks).1.toList.length + cnt n (removeKid n ks).2 := by
  induction ks with
  | nil => rfl
  | cons c cs ih =>
    unfold removeKid
    split
    · next h =>
      rw [cnt_cons, if_pos (name_of_info h), Nat.add_comm]
      rfl
    · dsimp only
      rw [cnt_cons, cnt_cons, ih, Nat.add_assoc]

theorem cnt_zero {n : Str} {ks : List Nd} : cnt n ks = 0 ↔ ∀ c ∈ ks, c.name ≠ n := by
  unfold cnt
  rw [List.countP_eq_zero]
  simp only [decide_eq_true_eq, ne_eq]

theorem rk_some_of_cnt {n : Str} {ks : List Nd} (hx : AllXsd ks) (h : cnt n ks ≠ 0) : ∃ k, (removeKid n ks).1 = some k := by
  cases hk : (removeKid n ks).1 with
  | some k => exact ⟨k, rfl⟩
  | none =>
    exfalso
    refine h (cnt_zero.2 fun c hc hn => ?_)
    rcases rk_mem n hc with h' | h'
    · rw [hk] at h'; cases h'
    · exact (rk_none hk).2 c hc ((info_iff (hx c hc)).2 hn)

theorem rk_none_of_cnt {n : Str} {ks : List Nd} (h : cnt n ks = 0) : removeKid n ks = (none, ks) := by
  cases hk : removeKid n ks with
  | mk o r =>
    cases o with
    | none => rw [(removeKid_none hk).1]
    | some k => exact absurd (name_of_info (rk_name (by rw [hk])).1) (cnt_zero.1 h k (removeKid_mem hk))

theorem cnt_of_none {n : Str} {ks : List Nd} (hx : AllXsd ks) (h : (removeKid n ks).1 = none) : cnt n ks = 0 :=
  Classical.byContradiction fun hc => by obtain ⟨k, hk⟩ := rk_some_of_cnt hx hc; rw [h] at hk; cases hk

/-- After one removal of a name that occurs at most once, the name does not occur. -/
theorem rest_names {n : Str} {ks : List Nd} (hx : AllXsd ks) (h : cnt n ks ≤ 1) : cnt n (removeKid n ks).2 = 0 := by
  by_cases h0 : cnt n ks = 0
  · rw [rk_none_of_cnt h0]; exact h0
  · obtain ⟨k, hk⟩ := rk_some_of_cnt hx h0
    have := cnt_same (n := n) (ks := ks)
    rw [hk] at this
    simp only [Option.toList_some, List.length_singleton] at this
    omega

theorem eq_nil_of_no_mem {ks : List Nd} (h : ∀ c ∈ ks, False) : ks = [] := by
  cases ks with
  | nil => rfl
  | cons c cs => exact (h c (.head _)).elim

theorem opt_length_le {α : Type} (o : Option α) : o.toList.length ≤ 1 := by cases o <;> simp

theorem child_find {nd : Nd} {n : Str} : nd.child n = nd.xsdKids.find? (fun c => c.name = n) := by
  unfold Nd.child Nd.xsdKids
  rw [List.find?_map, List.find?_filter]
  congr 1
  congr 1
  funext e
  rw [Bool.eq_iff_iff]
  rw [Elem.is_iff, decide_eq_true_iff]
  show e.1.name = _ ↔ _ ∧ decide ((Nd.of e).name = n) = true
  rw [decide_eq_true_iff, decide_eq_true_iff]
  show (Nd.of e).info.name = _ ↔ (Nd.of e).info.name.ns = _ ∧ _
  refine ⟨fun h => ⟨by rw [h], name_of_info h⟩, fun h => (info_iff h.1).2 h.2⟩

/-! ## References -/

theorem getTypeName_builtin {a : XAttr} {s s' : PCtx} {t : LiteralType} (h : getTypeName a s = .ok (.literal t, s')) :
    Builtin s.env a.value := by
  have hl : ∀ {n}, P.lift (literalOr n a) s = .ok (.literal t, s') → (n, t) ∈ builtin := by
    intro n hh
    rw [P.lift_ok] at hh
    obtain ⟨hh, _⟩ := hh
    unfold literalOr at hh
    split at hh
    · next t' ht => cases hh; exact (literalFromStr_builtin _ _).1 ht
    · cases hh
  unfold getTypeName at h
  split at h
  · next p n hs =>
    split at h
    · cases h
    · next uri hu =>
      split at h
      · next hx => exact ⟨n, t, .inl ⟨p, uri, splitn2_prefixed.1 hs, alookup_mem hu, by rw [hx]⟩, hl h⟩
      · cases h
  · next n hs =>
    split at h
    · next hd =>
      have hnc : ':' ∉ a.value := by
        intro hc
        obtain ⟨p, m, hp⟩ := firstColon hc
        rw [splitn2_prefixed.2 hp] at hs
        cases hs
      have hv : n = a.value := by
        rw [splitn2_unprefixed hnc] at hs
        cases hs; rfl
      subst hv
      exact ⟨a.value, t, .inr ⟨hnc, rfl, hd.symm⟩, hl h⟩
    · cases h

theorem getTypeName_own {a : XAttr} {s s' : PCtx} {m : Name} (h : getTypeName a s = .ok (.named m, s')) :
    OwnType s.env a.value := by
  have hl : ∀ {n}, P.lift (literalOr n a) s ≠ .ok (.named m, s') := by
    intro n hh
    rw [P.lift_ok] at hh
    obtain ⟨hh, _⟩ := hh
    unfold literalOr at hh
    split at hh <;> cases hh
  unfold getTypeName at h
  split at h
  · next p n hs =>
    split at h
    · cases h
    · next uri hu =>
      split at h
      · exact (hl h).elim
      · next hx => exact ⟨n, some uri, .inl ⟨p, uri, splitn2_prefixed.1 hs, alookup_mem hu, rfl⟩, fun h => hx (Option.some.inj h)⟩
  · next n hs =>
    split at h
    · exact (hl h).elim
    · next hd =>
      have hnc : ':' ∉ a.value := by
        intro hc
        obtain ⟨p, m, hp⟩ := firstColon hc
        rw [splitn2_prefixed.2 hp] at hs
        cases hs
      exact ⟨a.value, s.defaultNs, .inr ⟨hnc, rfl, rfl⟩, hd⟩

theorem typeAttr_resolves {nd nd' : Nd} {a : XAttr} {parent : Name} {s s' : PCtx} {c : LeafContent}
    (h : TypeAttrRun nd a parent s c nd' s') : Resolves s.env a.value := by
  cases h with
  | named n s1 h => exact .inr (getTypeName_own h)
  | fixed t s1 f h hf => exact .inl (getTypeName_builtin h)
  | literal t s1 h hf => exact .inl (getTypeName_builtin h)

/-! ## A node that was interpreted is filled -/

theorem value_none {nd : Nd} {n : Str} : nd.value n = none ↔ nd.attr n = none := by
  unfold Nd.value
  cases nd.attr n <;> simp

theorem value_some_iff {nd : Nd} {n v : Str} : nd.value n = some v ↔ ∃ a, nd.attr n = some a ∧ a.value = v := by
  unfold Nd.value
  cases nd.attr n <;> simp

section
variable {x : Ext} {e : Env}

theorem annotation1_text {nd : Nd} {docs : Option Str} (h : parseAnnotation1 x nd = .ok docs) : HasText nd := by
  intro d hd
  unfold parseAnnotation1 at h
  obtain ⟨o, h1, h⟩ := Res.bind_eq_ok.1 h
  obtain ⟨_, hc, h⟩ := Res.bind_eq_ok.1 h
  rw [preventUnvisitedChildren_ok] at hc
  cases hk : nd.xsdKids with
  | nil => rw [hk] at hd; cases hd
  | cons c cs =>
    rw [hk] at hd
    cases hd
    have hn : d.info.name = ⟨c!"documentation", some nsXsd⟩ := by
      rcases rk_mem c!"documentation" (hk ▸ .head _ : d ∈ nd.xsdKids) with h' | h'
      · exact (rk_name h').1
      · exact (removeKids_rest hc).2 d h'
    rw [hk] at h1
    have e1 : removeKid c!"documentation" (d :: cs) = (some d, cs) := by unfold removeKid; rw [if_pos hn]
    rw [e1] at h1
    obtain ⟨t, ht, _⟩ := Res.bind_eq_ok.1 h1
    unfold Nd.tryText Nd.text at ht
    split at ht
    · next s hs =>
      split at hs
      · next s' rest hr => exact ⟨s', rest, hr⟩
      · cases hs
    · cases ht

theorem annotationOK_of {nd : Nd} {docs : Option Str} (hs : nd.seen = []) (h : parseAnnotation1 x nd = .ok docs) : AnnotationOK e nd := by
  have hp : ParsedAs x e .annotation nd := ⟨hs, docs, h⟩
  exact ⟨parsed_attrs hp, parsed_children hp, annotation1_text h⟩

theorem docsOK_of {nd : Nd} {docs : Option Str} (h : parseAnnotation x (nd.child c!"annotation") = .ok docs) : DocsOK e nd := by
  intro c hc
  rw [child_find, hc] at h
  exact annotationOK_of (kid_fresh (List.mem_of_find?_eq_some hc)) h

theorem facetOK_of {c : Nd} {r : Str ⊕ Restriction} (h : parseFacet x c = .ok r) : FacetOK x c := by
  have key : ∀ {α : Type} {f : XAttr → Res XErr α} {r}, (do let a ← c.tryAttr c!"value"; f a) = .ok r →
      ∃ a, c.value c!"value" = some a.value ∧ f a = .ok r := by
    intro α f r h
    obtain ⟨a, h1, h2⟩ := Res.bind_eq_ok.1 h
    exact ⟨a, value_some (tryAttr_ok.1 h1), h2⟩
  have us : ∀ {α : Type} {a : XAttr} {f : Nat → Res XErr α} {r}, (do let n ← parseUsize a; f n) = .ok r →
      ∃ n, Unsigned 18446744073709551615 a.value n := by
    intro α a f r h
    obtain ⟨n, h1, _⟩ := Res.bind_eq_ok.1 h
    exact ⟨n, parseUsize_ok.1 h1⟩
  have ds : ∀ {α : Type} {a : XAttr} {f : Nat → Res XErr α} {r}, (do let n ← parseDec x a; f n) = .ok r →
      x.parseDecimal a.value ≠ none := by
    intro α a f r h hn
    obtain ⟨n, h1, _⟩ := Res.bind_eq_ok.1 h
    unfold parseDec at h1
    rw [hn] at h1
    cases h1
  unfold parseFacet at h
  iterate 9
    split at h
    · next hn =>
      obtain ⟨a, hv, h⟩ := key h
      refine ⟨a.value, hv, ?_, ?_⟩
      · intro hm
        first
          | exact us h
          | (rw [hn] at hm; exact absurd hm (by decide))
      · intro hm
        first
          | exact ds h
          | (rw [hn] at hm; exact absurd hm (by decide))
  cases h

theorem facetsOK_of {cs : List Nd} {fs : List Str × List Restriction} (h : parseFacets x cs = .ok fs) : ∀ c ∈ cs, FacetOK x c := by
  induction cs generalizing fs with
  | nil => nofun
  | cons c cs ih =>
    unfold parseFacets at h
    obtain ⟨f, h1, h⟩ := Res.bind_eq_ok.1 h
    obtain ⟨r, h2, h⟩ := Res.bind_eq_ok.1 h
    intro d hd
    rcases List.mem_cons.1 hd with rfl | hd
    · exact facetOK_of h1
    · exact ih h2 d hd

/-- What `parseElementRoot` needs. -/
theorem elementRoot_filled {k : Nat} {nd : Nd} {parent : Name} {s s' : PCtx} {r : Root} (he : s.env = e)
    (h : parseElementRoot x k nd parent s = .ok (r, s')) :
    nd.count c!"annotation" ≤ 1 ∧ (∀ v, nd.value c!"type" = some v → Resolves e v) ∧
    (nd.value c!"type" = none → nd.count c!"complexType" + nd.count c!"simpleType" = 1) := by
  cases k with
  | zero => cases h
  | succ k =>
    have hx := allXsd_kids nd
    have hann : nd.count c!"annotation" = _ := cnt_same (n := c!"annotation") (ks := nd.xsdKids)
    have h1 : cnt c!"complexType" (removeKid c!"annotation" nd.xsdKids).2 = nd.count c!"complexType" := cnt_other (by decide)
    have h2 : cnt c!"simpleType" (removeKid c!"annotation" nd.xsdKids).2 = nd.count c!"simpleType" := cnt_other (by decide)
    have hle := opt_length_le (removeKid c!"annotation" nd.xsdKids).1
    cases parseElementRoot_run x h with
    | typed docs a c nd' s' hd ht hc hp hk =>
      rw [hk] at hann
      refine ⟨by rw [hann]; exact hle, ?_, ?_⟩
      · intro v hv
        rw [value_some ht] at hv
        cases hv
        exact he ▸ typeAttr_resolves hc
      · intro hn
        rw [value_none, ht] at hn
        cases hn
    | complexType docs child root s' hd ht hp hk h =>
      have c1 := cnt_same (n := c!"complexType") (ks := (removeKid c!"annotation" nd.xsdKids).2)
      have c2 := cnt_other (n := c!"complexType") (m := c!"simpleType") (ks := (removeKid c!"annotation" nd.xsdKids).2) (by decide)
      have c3 := cnt_other (n := c!"complexType") (m := c!"annotation") (ks := (removeKid c!"annotation" nd.xsdKids).2) (by decide)
      rw [hk] at c1 c2 c3
      change 0 = _ at c2
      change 0 = _ at c3
      change _ = 1 + 0 at c1
      refine ⟨by omega, ?_, fun _ => by omega⟩
      intro v hv
      rw [value_none.2 ht] at hv
      cases hv
    | simpleType docs child root s' hd ht hp hn hk h =>
      have c0 := cnt_of_none (allXsd_rest hx) hn
      have c1 := cnt_same (n := c!"simpleType") (ks := (removeKid c!"annotation" nd.xsdKids).2)
      have c3 := cnt_other (n := c!"simpleType") (m := c!"annotation") (ks := (removeKid c!"annotation" nd.xsdKids).2) (by decide)
      rw [hk] at c1 c3
      change 0 = _ at c3
      change _ = 1 + 0 at c1
      refine ⟨by omega, ?_, fun _ => by omega⟩
      intro v hv
      rw [value_none.2 ht] at hv
      cases hv

theorem minOK_of {c : Nd} {n : Nat} (h : parseMinOccurs (c.attr c!"minOccurs") = .ok n) : MinOK c := ⟨n, parseMinOccurs_minOf h⟩

theorem maxOK_of {c : Nd} {m : MaxOccurs} (h : parseMaxOccurs (c.attr c!"maxOccurs") = .ok m) : MaxOK c := ⟨m, parseMaxOccurs_maxOf h⟩

theorem rk_single {n : Str} {nd : Nd} {k : Nd} (h : removeKid n nd.xsdKids = (some k, [])) :
    nd.count n = 1 ∧ ∀ c ∈ nd.xsdKids, c = k := by
  have h1 := cnt_same (n := n) (ks := nd.xsdKids)
  rw [h] at h1
  exact ⟨h1, fun c hc => (rk_only h hc).1⟩

theorem cnt_nil {n : Str} : cnt n [] = 0 := rfl

theorem simpleType_filled {t : Bool} {nd : Nd} {s s' : PCtx} {r : Root} (he : s.env = e) (h : SimpleTypeRun x nd s r s') :
    Filled x e (.simpleType t) nd := by
  cases h with
  | mk docs restriction rest attr t s' fs hp hd hr ha ht hc hf =>
    subst hc
    have hann : nd.count c!"annotation" = _ := cnt_same (n := c!"annotation") (ks := nd.xsdKids)
    have h1 : cnt c!"restriction" (removeKid c!"annotation" nd.xsdKids).2 = nd.count c!"restriction" := cnt_other (by decide)
    have hle := opt_length_le (removeKid c!"annotation" nd.xsdKids).1
    have c1 := cnt_same (n := c!"restriction") (ks := (removeKid c!"annotation" nd.xsdKids).2)
    have c3 := cnt_other (n := c!"restriction") (m := c!"annotation") (ks := (removeKid c!"annotation" nd.xsdKids).2) (by decide)
    rw [hr] at c1 c3
    change 0 = _ at c3
    change _ = 1 + 0 at c1
    refine ⟨by omega, by omega, ?_⟩
    intro c hc hn
    have : c = restriction := (rk_only hr (rk_keep hc (by rw [hn]; decide))).1
    subst this
    exact ⟨attr.value, value_some ha, he ▸ getTypeName_builtin ht⟩

theorem attrContent_filled {nd nd' : Nd} {name parent : Name} {s s' : PCtx} {o : Option Nd} {c : LeafContent}
    (h : AttrContentRun x nd name parent s o c nd' s') : nd'.info = nd.info ∧
      (o = none → ∃ v, nd.value c!"type" = some v ∧ Resolves s.env v) := by
  cases h with
  | plain c t rs docs s' h => exact ⟨rfl, nofun⟩
  | inline c root s1 v h hv hne => exact ⟨rfl, nofun⟩
  | typed a c nd' s' ha h =>
    refine ⟨?_, fun _ => ⟨a.value, value_some ha, typeAttr_resolves h⟩⟩
    cases h <;> rfl

theorem value_info {nd nd' : Nd} (h : nd'.info = nd.info) (n : Str) : (nd'.attr n).map XAttr.value = nd.value n := by
  unfold Nd.value Nd.attr
  rw [h]

theorem attribute_filled {nd : Nd} {parent : Name} {s s' : PCtx} {r : Option Attribute} (he : s.env = e)
    (h : AttributeRun x nd parent s r s') : Filled x e .attribute nd := by
  have key : ∀ {nameAttr : XAttr} {content nd' s'}, nd.attr c!"name" = some nameAttr →
      AttrContentRun x (nd.see c!"name") ⟨nameAttr.value, .none⟩ parent s
        (removeKid c!"simpleType" (removeKid c!"annotation" nd.xsdKids).2).1 content nd' s' →
      (removeKid c!"simpleType" (removeKid c!"annotation" nd.xsdKids).2).2 = [] →
      nd'.info = nd.info ∧ nd.value c!"name" ≠ none ∧ nd.count c!"annotation" ≤ 1 ∧ nd.count c!"simpleType" ≤ 1 ∧
      (nd.count c!"simpleType" = 0 → ∃ v, nd.value c!"type" = some v ∧ Resolves e v) := by
    intro nameAttr content nd' s' hn hc hk
    obtain ⟨hi, hty⟩ := attrContent_filled hc
    have hann : nd.count c!"annotation" = _ := cnt_same (n := c!"annotation") (ks := nd.xsdKids)
    have h1 : cnt c!"simpleType" (removeKid c!"annotation" nd.xsdKids).2 = nd.count c!"simpleType" := cnt_other (by decide)
    have hle := opt_length_le (removeKid c!"annotation" nd.xsdKids).1
    have hle2 := opt_length_le (removeKid c!"simpleType" (removeKid c!"annotation" nd.xsdKids).2).1
    have c1 := cnt_same (n := c!"simpleType") (ks := (removeKid c!"annotation" nd.xsdKids).2)
    have c3 := cnt_other (n := c!"simpleType") (m := c!"annotation") (ks := (removeKid c!"annotation" nd.xsdKids).2) (by decide)
    rw [hk, cnt_nil] at c1 c3
    refine ⟨hi, by rw [value_some hn]; nofun, by omega, by omega, fun h0 => ?_⟩
    have : (removeKid c!"simpleType" (removeKid c!"annotation" nd.xsdKids).2).1 = none := by
      cases ho : (removeKid c!"simpleType" (removeKid c!"annotation" nd.xsdKids).2).1 with
      | none => rfl
      | some k => rw [ho] at c1; change _ = 1 + 0 at c1; omega
    exact he ▸ hty this
  cases h with
  | prohibited nameAttr docs content nd' s' hn hd hc hk hu =>
    obtain ⟨hi, k1, k2, k3, k4⟩ := key hn hc hk
    rw [value_info hi] at hu
    exact ⟨k1, k2, k3, k4, by rw [hu]; decide, by rw [hu]; intro h; exact absurd h (by decide)⟩
  | some nameAttr docs content nd' s' hn hd hc hk hu hx hp =>
    obtain ⟨hi, k1, k2, k3, k4⟩ := key hn hc hk
    rw [value_info hi] at hu hx
    refine ⟨k1, k2, k3, k4, ?_, ?_⟩
    · rcases hu with h | h | h <;> rw [h] <;> decide
    · intro hreq
      rw [← value_info hi]
      cases hdf : nd'.attr c!"default" with
      | none => rfl
      | some a => exact absurd hreq (hx (by rw [hdf]; rfl))

theorem leaves_each {Q : Nd → PCtx → Option Leaf → PCtx → Prop} {cs : List Nd} {s s' : PCtx} {ls : List Leaf}
    (h : LeavesRun Q cs s ls s') : ∀ c ∈ cs, ∃ s l s', Q c s l s' := by
  induction h with
  | nil s => nofun
  | skip c cs s s1 as s' h hs ih =>
    intro d hd
    rcases List.mem_cons.1 hd with rfl | hd
    · exact ⟨_, _, _, h⟩
    · exact ih d hd
  | cons c cs s s1 a as s' h hs ih =>
    intro d hd
    rcases List.mem_cons.1 hd with rfl | hd
    · exact ⟨_, _, _, h⟩
    · exact ih d hd

theorem particle_filled {k : Nat} {kids rest : List Nd} {parent : Name} {s s' : PCtx} {c : Option ElementContent}
    (hx : AllXsd kids) (h : ParticleRun x k kids parent s c rest s') :
    cnt c!"sequence" kids + cnt c!"all" kids + cnt c!"choice" kids ≤
      1 + (cnt c!"sequence" rest + cnt c!"all" rest + cnt c!"choice" rest) ∧
    (∀ n, n ≠ c!"sequence" → n ≠ c!"all" → n ≠ c!"choice" → cnt n kids = cnt n rest) ∧
    ∀ c ∈ kids, c.name = c!"sequence" ∨ c.name = c!"all" → (MinOK c ∧ MaxOK c) ∨ c ∈ rest := by
  have so : ∀ {child}, sequenceOrAll kids = (some child, rest) →
      (cnt c!"sequence" kids + cnt c!"all" kids + cnt c!"choice" kids ≤
        1 + (cnt c!"sequence" rest + cnt c!"all" rest + cnt c!"choice" rest)) ∧
      (∀ n, n ≠ c!"sequence" → n ≠ c!"all" → n ≠ c!"choice" → cnt n kids = cnt n rest) ∧
      ∀ c ∈ kids, c = child ∨ c ∈ rest := by
    intro child hk
    unfold sequenceOrAll at hk
    split at hk
    · next c rest' hk' =>
      cases hk
      have c1 := cnt_same (n := c!"sequence") (ks := kids)
      have c2 := cnt_other (n := c!"sequence") (m := c!"all") (ks := kids) (by decide)
      have c3 := cnt_other (n := c!"sequence") (m := c!"choice") (ks := kids) (by decide)
      have hle := opt_length_le (removeKid c!"sequence" kids).1
      rw [hk'] at c1 c2 c3
      rw [hk'] at hle
      refine ⟨by dsimp only at *; omega, ?_, ?_⟩
      · intro n h1 h2 h3
        have := cnt_other (n := c!"sequence") (m := n) (ks := kids) h1
        rw [hk'] at this
        exact this.symm
      · intro c hc
        rcases rk_mem c!"sequence" hc with h | h
        · rw [hk'] at h; exact .inl (Option.some.inj h).symm
        · rw [hk'] at h; exact .inr h
    · next hk' =>
      have c1 := cnt_same (n := c!"all") (ks := kids)
      have c2 := cnt_other (n := c!"all") (m := c!"sequence") (ks := kids) (by decide)
      have c3 := cnt_other (n := c!"all") (m := c!"choice") (ks := kids) (by decide)
      have hle := opt_length_le (removeKid c!"all" kids).1
      rw [hk] at c1 c2 c3
      rw [hk] at hle
      refine ⟨by dsimp only at *; omega, ?_, ?_⟩
      · intro n h1 h2 h3
        have := cnt_other (n := c!"all") (m := n) (ks := kids) h2
        rw [hk] at this
        exact this.symm
      · intro c hc
        rcases rk_mem c!"all" hc with h | h
        · rw [hk] at h; exact .inl (Option.some.inj h).symm
        · rw [hk] at h; exact .inr h
  have no : (sequenceOrAll kids).1 = none → cnt c!"sequence" kids = 0 ∧ cnt c!"all" kids = 0 := by
    intro hn
    unfold sequenceOrAll at hn
    split at hn
    · cases hn
    · next hk' => exact ⟨cnt_of_none hx (by rw [hk']), cnt_of_none hx hn⟩
  cases h with
  | group child _ mn mx leaves s1 leaf s' hk hmn hmx h hg hl =>
    obtain ⟨h1, h2, h3⟩ := so hk
    refine ⟨h1, h2, fun c hc _ => ?_⟩
    rcases h3 c hc with rfl | h
    · exact .inl ⟨minOK_of hmn, maxOK_of hmx⟩
    · exact .inr h
  | sequence child _ mn mx leaves s' hk hmn hmx h hg =>
    obtain ⟨h1, h2, h3⟩ := so hk
    refine ⟨h1, h2, fun c hc _ => ?_⟩
    rcases h3 c hc with rfl | h
    · exact .inl ⟨minOK_of hmn, maxOK_of hmx⟩
    · exact .inr h
  | choice child _ variants s1 v hn hk h hv =>
    obtain ⟨n1, n2⟩ := no hn
    have c1 := cnt_same (n := c!"choice") (ks := kids)
    have hle := opt_length_le (removeKid c!"choice" kids).1
    rw [hk] at c1
    rw [hk] at hle
    refine ⟨by dsimp only at *; omega, ?_, ?_⟩
    · intro n h1 h2 h3
      have := cnt_other (n := c!"choice") (m := n) (ks := kids) h3
      rw [hk] at this
      exact this.symm
    · rintro c hc (h | h)
      · exact absurd h (cnt_zero.1 n1 c hc)
      · exact absurd h (cnt_zero.1 n2 c hc)
  | none hn hk =>
    obtain ⟨n1, n2⟩ := no hn
    refine ⟨by omega, fun _ _ _ _ => rfl, fun c hc _ => .inr hc⟩

theorem complexType_filled {t : Bool} {k : Nat} {nd : Nd} {parent : Name} {s s' : PCtx} {r : Root}
    (h : parseComplexType x k nd parent s = .ok (r, s')) : Filled x e (.complexType t) nd := by
  cases k with
  | zero => cases h
  | succ k =>
    have hann : nd.count c!"annotation" = _ := cnt_same (n := c!"annotation") (ks := nd.xsdKids)
    have hle := opt_length_le (removeKid c!"annotation" nd.xsdKids).1
    have ho : ∀ n, n ≠ c!"annotation" → cnt n (removeKid c!"annotation" nd.xsdKids).2 = nd.count n := fun n hn => cnt_other hn
    have o1 := ho c!"simpleContent" (by decide)
    have o2 := ho c!"complexContent" (by decide)
    have o3 := ho c!"sequence" (by decide)
    have o4 := ho c!"all" (by decide)
    have o5 := ho c!"choice" (by decide)
    have o6 := ho c!"attribute" (by decide)
    have hx := allXsd_rest (n := c!"annotation") (allXsd_kids nd)
    generalize hks : (removeKid c!"annotation" nd.xsdKids).2 = ks at *
    have only : ∀ {n child}, removeKid n ks = (some child, []) → cnt n ks = 1 ∧ ∀ m, m ≠ n → cnt m ks = 0 := by
      intro n child hk
      have c1 := cnt_same (n := n) (ks := ks)
      rw [hk] at c1
      refine ⟨c1, fun m hm => ?_⟩
      have := cnt_other (n := n) (ks := ks) hm
      rw [hk] at this
      exact this.symm
    have kids : ∀ c ∈ nd.xsdKids, c.name = c!"sequence" ∨ c.name = c!"all" → c ∈ ks := by
      rintro c hc (h | h)
      · exact hks ▸ rk_keep hc (by rw [h]; decide)
      · exact hks ▸ rk_keep hc (by rw [h]; decide)
    cases parseComplexType_run x h with
    | simpleContent docs child d s' hm hp hd hk h =>
      rw [hks] at hk
      obtain ⟨h1, h2⟩ := only hk
      have a1 := h2 c!"complexContent" (by decide)
      have a2 := h2 c!"sequence" (by decide)
      have a3 := h2 c!"all" (by decide)
      have a4 := h2 c!"choice" (by decide)
      have a5 := h2 c!"attribute" (by decide)
      have a6 := h2 c!"annotation" (by decide)
      refine ⟨hm, by omega, by omega, fun _ => by omega, ?_⟩
      intro c hc hn
      have := kids c hc hn
      rcases hn with hn | hn
      · exact absurd hn (cnt_zero.1 a2 c this)
      · exact absurd hn (cnt_zero.1 a3 c this)
    | complexContent docs child d s' hm hp hd hn hk h =>
      rw [hks] at hk
      obtain ⟨h1, h2⟩ := only hk
      have a1 := h2 c!"simpleContent" (by decide)
      have a2 := h2 c!"sequence" (by decide)
      have a3 := h2 c!"all" (by decide)
      have a4 := h2 c!"choice" (by decide)
      have a5 := h2 c!"attribute" (by decide)
      have a6 := h2 c!"annotation" (by decide)
      refine ⟨hm, by omega, by omega, fun _ => by omega, ?_⟩
      intro c hc hn
      have := kids c hc hn
      rcases hn with hn | hn
      · exact absurd hn (cnt_zero.1 a2 c this)
      · exact absurd hn (cnt_zero.1 a3 c this)
    | particle docs content rest s1 attributes s' hm hp hd hn hn2 hpp ha hk =>
      rw [hks] at hn hn2 hpp
      have b1 := cnt_of_none hx hn
      have b2 := cnt_of_none hx hn2
      cases k with
      | zero => cases hpp
      | succ k =>
        obtain ⟨p1, p2, p3⟩ := particle_filled hx (parseParticle_run x hpp)
        have hrest : ∀ m, m ≠ c!"attribute" → cnt m rest = 0 := by
          intro m hm
          refine cnt_zero.2 fun c hc => ?_
          rw [name_of_info ((removeKids_rest hk).2 c hc)]
          exact Ne.symm hm
        have a2 := hrest c!"sequence" (by decide)
        have a3 := hrest c!"all" (by decide)
        have a4 := hrest c!"choice" (by decide)
        have a5 := hrest c!"annotation" (by decide)
        have a6 := p2 c!"annotation" (by decide) (by decide) (by decide)
        refine ⟨hm, by omega, by omega, fun h0 => by omega, ?_⟩
        intro c hc hcn
        rcases p3 c (kids c hc hcn) hcn with h | h
        · exact h
        · exfalso
          have hat := name_of_info ((removeKids_rest hk).2 c h)
          rcases hcn with hcn | hcn
          · rw [hat] at hcn; exact absurd hcn (by decide)
          · rw [hat] at hcn; exact absurd hcn (by decide)

/-- A node that was interpreted has what it must have. -/
theorem parsed_filled {k : Kind} {nd : Nd} (h : ParsedAs x e k nd) : Filled x e k nd := by
  cases k with
  | topElement =>
    obtain ⟨_, k, parent, s, r, s', he, h⟩ := h
    exact elementRoot_filled (nd := nd.see c!"name") he h
  | localElement =>
    obtain ⟨_, hname, k, parent, s, r, s', he, h⟩ := h
    cases k with
    | zero => cases h
    | succ k =>
      cases parseElementChild_run x h with
      | ref mn mx a n s1 hmn hmx hr hp ht =>
        refine ⟨minOK_of hmn, maxOK_of hmx, ?_, ?_⟩
        · intro v hv
          rw [value_some hr] at hv
          cases hv
          exact he ▸ getTypeName_own ht
        · intro hn
          rw [value_some hr] at hn
          cases hn
      | typed mn mx na docs a c nd' s' hmn hmx hr hn hd ht hc hp =>
        refine ⟨minOK_of hmn, maxOK_of hmx, fun v hv => (by rw [value_none.2 hr] at hv; cases hv), fun _ => ?_⟩
        refine ⟨by rw [value_some hn]; nofun, docsOK_of hd, ?_, fun h0 => (by rw [value_some ht] at h0; cases h0)⟩
        intro v hv
        rw [value_some ht] at hv
        cases hv
        exact he ▸ typeAttr_resolves hc
      | any mn mx na docs hmn hmx hr hn hd ht hsn hc hp =>
        refine ⟨minOK_of hmn, maxOK_of hmx, fun v hv => (by rw [value_none.2 hr] at hv; cases hv), fun _ => ?_⟩
        refine ⟨by rw [value_some hn]; nofun, docsOK_of hd, fun v hv => (by rw [value_none.2 ht] at hv; cases hv), fun _ => .inl ?_⟩
        have c1 : nd.count c!"complexType" = 0 := cnt_zero.2 (child_none hc)
        have c2 : nd.count c!"simpleType" = 0 := cnt_zero.2 (child_none hsn)
        omega
      | inline mn mx na docs v root s1 hmn hmx hr hn hd ht hsc hp hv hroot =>
        refine ⟨minOK_of hmn, maxOK_of hmx, fun v hv => (by rw [value_none.2 hr] at hv; cases hv), fun _ => ?_⟩
        refine ⟨by rw [value_some hn]; nofun, docsOK_of hd, fun v hv => (by rw [value_none.2 ht] at hv; cases hv), fun h0 => .inr ?_⟩
        cases k with
        | zero => cases hroot
        | succ k =>
          cases parseRoot_run x hroot with
          | element hn' h' =>
            obtain ⟨h1, _, h3⟩ := elementRoot_filled (nd := nd.sees childSeen) he h'
            exact ⟨h3 h0, h1⟩
          | complexType hn' h' => exact absurd (hn'.symm.trans hname) (by decide)
          | simpleType hn' h' => exact absurd (hn'.symm.trans hname) (by decide)
  | complexType top =>
    obtain ⟨_, k, parent, s, r, s', he, h⟩ := h
    cases top with
    | true => exact complexType_filled (e := e) (t := true) (nd := nd.see c!"name") h
    | false => exact complexType_filled (e := e) (t := false) (nd := nd) h
  | simpleType top =>
    obtain ⟨_, s, r, s', he, h⟩ := h
    cases top with
    | true => exact simpleType_filled (t := true) (nd := nd.see c!"name") he h
    | false => exact simpleType_filled (t := false) (nd := nd) he h
  | simpleContent =>
    obtain ⟨_, parent, s, r, s', he, h⟩ := h
    cases h with
    | named extension base n s1 attributes s' hp hr hb ht ha hk =>
      obtain ⟨h1, h2⟩ := rk_single hr
      refine ⟨h1, fun c hc => ?_⟩
      rw [h2 c hc]
      exact ⟨base.value, value_some hb, he ▸ .inr (getTypeName_own ht)⟩
    | literal extension base t s1 attributes s' hp hr hb ht ha hk =>
      obtain ⟨h1, h2⟩ := rk_single hr
      refine ⟨h1, fun c hc => ?_⟩
      rw [h2 c hc]
      exact ⟨base.value, value_some hb, he ▸ .inl (getTypeName_builtin ht)⟩
  | complexContent =>
    obtain ⟨_, k, parent, s, r, s', he, h⟩ := h
    cases k with
    | zero => cases h
    | succ k =>
      cases parseComplexContent_run x h with
      | mk extension base n s1 vl s2 attributes s' hp hr hb ht h ha hk =>
        obtain ⟨h1, h2⟩ := rk_single hr
        refine ⟨h1, fun c hc => ?_⟩
        rw [h2 c hc]
        exact ⟨base.value, value_some hb, he ▸ getTypeName_own ht⟩
  | simpleExtension => trivial
  | complexExtension =>
    obtain ⟨hk, _, k, base, parent, s, r, s', he, h⟩ := h
    have hrest : cnt c!"sequence" (removeKid c!"sequence" nd.xsdKids).2 = 0 := by
      refine cnt_zero.2 fun c hc => ?_
      rw [name_of_info ((removeKids_rest hk).2 c hc)]
      decide
    have hs : nd.count c!"sequence" = _ := cnt_same (n := c!"sequence") (ks := nd.xsdKids)
    have hle := opt_length_le (removeKid c!"sequence" nd.xsdKids).1
    refine ⟨by omega, fun c hc hn => ?_⟩
    cases k with
    | zero => cases h
    | succ k =>
      rcases rk_mem c!"sequence" hc with h' | h'
      · rw [h'] at h
        cases parseExtension_run x h with
        | some child mn leaves s1 v hmn h hv => exact minOK_of hmn
      · exact absurd hn (cnt_zero.1 hrest c h')
  | sequence occ =>
    obtain ⟨_, k, parent, s, r, s', he, h⟩ := h
    cases k with
    | zero => cases h
    | succ k =>
      intro c hc
      obtain ⟨s, l, s', hq⟩ := leaves_each (parseSequence_run x h).2 c hc
      cases hq with
      | element l s' hn h =>
        exact ⟨fun h => absurd (hn.symm.trans h) (by decide), fun h => absurd (hn.symm.trans h) (by decide)⟩
      | choice mn mx vs s1 l s' hn hmn hmx h hl =>
        exact ⟨fun _ => ⟨minOK_of hmn, maxOK_of hmx⟩, fun h => absurd (hn.symm.trans h) (by decide)⟩
      | sequence docs mn ls s1 l s' hn hd hmn h hl =>
        exact ⟨fun h => absurd (hn.symm.trans h) (by decide), fun _ => ⟨minOK_of hmn, docsOK_of hd⟩⟩
      | annotation hn =>
        exact ⟨fun h => absurd (hn.symm.trans h) (by decide), fun h => absurd (hn.symm.trans h) (by decide)⟩
  | choice occ =>
    obtain ⟨_, k, parent, s, r, s', he, h⟩ := h
    cases k with
    | zero => cases h
    | succ k =>
      intro c hc
      obtain ⟨s, l, s', hq⟩ := leaves_each (parseChoice_run x h).2 c hc
      cases hq with
      | element l s' hn h => exact fun h => absurd (hn.symm.trans h) (by decide)
      | sequence docs mn mx ls s1 l s' hn hd hmn hmx h hl => exact fun _ => ⟨minOK_of hmn, maxOK_of hmx, docsOK_of hd⟩
      | annotation hn => exact fun h => absurd (hn.symm.trans h) (by decide)
  | «attribute» =>
    obtain ⟨_, parent, s, r, s', he, h⟩ := h
    exact attribute_filled he (parseAttribute_run x h)
  | restriction =>
    obtain ⟨fs, h⟩ := h
    exact facetsOK_of h
  | annotation =>
    obtain ⟨_, docs, h⟩ := h
    exact annotation1_text h

/-- A definition that was parsed is supported. -/
theorem parsed_legal {k : Kind} {nd : Nd} (h : ParsedAs x e k nd) : Legal x e k nd := fun _ _ hw =>
  have hp := parsed_within h hw
  ⟨parsed_attrs hp, parsed_children hp, parsed_filled hp⟩

end

end Xsd
