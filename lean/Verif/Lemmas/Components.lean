import Verif.Spec.Components
import Verif.Props.Definitions
import Verif.Props.Legal
import Verif.Props.Docs
/-!
# What the parser makes of the declarations in a file of records
-/
namespace Xsd.Flat

/-- The identifier for a name, in a table of namespaces. -/
def Names (t : Namespaces) (n : Name) (q : QName) : Prop := n.name = q.loc ∧ Stands t n.ns q.ns

/-- The content of an element or attribute, as the parser represents it. -/
inductive TypIs (t : Namespaces) : Typ → LeafContent → Prop where
  | builtin {l} : TypIs t (.builtin l) (.literal l)
  | fixed {s} : TypIs t (.fixed s) (.fixed s)
  | own {q n} (h : Names t n q) : TypIs t (.own q) (.named n)

/-- An element of a record, as the parser represents it. -/
structure LeafIs (t : Namespaces) (d : ElementDecl) (l : Leaf) : Prop where
  name : Names t l.name d.name
  typ : TypIs t d.typ l.definition.content
  min : l.minOccurs = d.min
  max : l.maxOccurs = d.max
  virt : l.isVirtual = false
  ord : l.isUnordered = false

/-- An attribute of a record, as the parser represents it. -/
structure AttrIs (t : Namespaces) (d : AttributeDecl) (a : Attribute) : Prop where
  name : a.name = ⟨d.name, .none⟩
  typ : TypIs t d.typ a.content
  req : a.isOptional = !d.required

/-- The content of a record, as the parser represents it. -/
inductive ContentIs (t : Namespaces) (n : Name) : Content → Option ElementContent → Prop where
  | empty : ContentIs t n .empty none
  | text {l rs docs} : ContentIs t n (.text l) (some (.leaf n ⟨.literal l, rs, docs⟩))
  | elements {ds ls} (h : Each (LeafIs t) ds ls) : ContentIs t n (.elements ds) (some (.leaves ls))

/-- A definition, as the parser represents it. -/
inductive RootIs (t : Namespaces) (n : Name) : Def → Root → Prop where
  | text {l rs docs} : RootIs t n (.text l) (.leaf ⟨.literal l, rs, docs⟩)
  | fixed {s rs docs} : RootIs t n (.fixed s) (.leaf ⟨.fixed s, rs, docs⟩)
  | sameAs {q m rs docs} (h : Names t m q) : RootIs t n (.sameAs q) (.leaf ⟨.named m, rs, docs⟩)
  | enumeration {vs} (h : vs ≠ []) : RootIs t n (.enumeration vs) (.enum (vs.map (fun v => ⟨v, .none⟩)))
  | record {c as e} (hc : ContentIs t n c e.content) (ha : Each (AttrIs t) as e.attributes) (hv : e.isVirtual = false) :
      RootIs t n (.record c as) (.element e)

theorem Names.mono {t t' : Namespaces} (h : t.Extends t') {n : Name} {q : QName} (hn : Names t n q) : Names t' n q :=
  ⟨hn.1, hn.2.mono h⟩

theorem RootIs.withDocs {t : Namespaces} {n : Name} {D : Def} {r : Root} (h : RootIs t n D r) (docs : Option Str) :
    RootIs t n D (r.withDocs docs) := by
  cases docs with
  | none => cases h <;> constructor <;> assumption
  | some w => cases h <;> constructor <;> assumption

theorem RootIs.elementDocs {t : Namespaces} {n : Name} {D : Def} {e : ElementDef} (h : RootIs t n D (.element e)) (docs : Option Str) :
    RootIs t n D (.element (e.withDocs docs)) := by
  cases h with
  | record hc ha hv => cases docs <;> exact .record hc ha hv

/-- What is required of the namespaces of a document. -/
structure DocOK (d : XDoc) : Prop where
  nodup : (d.root.1.nss.map Prod.fst).Nodup
  dflt : ∀ u, (none, u) ∈ d.root.1.nss → u = nsXsd

theorem RefersTo.unique {root : ElemInfo} (hN : (root.nss.map Prod.fst).Nodup) {v : Str} {q q' : QName} (h : RefersTo root v q)
    (h' : RefersTo root v q') : q = q' := by
  have col : ∀ {p n}, Prefixed v p n → ':' ∈ v := fun h => by rw [h.1]; simp
  have uniq : ∀ {p n p' n'}, Prefixed v p n → Prefixed v p' n' → p = p' ∧ n = n' := by
    intro p n p' n' h h'
    have := (splitn2_prefixed.2 h).symm.trans (splitn2_prefixed.2 h')
    cases this
    exact ⟨rfl, rfl⟩
  have one : ∀ {p : Option Str} {u u' : Str}, (p, u) ∈ root.nss → (p, u') ∈ root.nss → u = u' := by
    intro p u u' h1 h2
    have := (alookup_of_mem hN h1).symm.trans (alookup_of_mem hN h2)
    exact Option.some.inj this
  cases h with
  | pfx hv hp =>
    cases h' with
    | pfx hv' hp' =>
      obtain ⟨rfl, rfl⟩ := uniq hv hv'
      rw [one hp hp']
    | dflt hv' _ => exact absurd (col hv) hv'
    | plain hv' _ => exact absurd (col hv) hv'
  | dflt hv hp =>
    cases h' with
    | pfx hv' _ => exact absurd (col hv') hv
    | dflt _ hp' => rw [one hp hp']
    | plain _ hp' => exact absurd hp (hp' _)
  | plain hv hp =>
    cases h' with
    | pfx hv' _ => exact absurd (col hv') hv
    | dflt _ hp' => exact absurd hp' (hp _)
    | plain _ _ => rfl

theorem refersTo_of_denotes {root : ElemInfo} {e : Env} (he : EnvOf root e) (hN : (root.nss.map Prod.fst).Nodup) {v n : Str}
    {u : Option Str} (h : Denotes e.defaultNs e.docNss v n u) : RefersTo root v ⟨n, u⟩ := by
  rcases h with ⟨p, w, hv, hp, rfl⟩ | ⟨hv, rfl, rfl⟩
  · exact .pfx hv (he.pfx _ _ hp)
  · cases hd : e.defaultNs with
    | some u => exact .dflt hv (he.dflt u hd)
    | none =>
      refine .plain hv fun u hm => ?_
      rw [(he.all hN).2.1 u hm] at hd
      cases hd

theorem denotes_of_refersTo {root : ElemInfo} {e : Env} (he : EnvOf root e) (hN : (root.nss.map Prod.fst).Nodup) {v : Str}
    {q : QName} (h : RefersTo root v q) : Denotes e.defaultNs e.docNss v q.loc q.ns := by
  cases h with
  | pfx hv hp => exact .inl ⟨_, _, hv, (he.all hN).1 _ _ hp, rfl⟩
  | dflt hv hp => exact .inr ⟨hv, rfl, ((he.all hN).2.1 _ hp).symm⟩
  | plain hv hp =>
    refine .inr ⟨hv, rfl, ?_⟩
    cases hd : e.defaultNs with
    | none => rfl
    | some u => exact absurd (he.dflt u hd) (hp u)

theorem builtin_functional {n : Str} {t t' : LiteralType} (h : (n, t) ∈ builtin) (h' : (n, t') ∈ builtin) : t = t' := by
  have := (alookup_of_mem (by decide) h).symm.trans (alookup_of_mem (by decide) h')
  exact Option.some.inj this

section
variable {d : XDoc} (hd : DocOK d)
include hd

theorem Builtin.unique {v : Str} {t t' : LiteralType} (h : Builtin d v t) (h' : Builtin d v t') : t = t' := by
  obtain ⟨n, h1, h2⟩ := h
  obtain ⟨n', h1', h2'⟩ := h'
  cases h1.unique hd.nodup h1'
  exact builtin_functional h2 h2'

variable {s s' : PCtx} (he : EnvOf d.root.1 s.env)
include he

theorem dflt_ok : s.defaultNs = none ∨ s.defaultNs = some nsXsd := by
  cases h : s.defaultNs with
  | none => exact .inl rfl
  | some u => rw [hd.dflt u (he.dflt u h)]; exact .inr rfl

theorem typeName_literal {a : XAttr} {l : LiteralType} (h : getTypeName a s = .ok (.literal l, s')) : Builtin d a.value l := by
  obtain ⟨n, h1, h2⟩ := ((C33_partial a s (he.all hd.nodup).2.2 (fun _ => dflt_ok hd he)).1 l).1 ⟨s', h⟩
  exact ⟨n, refersTo_of_denotes he hd.nodup h1, h2⟩

theorem typeName_named {a : XAttr} {n : Name} {q : QName} (h : getTypeName a s = .ok (.named n, s')) (hq : RefersTo d.root.1 a.value q) :
    Names s'.nss n q ∧ q.ns ≠ some nsXsd := by
  obtain ⟨u, h1, h2, h3⟩ := (C33_partial a s (he.all hd.nodup).2.2 (fun _ => dflt_ok hd he)).2.1 n s' h
  cases hq.unique hd.nodup (refersTo_of_denotes he hd.nodup h1)
  exact ⟨⟨rfl, h3⟩, h2⟩

theorem typeName_builtin {a : XAttr} {c : LeafContent} {l : LiteralType} (h : getTypeName a s = .ok (c, s')) (hb : Builtin d a.value l) :
    c = .literal l := by
  cases c with
  | literal l' => rw [hb.unique hd (typeName_literal hd he h)]
  | named n =>
    obtain ⟨m, h1, _⟩ := hb
    exact absurd rfl (typeName_named hd he h h1).2
  | fixed f => exact (getTypeName_fixed h).elim

theorem typeName_own {a : XAttr} {c : LeafContent} {q : QName} (h : getTypeName a s = .ok (c, s')) (hq : RefersTo d.root.1 a.value q)
    (hn : q.ns ≠ some nsXsd) : ∃ n, c = .named n ∧ Names s'.nss n q := by
  cases c with
  | literal l' =>
    obtain ⟨m, h1, _⟩ := typeName_literal hd he h
    cases hq.unique hd.nodup h1
    exact absurd rfl hn
  | named n => exact ⟨n, rfl, (typeName_named hd he h hq).1⟩
  | fixed f => exact (getTypeName_fixed h).elim

theorem typeAttr_typ {nd nd1 nd' : Nd} {a : XAttr} {parent : Name} {c : LeafContent} {ty : Typ} {t : Namespaces}
    (hnd : ∀ n, nd1.attr n = nd.attr n) (ha : nd.attr c!"type" = some a) (h : TypeAttrRun nd1 a parent s c nd' s')
    (hty : TypeAttr d nd ty) (hx : s'.nss.Extends t) : TypIs t ty c := by
  have hval : ∀ v, nd.value c!"type" = some v → v = a.value := by
    intro v hv
    unfold Nd.value at hv
    rw [ha] at hv
    exact (Option.some.inj hv).symm
  cases hty with
  | builtin hv hb hf =>
    cases hval _ hv
    have hf : nd.attr c!"fixed" = none := Option.map_eq_none_iff.1 hf
    cases h with
    | named n s1 h => cases typeName_builtin hd he h hb
    | fixed t s1 f h hf' => rw [hnd, hf] at hf'; cases hf'
    | literal t s1 h hf' => cases typeName_builtin hd he h hb; exact .builtin
  | fixed hv hb hf =>
    cases hval _ hv
    obtain ⟨f0, hf0, rfl⟩ := Option.map_eq_some_iff.1 hf
    cases h with
    | named n s1 h => cases typeName_builtin hd he h hb
    | fixed t s1 f h hf' => rw [hnd, hf0] at hf'; cases hf'; exact .fixed
    | literal t s1 h hf' => rw [hnd, hf0] at hf'; cases hf'
  | own hv hq hn =>
    cases hval _ hv
    cases h with
    | named n s1 h =>
      obtain ⟨m, h1, h2⟩ := typeName_own hd he h hq hn
      cases h1
      exact .own (h2.mono hx)
    | fixed t s1 f h hf' => obtain ⟨m, h1, h2⟩ := typeName_own hd he h hq hn; cases h1
    | literal t s1 h hf' => obtain ⟨m, h1, h2⟩ := typeName_own hd he h hq hn; cases h1

omit hd he in
theorem facetOf_enum {x : Ext} {cs : List Nd} {fs : List (Str ⊕ Restriction)} (h : Each (FacetOf x) cs fs) :
    Each (fun (f : Nd) v => f.value c!"value" = some v) (cs.filter (fun f => f.name = c!"enumeration")) (enumsOf fs) := by
  induction h with
  | nil => exact .nil
  | @cons a b as bs h hs ih =>
    cases h with
    | enumeration a hn ha =>
      rw [List.filter_cons_of_pos (by simpa using hn)]
      refine .cons ?_ ih
      unfold Nd.value; rw [ha]; rfl
    | pattern a hn ha =>
      rw [List.filter_cons_of_neg (by rw [hn]; decide)]
      exact ih
    | _ =>
      rename_i hn _ _
      rw [List.filter_cons_of_neg (by rw [hn]; decide)]
      exact ih

omit hd he in
theorem each_value {cs : List Nd} {vs ws : List Str} (h : Each (fun (f : Nd) v => f.value c!"value" = some v) cs vs)
    (h' : Each (fun (f : Nd) v => f.value c!"value" = some v) cs ws) : vs = ws := by
  induction h generalizing ws with
  | nil => cases h'; rfl
  | cons h hs ih =>
    cases h' with
    | cons h2 hs2 =>
      rw [h] at h2
      cases h2
      rw [ih hs2]

theorem simpleType_root {x : Ext} {nd : Nd} {n : Name} {r : Root} {D : Def} {t : Namespaces} (h : SimpleTypeRun x nd s r s')
    (hD : SimpleType d nd D) : RootIs t n D r := by
  cases h with
  | mk docs restriction rest attr l s' fs hp hdocs hr ha ht hc hf =>
    subst hc
    have only : ∀ q ∈ nd.xsdKids, q.name = c!"restriction" → q = restriction := fun q hq hn =>
      (rk_only hr (rk_keep hq (by rw [hn]; decide))).1
    obtain ⟨fs', hfs, rfl⟩ := parseFacets_each hf
    cases hD with
    | text hq hn hv hb hne =>
      cases only _ hq hn
      have : enumsOf fs' = [] := (facets_enumeration hf).2 hne
      rw [if_pos this]
      unfold Nd.value at hv
      rw [ha] at hv
      cases hv
      cases typeName_builtin hd he ht hb
      exact .text
    | enumeration hq hn hv hne =>
      cases only _ hq hn
      have : enumsOf fs' = _ := each_value (facetOf_enum hfs) hv
      dsimp only
      rw [this, if_neg hne]
      exact .enumeration hne

end

section
variable {d : XDoc} (hd : DocOK d) {x : Ext} {t : Namespaces}
include hd

theorem attribute_attr {nd : Nd} {s s' : PCtx} {parent : Name} {o : Option Attribute} {A : AttributeDecl} (he : EnvOf d.root.1 s.env)
    (h : parseAttribute x nd parent s = .ok (o, s')) (hA : AttributeNode d nd A) (hx : s'.nss.Extends t) :
    ∃ a, o = some a ∧ AttrIs t A a := by
  obtain ⟨c1, _, c3⟩ := C38 x nd parent s s' o h
  have hu : nd.value c!"use" ≠ some c!"prohibited" := by cases hA <;> assumption
  cases o with
  | none => exact absurd (c1.1 rfl) hu
  | some a =>
    obtain ⟨d1, d2, _, d4, _⟩ := c3 a rfl
    refine ⟨a, rfl, ?_⟩
    have hreq : a.isOptional = !decide (nd.value c!"use" = some c!"required") := by
      by_cases hr : nd.value c!"use" = some c!"required"
      · rw [d4.2 hr]; simp [hr]
      · have : a.isOptional ≠ false := fun e => hr (d4.1 e)
        simp [hr, this]
    have hname : ∀ n, nd.value c!"name" = some n → a.name = ⟨n, .none⟩ := by
      intro n hn
      rw [hn] at d1
      rcases ha : a.name with ⟨w, ns⟩
      rw [ha] at d1 d2
      cases d2
      cases d1
      rfl
    have hrun := parseAttribute_run x h
    clear h
    cases hrun with
    | some nameAttr docs content nd' s' hn hdo hc hk =>
      generalize ho : (removeKid c!"simpleType" (removeKid c!"annotation" nd.xsdKids).2).1 = o at hc
      cases hA with
      | typed hn' hs hty _ =>
        refine ⟨hname _ hn', ?_, hreq⟩
        cases hc with
        | typed a' c nd' s' ha' hr => refine typeAttr_typ hd he (nd := nd) (fun n => ?_) ha' hr hty hx; rfl
        | plain c t' rs docs' s' hr => exact absurd (name_of_info (rk_name ho).1) (hs _ (rk_rest (rk_name ho).2))
        | inline c root s1 v hr => exact absurd (name_of_info (rk_name ho).1) (hs _ (rk_rest (rk_name ho).2))
      | simple hn' hcm hcn hS _ =>
        refine ⟨hname _ hn', ?_, hreq⟩
        have hm := rk_keep (n := c!"annotation") hcm (by rw [hcn]; decide)
        cases hc with
        | typed a' c nd' s' ha' hr => exact absurd (kid_info hcm hcn) ((rk_none ho).2 _ hm)
        | plain c t' rs docs' s' hr =>
          have : _ = c := (rk_only (Prod.ext ho hk) hm).1
          subst this
          cases simpleType_root hd he (n := parent) (t := t) hr hS
          exact .builtin
        | inline c root s1 v hr hv hne =>
          have : _ = c := (rk_only (Prod.ext ho hk) hm).1
          subst this
          cases simpleType_root hd he (n := parent) (t := t) hr hS
          exact absurd rfl (hne _ _ _)

theorem attributes_attrs {parent : Name} {cs : List Nd} {as : List Attribute} {As : List AttributeDecl} {s s' : PCtx}
    (he : EnvOf d.root.1 s.env) (hi : s.nss.Reachable) (h : AttributesRun x parent cs s as s') (hA : Each (AttributeNode d) cs As)
    (hx : s'.nss.Extends t) : Each (AttrIs t) As as := by
  induction h generalizing As with
  | nil => cases hA; exact .nil
  | skip c cs s s1 as s' h hs ih =>
    cases hA with
    | cons hA hAs =>
      have hl := (attribute_log (parseAttribute_run x h)).toLater
      have hl' := (attributes_log hs).toLater
      obtain ⟨a, h1, _⟩ := attribute_attr hd he h hA ((hl'.nss (hl.nss hi).2).1.trans hx)
      cases h1
  | cons c cs s s1 a as s' h hs ih =>
    cases hA with
    | cons hA hAs =>
      have hl := (attribute_log (parseAttribute_run x h)).toLater
      have hl' := (attributes_log hs).toLater
      obtain ⟨a, h1, h2⟩ := attribute_attr hd he h hA ((hl'.nss (hl.nss hi).2).1.trans hx)
      cases h1
      exact .cons h2 (ih (hl.env ▸ he) (hl.nss hi).2 hAs hx)

omit hd in
theorem minOf_unique {c : Nd} {m n : Nat} (h : parseMinOccurs (c.attr c!"minOccurs") = .ok m) (h' : MinOf c n) : m = n := by
  rcases h' with ⟨h1, rfl⟩ | ⟨v, h1, h2⟩
  · rw [Option.map_eq_none_iff.1 h1] at h
    exact (Res.ok.inj h).symm
  · obtain ⟨a, ha, rfl⟩ := Option.map_eq_some_iff.1 h1
    have := (((C34_min_occurs _).2 a ha).1 n).2 h2
    rw [h] at this
    exact Res.ok.inj this

omit hd in
theorem maxOf_unique {c : Nd} {m n : MaxOccurs} (h : parseMaxOccurs (c.attr c!"maxOccurs") = .ok m) (h' : MaxOf c n) : m = n := by
  rcases h' with ⟨h1, rfl⟩ | ⟨v, h1, h2⟩
  · rw [Option.map_eq_none_iff.1 h1] at h
    exact (Res.ok.inj h).symm
  · obtain ⟨a, ha, rfl⟩ := Option.map_eq_some_iff.1 h1
    obtain ⟨hu, hn, _⟩ := (C34_max_occurs _).2 a ha
    rcases h2 with ⟨h2, rfl⟩ | ⟨k, rfl, h2⟩
    · have := hu.2 h2
      rw [h] at this
      exact Res.ok.inj this
    · have := (hn k).2 h2
      rw [h] at this
      exact Res.ok.inj this

omit hd in
/-- The name of an element without `ref`. -/
theorem nodeName_names {s : PCtx} {n : Str} {ns : Option Str} (he : EnvOf d.root.1 s.env) (ht : Stands t s.target (targetOf d))
    (h : LocalNs d ns) : Names t (s.nodeName n false) ⟨n, ns⟩ := by
  refine ⟨rfl, ?_⟩
  have hq : s.isQualified = true ↔ Qualified d := he.qualified
  show Stands t (if s.isQualified || false then s.target else .none) ns
  cases h with
  | qualified h => rw [hq.2 h]; exact ht
  | unqualified h =>
    rw [if_neg (by simpa using fun e => h (hq.1 e))]
    trivial

theorem child_leaf {k : Nat} {nd : Nd} {parent : Name} {s s' : PCtx} {l : Leaf} {L : ElementDecl} (he : EnvOf d.root.1 s.env)
    (ht : Stands t s.target (targetOf d)) (h : parseElementChild x k nd parent s = .ok (l, s')) (hL : LocalElement d nd L)
    (hx : s'.nss.Extends t) : LeafIs t L l := by
  cases k with
  | zero => cases h
  | succ k =>
    have hrun := parseElementChild_run x h
    clear h
    have val : ∀ {n a v}, nd.attr n = some a → nd.value n = some v → v = a.value := by
      intro n a v h1 h2
      unfold Nd.value at h2
      rw [h1] at h2
      exact (Option.some.inj h2).symm
    have non : ∀ {n a}, nd.attr n = some a → nd.value n = none → False := by
      intro n a h1 h2
      unfold Nd.value at h2
      rw [h1] at h2
      cases h2
    have som : ∀ {n v}, nd.attr n = none → nd.value n = some v → False := by
      intro n a h1 h2
      unfold Nd.value at h2
      rw [h1] at h2
      cases h2
    cases hrun with
    | ref mn mx a n s1 hmn hmx hr hp hg =>
      cases hL with
      | ref hr' hq hn hmn' hmx' =>
        cases val hr hr'
        obtain ⟨h1, _⟩ := typeName_named hd he hg hq
        exact ⟨h1.mono hx, .own (h1.mono hx), minOf_unique hmn hmn', maxOf_unique hmx hmx', rfl, rfl⟩
      | typed hr' => exact (non hr hr').elim
      | any hr' => exact (non hr hr').elim
    | typed mn mx na docs a c nd' s' hmn hmx hr hn hdo hty hc hp =>
      cases hL with
      | ref hr' => exact (som hr hr').elim
      | typed hr' hf hn' hty' hns hmn' hmx' =>
        cases val hn hn'
        refine ⟨nodeName_names he ht hns, ?_, minOf_unique hmn hmn', maxOf_unique hmx hmx', rfl, rfl⟩
        refine typeAttr_typ hd he (nd := nd) (fun n => ?_) hty hc hty' hx
        rfl
      | any hr' hf hn' hty' => exact (non hty hty').elim
    | any mn mx na docs hmn hmx hr hn hdo hty hs hc hp =>
      cases hL with
      | ref hr' => exact (som hr hr').elim
      | typed hr' hf hn' hty' hns hmn' hmx' => cases hty' <;> (rename_i hv _ _; exact (som hty hv).elim)
      | any hr' hf hn' hty' hk hns hmn' hmx' =>
        cases val hn hn'
        exact ⟨nodeName_names he ht hns, .builtin, minOf_unique hmn hmn', maxOf_unique hmx hmx', rfl, rfl⟩
    | inline mn mx na docs v root s1 hmn hmx hr hn hdo hty hsc =>
      cases hL with
      | ref hr' => exact (som hr hr').elim
      | typed hr' hf hn' hty' hns hmn' hmx' => cases hty' <;> (rename_i hv _ _; exact (som hty hv).elim)
      | any hr' hf hn' hty' hk =>
        refine absurd ⟨?_, ?_⟩ hsc
        · rw [child_find]
          exact List.find?_eq_none.2 fun c hc => by simpa using (hk c hc).1
        · rw [child_find]
          exact List.find?_eq_none.2 fun c hc => by simpa using (hk c hc).2

omit hd in
theorem leaves_later {k : Nat} {parent : Name} {cs : List Nd} {ls : List Leaf} {s s' : PCtx}
    (h : LeavesRun (fun c s l s' => SeqItemRun x k c parent s l s') cs s ls s')
    (hc : ∀ p ∈ cs.filter (fun c => c.name ≠ c!"annotation"), p.name = c!"element") : Later s s' := by
  induction h with
  | nil => exact .refl
  | skip c cs s s1 ls s' h hs ih =>
    cases h with
    | annotation hn =>
      rw [List.filter_cons_of_neg (by simpa using hn)] at hc
      exact ih hc
  | cons c cs s s1 l ls s' h hs ih =>
    have hne : c.name ≠ c!"annotation" := by
      cases h with
      | element _ _ hn => rw [hn]; decide
      | choice _ _ _ _ _ _ hn => rw [hn]; decide
      | sequence _ _ _ _ _ _ hn => rw [hn]; decide
    rw [List.filter_cons_of_pos (by simpa using hne)] at hc
    have hel := hc _ (.head _)
    cases h with
    | element l s' hn h => exact ((logAll x k).child hn h).toLater.trans (ih fun p hp => hc p (.tail _ hp))
    | choice mn mx variants s1 l s' hn => rw [hn] at hel; cases hel
    | sequence docs mn leaves s1 l s' hn => rw [hn] at hel; cases hel

theorem leaves_leaves {k : Nat} {parent : Name} {cs : List Nd} {ls : List Leaf} {Ls : List ElementDecl} {s s' : PCtx}
    (he : EnvOf d.root.1 s.env) (hi : s.nss.Reachable) (ht : Stands t s.target (targetOf d))
    (h : LeavesRun (fun c s l s' => SeqItemRun x k c parent s l s') cs s ls s')
    (hc : ∀ p ∈ cs.filter (fun c => c.name ≠ c!"annotation"), p.name = c!"element")
    (hL : Each (LocalElement d) (cs.filter (fun c => c.name ≠ c!"annotation")) Ls)
    (hx : s'.nss.Extends t) : Each (LeafIs t) Ls ls := by
  induction h generalizing Ls with
  | nil => cases hL; exact .nil
  | skip c cs s s1 ls s' h hs ih =>
    cases h with
    | annotation hn =>
      rw [List.filter_cons_of_neg (by simpa using hn)] at hL hc
      exact ih he hi ht hc hL hx
  | cons c cs s s1 l ls s' h hs ih =>
    have hne : c.name ≠ c!"annotation" := by
      cases h with
      | element _ _ hn => rw [hn]; decide
      | choice _ _ _ _ _ _ hn => rw [hn]; decide
      | sequence _ _ _ _ _ _ hn => rw [hn]; decide
    rw [List.filter_cons_of_pos (by simpa using hne)] at hL hc
    have hel := hc _ (.head _)
    cases h with
    | element l s' hn h =>
      cases hL with
      | cons hL hLs =>
        have hl := ((logAll x k).child hn h).toLater
        have hl' := leaves_later hs fun p hp => hc p (.tail _ hp)
        have e1 : s1.target = s.target := congrArg Env.target hl.env
        exact .cons (child_leaf hd he ht h hL ((hl'.nss (hl.nss hi).2).1.trans hx))
          (ih (hl.env ▸ he) (hl.nss hi).2 (e1 ▸ ht) (fun p hp => hc p (.tail _ hp)) hLs hx)
    | choice mn mx variants s1 l s' hn => rw [hn] at hel; cases hel
    | sequence docs mn leaves s1 l s' hn => rw [hn] at hel; cases hel

omit hd in
theorem removeKids_attribute {cs : List Nd} (h : ∀ c ∈ cs, c.info.name.ns = some nsXsd) :
    (removeKids c!"attribute" cs).1 = cs.filter (fun c => c.name = c!"attribute") := by
  unfold removeKids
  refine List.filter_congr fun c hc => ?_
  have := info_iff (n := c!"attribute") (h c hc)
  simp [this]

theorem complexType_root {k : Nat} {nd : Nd} {n : Name} {s s' : PCtx} {r : Root} {D : Def}
    (he : EnvOf d.root.1 s.env) (hi : s.nss.Reachable) (ht : Stands t s.target (targetOf d))
    (h : parseComplexType x k nd n s = .ok (r, s')) (hD : ComplexType d nd D) (hx : s'.nss.Extends t) : RootIs t n D r := by
  cases k with
  | zero => cases h
  | succ k =>
    have hrun := parseComplexType_run x h
    clear h
    have val : ∀ {nd : Nd} {n a v}, nd.attr n = some a → nd.value n = some v → v = a.value := by
      intro nd n a v h1 h2
      unfold Nd.value at h2
      rw [h1] at h2
      exact (Option.some.inj h2).symm
    cases hrun with
    | simpleContent docs child e s' hm hp hdo hk h =>
      obtain ⟨h1, h2, h3⟩ := only_kid hk
      cases hD with
      | empty hp _ => rcases hp _ h1 with h | h <;> (rw [h] at h2; cases h2)
      | elements hc hn => rcases h3 _ hc with rfl | h
                          · rw [hn] at h2; cases h2
                          · rw [hn] at h; cases h
      | text hc hn hr hrn hv hb ha =>
        rcases h3 _ hc with rfl | h'
        · refine RootIs.elementDocs ?_ docs
          cases h with
          | named ext base m s1 attributes s' hp hr' hb' hty ha' hk =>
            cases (rk_only hr' hr).1
            cases val hb' hv
            cases typeName_builtin hd he hty hb
          | literal ext base l s1 attributes s' hp hr' hb' hty ha' hk =>
            cases (rk_only hr' hr).1
            cases val hb' hv
            cases typeName_builtin hd he hty hb
            have hl := getTypeName_later hty
            rw [removeKids_attribute (fun c hc => xsdKids_ns hc)] at ha'
            exact .record .text (attributes_attrs hd (hl.env ▸ he) (hl.nss hi).2 ha' ha hx) rfl
        · rw [hn] at h'; cases h'
    | complexContent docs child e s' hm hp hdo hn hk h =>
      obtain ⟨h1, h2, h3⟩ := only_kid hk
      cases hD with
      | empty hp _ => rcases hp _ h1 with h | h <;> (rw [h] at h2; cases h2)
      | elements hc hn => rcases h3 _ hc with rfl | h
                          · rw [hn] at h2; cases h2
                          · rw [hn] at h; cases h
      | text hc hn => rcases h3 _ hc with rfl | h
                      · rw [hn] at h2; cases h2
                      · rw [hn] at h; cases h
    | particle docs content rest s1 attributes s' hm hp hdo hn hn2 h ha hk =>
      have hl := attributes_log ha
      cases k with
      | zero => cases h
      | succ k =>
        obtain ⟨o, _, _, _, hl0⟩ := (logAll x (k + 1)).particle h
        have hrun := parseParticle_run x h
        clear h
        have h0 : (removeKid c!"annotation" nd.xsdKids).2.filter (fun c => c.name = c!"attribute") = attributeNodes nd :=
          filter_removeKid (by intro k hk; simp [hk]) _
        have hrest : ∀ c ∈ rest, c.name = c!"attribute" := fun c hc => by
          have := removeKids_rest hk
          exact name_of_info (this.2 c hc)
        have hattrs : ∀ As, Each (AttributeNode d) (attributeNodes nd) As → (∀ k ∈ rest, k ∈ nd.xsdKids) →
            rest.filter (fun c => c.name = c!"attribute") = attributeNodes nd → Each (AttrIs t) As attributes := by
          intro As hA hsub hf
          rw [removeKids_attribute (fun c hc => xsdKids_ns (hsub c hc)), hf] at ha
          exact attributes_attrs hd (hl0.env ▸ he) (hl0.nss hi).2 ha hA hx
        have hseq : ∀ {child r}, sequenceOrAll (removeKid c!"annotation" nd.xsdKids).2 = (some child, r) →
            child ∈ nd.xsdKids ∧ (child.name = c!"sequence" ∨ child.name = c!"all") ∧ (∀ k ∈ r, k ∈ nd.xsdKids) ∧
            r.filter (fun c => c.name = c!"attribute") = attributeNodes nd ∧
            (∀ c ∈ nd.xsdKids, c.name = c!"sequence" → c ∈ r ∨ c = child) := by
          intro child r hk
          have hf : r.filter (fun c => c.name = c!"attribute") = attributeNodes nd := by
            rw [← h0, ← filter_sequenceOrAll (by intro k hk; simp [hk]) (by intro k hk; simp [hk])
              (removeKid c!"annotation" nd.xsdKids).2, hk]
          unfold sequenceOrAll at hk
          split at hk
          · next h' =>
            cases hk
            have h1 := rk_name (n := c!"sequence") (by rw [h'])
            refine ⟨rk_rest h1.2, .inl (name_of_info h1.1),
              fun k hm => rk_rest (rk_rest (n := c!"sequence") (by rw [h']; exact hm)), hf, fun c hc hcn => ?_⟩
            rcases rk_mem c!"sequence" (rk_keep (n := c!"annotation") hc (by rw [hcn]; decide)) with h | h
            · rw [h'] at h; exact .inr (Option.some.inj h).symm
            · rw [h'] at h; exact .inl h
          · next h' =>
            have h1 := rk_name (n := c!"all") (by rw [hk])
            refine ⟨rk_rest h1.2, .inr (name_of_info h1.1),
              fun k hm => rk_rest (rk_rest (n := c!"all") (by rw [hk]; exact hm)), hf, fun c hc hcn => ?_⟩
            exact absurd (kid_info hc hcn) ((rk_none (by rw [h'])).2 _ (rk_keep hc (by rw [hcn]; decide)))
        have hnone : (sequenceOrAll (removeKid c!"annotation" nd.xsdKids).2).1 = none → ∀ c ∈ nd.xsdKids, c.name ≠ c!"sequence" := by
          intro h c hc hcn
          have hm := rk_keep (n := c!"annotation") hc (by rw [hcn]; decide)
          unfold sequenceOrAll at h
          split at h
          · cases h
          · next h' => exact (rk_none (by rw [h'])).2 _ hm (kid_info hc hcn)
        cases hD with
        | text hc hcn =>
          exact absurd (kid_info hc hcn) ((rk_none hn).2 _ (rk_keep hc (by rw [hcn]; decide)))
        | empty hp' hA =>
          cases hrun with
          | group child rest mn mx leaves s1 leaf s' hk' =>
            obtain ⟨h1, h2, _⟩ := hseq hk'
            rcases hp' _ h1 with e | e <;> (rw [e] at h2; exact absurd h2 (by decide))
          | sequence child rest mn mx leaves s1 hk' =>
            obtain ⟨h1, h2, _⟩ := hseq hk'
            rcases hp' _ h1 with e | e <;> (rw [e] at h2; exact absurd h2 (by decide))
          | choice child rest variants s1 v hn' hk' =>
            have h1 := rk_name (n := c!"choice") (by rw [hk'])
            have h2 := name_of_info h1.1
            rcases hp' _ (rk_rest h1.2) with e | e <;> (rw [e] at h2; exact absurd h2 (by decide))
          | none hn' hk' => exact .record .empty (hattrs _ hA (fun k hm => rk_rest hm) h0) rfl
        | elements hc hcn hmn hmx hel hL hA =>
          cases hrun with
          | group child rest mn mx leaves s1 leaf s' hk' hmn' hmx' h hg =>
            obtain ⟨h1, h2, h3, h4, h5⟩ := hseq hk'
            rcases h5 _ hc hcn with h | rfl
            · have := hrest _ h; rw [hcn] at this; cases this
            · cases minOf_unique hmn' hmn
              cases maxOf_unique hmx' hmx
              exact absurd hg (by decide)
          | sequence child rest mn mx leaves s1 hk' hmn' hmx' h hg =>
            obtain ⟨h1, h2, h3, h4, h5⟩ := hseq hk'
            rcases h5 _ hc hcn with h | rfl
            · have := hrest _ h; rw [hcn] at this; cases this
            · refine .record (.elements ?_) (hattrs _ hA h3 h4) rfl
              unfold markUnordered
              rw [if_neg (by rw [hcn]; decide)]
              cases k with
              | zero => cases h
              | succ k =>
                exact leaves_leaves hd he hi ht (parseSequence_run x h).2 hel hL ((hl.nss (hl0.nss hi).2).1.trans hx)
          | choice child rest variants s1 v hn' hk' => exact absurd hcn (hnone hn' _ hc)
          | none hn' hk' => exact absurd hcn (hnone hn' _ hc)

omit hd in
theorem TopLevel.names {nd : Nd} {D : Def} (h : TopLevel d nd D) : nd.name ∈ [c!"complexType", c!"simpleType", c!"element"] := by
  cases h <;> simp_all

/-- The definition the parser makes of a top-level node. -/
theorem interpreted_root {nd : Nd} {e : Env} {n : Name} {r : Root} {D : Def} (he : EnvOf d.root.1 e) (ht : Stands t e.target (targetOf d))
    (h : Interpreted x e t nd n r) (hD : TopLevel d nd D) : RootIs t n D r := by
  cases h with
  | @element k seen s r s' hn hs hi hx h =>
    subst hs
    cases k with
    | zero => cases h
    | succ k =>
      have hrun := parseElementRoot_run x h
      clear h
      cases hD with
      | complexType hn' => rw [hn] at hn'; cases hn'
      | simpleType hn' => rw [hn] at hn'; cases hn'
      | @typed ty _ hty =>
        cases hrun with
        | typed docs a c nd' s' hdo ha hc hp hk =>
          have : TypIs t ty c := by
            refine typeAttr_typ hd he (nd := nd) (fun n => ?_) ha hc hty hx
            rfl
          cases this with
          | builtin => exact .text
          | fixed => exact .fixed
          | own h => exact .sameAs h
        | complexType docs child root s' hdo ha =>
          have ha : nd.value c!"type" = none := Option.map_eq_none_iff.2 ha
          cases hty <;> (rename_i hv _ _; rw [ha] at hv; cases hv)
        | simpleType docs child root s' hdo ha =>
          have ha : nd.value c!"type" = none := Option.map_eq_none_iff.2 ha
          cases hty <;> (rename_i hv _ _; rw [ha] at hv; cases hv)
      | inlineComplex hn' hty hc hcn hD =>
        cases hrun with
        | typed docs a c nd' s' hdo ha =>
          have ha : nd.attr c!"type" = some a := ha
          rw [Option.map_eq_none_iff.1 hty] at ha
          cases ha
        | complexType docs child root s' hdo ha hp hk h =>
          cases (rk_only hk (rk_keep (n := c!"annotation") hc (by rw [hcn]; decide))).1
          exact (complexType_root hd he hi ht h hD hx).withDocs docs
        | simpleType docs child root s' hdo ha hp hk =>
          exact absurd (kid_info hc hcn) ((rk_none hk).2 _ (rk_keep (n := c!"annotation") hc (by rw [hcn]; decide)))
      | inlineSimple hn' hty hc hcn hD =>
        cases hrun with
        | typed docs a c nd' s' hdo ha =>
          have ha : nd.attr c!"type" = some a := ha
          rw [Option.map_eq_none_iff.1 hty] at ha
          cases ha
        | complexType docs child root s' hdo ha hp hk h =>
          have := (rk_only hk (rk_keep (n := c!"annotation") hc (by rw [hcn]; decide))).2
          rw [kid_info hc hcn] at this
          cases this
        | simpleType docs child root s' hdo ha hp hk hk2 h =>
          cases (rk_only hk2 (rk_keep (n := c!"annotation") hc (by rw [hcn]; decide))).1
          exact (simpleType_root hd he h hD).withDocs docs
  | @complexType k seen s r s' docs hn hs hi hx h =>
    subst hs
    cases hD with
    | complexType hn' hD =>
      refine (complexType_root hd he hi ht h ?_ hx).withDocs docs
      cases hD with
      | empty h1 h2 => exact .empty h1 h2
      | elements h1 h2 h3 h4 h5 h6 h7 => exact .elements h1 h2 h3 h4 h5 h6 h7
      | text h1 h2 h3 h4 h5 h6 h7 => exact .text h1 h2 h3 h4 h5 h6 h7
    | simpleType hn' => rw [hn] at hn'; cases hn'
    | typed hn' => rw [hn] at hn'; cases hn'
    | inlineComplex hn' => rw [hn] at hn'; cases hn'
    | inlineSimple hn' => rw [hn] at hn'; cases hn'
  | @simpleType seen s r s' docs hn hs hi hx h =>
    subst hs
    cases hD with
    | simpleType hn' hD =>
      refine (simpleType_root hd he (parseSimpleType_run x h) ?_).withDocs docs
      cases hD with
      | text h1 h2 h3 h4 h5 => exact .text h1 h2 h3 h4 h5
      | enumeration h1 h2 h3 h4 => exact .enumeration h1 h2 h3 h4
    | complexType hn' => rw [hn] at hn'; cases hn'
    | typed hn' => rw [hn] at hn'; cases hn'
    | inlineComplex hn' => rw [hn] at hn'; cases hn'
    | inlineSimple hn' => rw [hn] at hn'; cases hn'
  | sequence hn => exact absurd hD.names (by rw [hn]; decide)
  | all hn => exact absurd hD.names (by rw [hn]; decide)
  | choice hn => exact absurd hD.names (by rw [hn]; decide)

end
end Xsd.Flat
