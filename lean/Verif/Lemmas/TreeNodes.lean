import Verif.Lemmas.TreeParse
import Verif.Props.Particles
/-!
# Parsing a node adds the types of the nodes below it
-/
namespace Xsd.Tree
open Xsd.Flat (Typ RefersTo TypeAttr LocalNs SimpleType Lexical attributeNodes Names TypIs DocOK typeName_literal typeName_named
  refersTo_of_denotes dflt_ok facetOf_enum each_value simpleType_root removeKids_attribute)

/-- Add types to a map, in order. -/
def applyAll (log : List (Name × Root)) (roots : List (Name × Root)) : List (Name × Root) :=
  log.foldl (fun m p => ainsert m p.1 p.2) roots

theorem applyAll_append (l l' m : List (Name × Root)) : applyAll (l ++ l') m = applyAll l' (applyAll l m) := List.foldl_append ..

/-- At most `c` types are added between two contexts. If there are `c`, and the final table of types has them, then `R`. -/
def Adds (G : Name → Option Root) (s s' : PCtx) (c : Nat) (R : Prop) : Prop :=
  ∃ log : List (Name × Root), s'.roots = applyAll log s.roots ∧ log.length ≤ c ∧
    (log.length = c → (∀ p ∈ log, G p.1 = some p.2) → R)

section
variable {G : Name → Option Root} {s s' s'' : PCtx} {c c' : Nat} {R R' : Prop}

theorem Adds.nil (h : s'.roots = s.roots) (hr : R) : Adds G s s' c R := by
  exact ⟨[], h, Nat.zero_le _, fun _ _ => hr⟩

theorem Adds.imp (h : Adds G s s' c R) (hi : R → R') : Adds G s s' c R' := by
  obtain ⟨log, h1, h2, h3⟩ := h
  exact ⟨log, h1, h2, fun a b => hi (h3 a b)⟩

theorem Adds.le (h : Adds G s s' c R) (hc : c ≤ c') (hi : c = c' → R → R') : Adds G s s' c' R' := by
  obtain ⟨log, h1, h2, h3⟩ := h
  refine ⟨log, h1, by omega, fun a b => ?_⟩
  have : c = c' := by omega
  exact hi this (h3 (by omega) b)

theorem Adds.cast (h : Adds G s s' c R) (hc : c = c') : Adds G s s' c' R := hc ▸ h

theorem Adds.trans (h : Adds G s s' c R) (h' : Adds G s' s'' c' R') : Adds G s s'' (c + c') (R ∧ R') := by
  obtain ⟨log, h1, h2, h3⟩ := h
  obtain ⟨log', h1', h2', h3'⟩ := h'
  refine ⟨log ++ log', by rw [applyAll_append, ← h1, h1'], by rw [List.length_append]; omega, fun a b => ?_⟩
  rw [List.length_append] at a
  exact ⟨h3 (by omega) (fun p hp => b p (List.mem_append_left _ hp)), h3' (by omega) (fun p hp => b p (List.mem_append_right _ hp))⟩

/-- Adding one type. -/
theorem Adds.add {n p : Name} {r : Root} (h : Adds G s s' c R) :
    Adds G s ((s'.addRoot n r).discoverType n p) (c + 1) (R ∧ G n = some r) := by
  obtain ⟨log, h1, h2, h3⟩ := h
  refine ⟨log ++ [(n, r)], by rw [applyAll_append, ← h1]; rfl, by rw [List.length_append]; simpa using h2, fun a b => ?_⟩
  rw [List.length_append] at a
  exact ⟨h3 (by simpa using a) (fun p hp => b p (List.mem_append_left _ hp)), b (n, r) (by simp)⟩

/-- Nothing is added on the way to the first context. -/
theorem Adds.from (h : Adds G s' s'' c R) (hs : s'.roots = s.roots) : Adds G s s'' c R := by
  obtain ⟨log, h1, h2, h3⟩ := h
  exact ⟨log, by rw [h1, hs], h2, h3⟩

end

/-! ## Sums -/

theorem sum_removeKid (g : Nd → Nat) (n : Str) (ks : List Nd) :
    (ks.map g).sum = (match (removeKid n ks).1 with | some c => g c | none => 0) + ((removeKid n ks).2.map g).sum := by
  induction ks with
  | nil => rfl
  | cons k ks ih =>
    unfold removeKid
    by_cases h : k.info.name = ⟨n, some nsXsd⟩
    · rw [if_pos h]; rfl
    · rw [if_neg h]
      simp only [List.map_cons, List.sum_cons, ih]
      omega

theorem sum_some {g : Nd → Nat} {n : Str} {ks rest : List Nd} {c : Nd} (h : removeKid n ks = (some c, rest)) :
    (ks.map g).sum = g c + (rest.map g).sum := by
  rw [sum_removeKid g n, h]

theorem sum_annotation {g : Nd → Nat} (hg : ∀ c : Nd, c.name = c!"annotation" → g c = 0) (ks : List Nd) :
    ((removeKid c!"annotation" ks).2.map g).sum = (ks.map g).sum := by
  rw [sum_removeKid g c!"annotation" ks]
  split
  · next h => rw [hg _ (name_of_info (rk_name h).1)]; omega
  · omega

theorem ownType_annotation {nd c : Nd} (h : c.name = c!"annotation") : ownType nd c = 0 := by
  unfold ownType
  rw [h, if_neg (by decide), if_neg (by decide), if_neg (by decide), if_neg (by decide)]

theorem ownType_attribute {nd c : Nd} (h : c.name = c!"attribute") : ownType nd c = if enumerates c then 1 else 0 := by
  unfold ownType
  rw [h, if_neg (by decide), if_neg (by decide), if_neg (by decide), if_pos rfl]

theorem below_attribute {f : Nat} {c : Nd} (h : c.name = c!"attribute") : typesBelow f c = 0 := by
  cases f with
  | zero => rfl
  | succ f =>
    unfold typesBelow
    rw [if_neg]
    unfold holds
    rw [h]
    simp only [Bool.or_eq_true, Bool.and_eq_true, decide_eq_true_eq]
    rintro (h | ⟨⟨h, _⟩, _⟩) <;> revert h <;> decide

theorem below_annotation {f : Nat} {c : Nd} (h : c.name = c!"annotation") : typesBelow f c = 0 := by
  cases f with
  | zero => rfl
  | succ f =>
    unfold typesBelow
    rw [if_neg]
    unfold holds
    rw [h]
    simp only [Bool.or_eq_true, Bool.and_eq_true, decide_eq_true_eq]
    rintro (h | ⟨⟨h, _⟩, _⟩) <;> revert h <;> decide

theorem below_simpleType {f : Nat} {c : Nd} (h : c.name = c!"simpleType") : typesBelow f c = 0 := by
  cases f with
  | zero => rfl
  | succ f =>
    unfold typesBelow
    rw [if_neg]
    unfold holds
    rw [h]
    simp only [Bool.or_eq_true, Bool.and_eq_true, decide_eq_true_eq]
    rintro (h | ⟨⟨h, _⟩, _⟩) <;> revert h <;> decide

theorem below_holds {f : Nat} {nd : Nd} (h : nd.name ∈ c!"complexType" :: c!"extension" :: contentNames) :
    typesBelow (f + 1) nd = (nd.xsdKids.map (fun c => ownType nd c + typesBelow f c)).sum := by
  show (if holds nd then _ else 0) = _
  rw [if_pos]
  unfold holds
  simp [h]

theorem below_element {f : Nat} {nd : Nd} (hr : nd.value c!"ref" = none) (ht : nd.value c!"type" = none)
    (hn : nd.name = c!"element") : typesBelow (f + 1) nd = (nd.xsdKids.map (fun c => ownType nd c + typesBelow f c)).sum := by
  show (if holds nd then _ else 0) = _
  rw [if_pos]
  unfold holds
  simp [hr, ht, hn]

theorem below_see {f : Nat} {nd : Nd} {ns : List Str} : typesBelow f (nd.sees ns) = typesBelow f nd := by
  cases f <;> rfl

/-! ## Types -/

theorem TypeAttr.unique {d : XDoc} (hd : DocOK d) {nd : Nd} {ty ty' : Typ} (h : TypeAttr d nd ty) (h' : TypeAttr d nd ty') : ty' = ty := by
  cases h with
  | builtin hv hb hf =>
    cases h' with
    | builtin hv' hb' hf' => rw [hv] at hv'; cases hv'; rw [hb.unique hd hb']
    | fixed hv' hb' hf' => rw [hf] at hf'; cases hf'
    | own hv' hr' hq' =>
      rw [hv] at hv'; cases hv'
      obtain ⟨n, h1, _⟩ := hb
      cases h1.unique hd.nodup hr'
      exact absurd rfl hq'
  | fixed hv hb hf =>
    cases h' with
    | builtin hv' hb' hf' => rw [hf] at hf'; cases hf'
    | fixed hv' hb' hf' => rw [hf] at hf'; cases hf'; rfl
    | own hv' hr' hq' =>
      rw [hv] at hv'; cases hv'
      obtain ⟨n, h1, _⟩ := hb
      cases h1.unique hd.nodup hr'
      exact absurd rfl hq'
  | own hv hr hq =>
    cases h' with
    | builtin hv' hb' hf' =>
      rw [hv] at hv'; cases hv'
      obtain ⟨n, h1, _⟩ := hb'
      cases h1.unique hd.nodup hr
      exact absurd rfl hq
    | fixed hv' hb' hf' =>
      rw [hv] at hv'; cases hv'
      obtain ⟨n, h1, _⟩ := hb'
      cases h1.unique hd.nodup hr
      exact absurd rfl hq
    | own hv' hr' hq' => rw [hv] at hv'; cases hv'; rw [hr.unique hd.nodup hr']

theorem BaseAttr.unique {d : XDoc} (hd : DocOK d) {nd : Nd} {ty ty' : Typ} (h : BaseAttr d nd ty) (h' : BaseAttr d nd ty') : ty' = ty := by
  cases h with
  | builtin hv hb =>
    cases h' with
    | builtin hv' hb' => rw [hv] at hv'; cases hv'; rw [hb.unique hd hb']
    | own hv' hr' hq' =>
      rw [hv] at hv'; cases hv'
      obtain ⟨n, h1, _⟩ := hb
      cases h1.unique hd.nodup hr'
      exact absurd rfl hq'
  | own hv hr hq =>
    cases h' with
    | builtin hv' hb' =>
      rw [hv] at hv'; cases hv'
      obtain ⟨n, h1, _⟩ := hb'
      cases h1.unique hd.nodup hr
      exact absurd rfl hq
    | own hv' hr' hq' => rw [hv] at hv'; cases hv'; rw [hr.unique hd.nodup hr']

/-- The context in a document: `t` is the final table of namespaces. -/
structure On (d : XDoc) (t : Namespaces) (s : PCtx) : Prop where
  env : EnvOf d.root.1 s.env
  reach : s.nss.Reachable
  target : Stands t s.target (targetOf d)

theorem On.later {d : XDoc} {t : Namespaces} {s s' : PCtx} (h : On d t s) (hl : Later s s') : On d t s' := by
  have e1 : s'.target = s.target := congrArg Env.target hl.env
  exact ⟨hl.env ▸ h.env, (hl.nss h.reach).2, e1 ▸ h.target⟩

theorem On.ext {d : XDoc} {t : Namespaces} {s s' : PCtx} (h : On d t s) (hl : Later s s') (hx : s'.nss.Extends t) : s.nss.Extends t :=
  (hl.nss h.reach).1.trans hx

section
variable {x : Ext} {F : Files} {path : Str} {t : Namespaces} {G : Name → Option Root} {d : XDoc} (hd : DocOK d)
  {s s' : PCtx} (ho : On d t s)
include hd ho

theorem typeName_refers {a : XAttr} {n : Name} (h : getTypeName a s = .ok (.named n, s')) :
    ∃ q, RefersTo d.root.1 a.value q ∧ q.ns ≠ some nsXsd ∧ Names s'.nss n q := by
  obtain ⟨u, h1, h2, h3⟩ := (C33_partial a s (ho.env.all hd.nodup).2.2 (fun _ => dflt_ok hd ho.env)).2.1 n s' h
  exact ⟨⟨n.name, u⟩, refersTo_of_denotes ho.env hd.nodup h1, h2, rfl, h3⟩

theorem base_for {nd : Nd} {a : XAttr} {c : LeafContent} (hk : NodeOK F path d nd) (ha : nd.attr c!"base" = some a)
    (h : getTypeName a s = .ok (c, s')) (hx : s'.nss.Extends t) :
    ∃ ty, BaseAttr d nd ty ∧ (∀ ty', BaseAttr d nd ty' → ty' = ty) ∧ TypFor F path t ty c := by
  have hv := value_some ha
  cases c with
  | literal l =>
    have hb : BaseAttr d nd (.builtin l) := .builtin hv (typeName_literal hd ho.env h)
    exact ⟨_, hb, fun ty' h' => hb.unique hd h', .builtin⟩
  | named n =>
    obtain ⟨q, h1, h2, h3⟩ := typeName_refers hd ho h
    have hb : BaseAttr d nd (.own q) := .own hv h1 h2
    obtain ⟨d', c, ht, hc⟩ := hk.base _ q hv h1 h2
    exact ⟨_, hb, fun ty' h' => hb.unique hd h', .own (h3.mono hx) ht hc⟩
  | fixed f => exact (getTypeName_fixed h).elim

theorem typeAttr_for {nd nd1 nd' : Nd} {a : XAttr} {parent : Name} {c : LeafContent} (hk : NodeOK F path d nd)
    (hnd : ∀ n, nd1.attr n = nd.attr n) (ha : nd.attr c!"type" = some a) (h : TypeAttrRun nd1 a parent s c nd' s')
    (hx : s'.nss.Extends t) : ∃ ty, TypeAttr d nd ty ∧ (∀ ty', TypeAttr d nd ty' → ty' = ty) ∧ TypFor F path t ty c ∧
      (nd.name = c!"attribute" → ∀ q, ty = .own q → StringType F path q) := by
  have hv := value_some ha
  cases h with
  | named n s1 h =>
    obtain ⟨q, h1, h2, h3⟩ := typeName_refers hd ho h
    have hb : TypeAttr d nd (.own q) := .own hv h1 h2
    obtain ⟨d', c, ht, hc, hs⟩ := hk.type _ q hv h1 h2
    refine ⟨_, hb, fun ty' h' => TypeAttr.unique hd hb h', .own (h3.mono hx) ht hc, fun hn q' hq' => ?_⟩
    cases hq'
    exact ⟨d', c, ht, hs hn⟩
  | fixed l s1 f h hf =>
    rw [hnd] at hf
    have hb : TypeAttr d nd (.fixed f.value) := .fixed hv (typeName_literal hd ho.env h) (value_some hf)
    exact ⟨_, hb, fun ty' h' => TypeAttr.unique hd hb h', .fixed, nofun⟩
  | literal l s1 h hf =>
    rw [hnd] at hf
    have hb : TypeAttr d nd (.builtin l) := .builtin hv (typeName_literal hd ho.env h) (by unfold Nd.value; rw [hf]; rfl)
    exact ⟨_, hb, fun ty' h' => TypeAttr.unique hd hb h', .builtin, nofun⟩

/-- What a `simpleType` node says, and what becomes of it. -/
theorem simpleType_for {nd : Nd} {r : Root} (h : SimpleTypeRun x nd s r s') :
    (∃ l rs docs, r = .leaf ⟨.literal l, rs, docs⟩ ∧ SimpleType d nd (.text l) ∧ ∀ D, SimpleType d nd D → D = .text l) ∨
    (∃ vs, r = .enum (vs.map (fun v => ⟨v, .none⟩)) ∧ SimpleType d nd (.enumeration vs) ∧
      ∀ D, SimpleType d nd D → D = .enumeration vs) := by
  have key : ∀ D, SimpleType d nd D → Flat.RootIs t ⟨[], .none⟩ D r := fun D hD => simpleType_root hd ho.env h hD
  cases h with
  | mk docs restriction rest attr l s' fs hp hdocs hr ha ht hc hf =>
    subst hc
    obtain ⟨fs', hfs, rfl⟩ := parseFacets_each hf
    have hch := rk_name (by rw [hr] : (removeKid c!"restriction" (removeKid c!"annotation" nd.xsdKids).2).1 = some restriction)
    have hrn := name_of_info hch.1
    have hrm := rk_rest hch.2
    by_cases he : enumsOf fs' = []
    · dsimp only at key ⊢
      rw [if_pos he] at key ⊢
      refine .inl ⟨l, _, docs, rfl, .text hrm hrn (value_some ha) (typeName_literal hd ho.env ht) ((facets_enumeration hf).1 he), ?_⟩
      intro D hD
      cases key D hD with
      | text => rfl
    · dsimp only at key ⊢
      rw [if_neg he] at key ⊢
      refine .inr ⟨_, rfl, .enumeration hrm hrn (facetOf_enum hfs) he, fun D hD => ?_⟩
      have := key D hD
      generalize hw : (enumsOf fs').map (fun v => (⟨v, .none⟩ : Name)) = ws at this
      cases this with
      | enumeration h =>
        rename_i vs
        have : (enumsOf fs').map (fun v => (⟨v, .none⟩ : Name)) = vs.map (fun v => ⟨v, .none⟩) := hw
        rw [show enumsOf fs' = vs from List.map_inj_right (f := fun v => (⟨v, .none⟩ : Name)) (by intro a b h; cases h; rfl) |>.1 this]

omit hd ho in
theorem enumerates_iff {nd c : Nd} (hc : c ∈ nd.xsdKids) (hn : c.name = c!"simpleType")
    (hu : ∀ c' ∈ nd.xsdKids, c'.name = c!"simpleType" → c' = c) : enumerates nd = true ↔
      ∃ q v, q ∈ c.xsdKids ∧ q.name = c!"restriction" ∧ v ∈ q.xsdKids ∧ v.name = c!"enumeration" := by
  unfold enumerates
  simp only [List.any_eq_true, Bool.and_eq_true, decide_eq_true_eq]
  constructor
  · rintro ⟨c', h1, h2, q, h3, h4, v, h5, h6⟩
    cases hu c' h1 h2
    exact ⟨q, v, h3, h4, h5, h6⟩
  · rintro ⟨q, v, h3, h4, h5, h6⟩
    exact ⟨c, hc, hn, q, h3, h4, v, h5, h6⟩

theorem attribute_for {nd : Nd} {parent : Name} {o : Option Attribute} (hn : nd.name = c!"attribute") (hk : NodeOK F path d nd)
    (h : AttributeRun x nd parent s o s') (hx : s'.nss.Extends t) :
    Adds G s s' (if enumerates nd then 1 else 0) (AttrsFor F path t G d [nd] o.toList) := by
  have key : ∀ {nameAttr content nd' s'}
      (_ : AttrContentRun x (nd.see c!"name") ⟨nameAttr, .none⟩ parent s
        (removeKid c!"simpleType" (removeKid c!"annotation" nd.xsdKids).2).1 content nd' s')
      (_ : (removeKid c!"simpleType" (removeKid c!"annotation" nd.xsdKids).2).2 = []) (_ : s'.nss.Extends t),
      Adds G s s' (if enumerates nd then 1 else 0) (AttrContentFor F path t G d nd content) ∧
      ∀ n, nd'.value n = nd.value n := by
    intro nameAttr content nd' s' hcr hk' hx
    have honly : ∀ c ∈ nd.xsdKids, c.name = c!"simpleType" →
        (removeKid c!"simpleType" (removeKid c!"annotation" nd.xsdKids).2).1 = some c := by
      intro c hc hn
      rcases rk_mem c!"simpleType" (rk_keep (n := c!"annotation") hc (by rw [hn]; decide)) with h | h
      · exact h
      · rw [hk'] at h; cases h
    have hname := fun c => rk_name (n := c!"simpleType") (ks := (removeKid c!"annotation" nd.xsdKids).2) (c := c)
    generalize (removeKid c!"simpleType" (removeKid c!"annotation" nd.xsdKids).2).1 = o at hcr honly hname
    cases hcr with
    | plain c l rs docs s' h =>
      obtain ⟨hcn, hcm⟩ := hname c rfl
      have hcn := name_of_info hcn
      have hcm := rk_rest hcm
      have hu : ∀ c' ∈ nd.xsdKids, c'.name = c!"simpleType" → c' = c := fun c' h1 h2 => (Option.some.inj (honly c' h1 h2)).symm
      refine ⟨?_, fun _ => rfl⟩
      refine .nil (simpleType_roots h).1 ?_
      rcases simpleType_for hd ho h with ⟨l', rs', docs', h1, h2, h3⟩ | ⟨vs, h1, _⟩
      · cases h1
        exact .text hcm hcn hu h2 h3
      · cases h1
    | inline c root s1 v h hv hne =>
      obtain ⟨hcn, hcm⟩ := hname c rfl
      have hcn := name_of_info hcn
      have hcm := rk_rest hcm
      have hu : ∀ c' ∈ nd.xsdKids, c'.name = c!"simpleType" → c' = c := fun c' h1 h2 => (Option.some.inj (honly c' h1 h2)).symm
      have hen : enumerates nd = true := (enumerates_iff hcm hcn hu).2 (Classical.byContradiction (fun hh => by
          obtain ⟨t, rs, docs, hr⟩ := (simpleType_enumeration h).2 hh
          exact hne _ _ _ hr))
      refine ⟨?_, fun _ => rfl⟩
      rw [if_pos hen]
      rcases simpleType_for hd ho h with ⟨l', rs', docs', h1, h2, h3⟩ | ⟨vs, h1, h2, h3⟩
      · exact absurd h1 (hne _ _ _)
      · subst h1
        refine ((Adds.nil (c := 0) (R := True) (simpleType_roots h).1 trivial).add (p := parent)).imp ?_
        exact fun hg => .enumeration hcm hcn hu h2 h3 hg.2
    | typed a c nd' s' ha h =>
      have hs : ∀ c ∈ nd.xsdKids, c.name ≠ c!"simpleType" := fun c hc hcn => by cases honly c hc hcn
      have hv : ∀ n, nd'.value n = nd.value n := by cases h <;> exact fun _ => rfl
      refine ⟨.nil (typeAttr_roots h).1 ?_, hv⟩
      obtain ⟨ty, h1, h2, h3, h4⟩ := typeAttr_for hd ho hk (nd := nd) (fun n => by rfl) ha h hx
      exact .typed hs h1 h2 h3 (h4 hn)
  cases h with
  | prohibited nameAttr docs content nd' s' hn' hdo hc hk' hu =>
    obtain ⟨h1, h2⟩ := key hc hk' hx
    refine h1.imp fun _ => .skip ?_ .nil
    rw [← h2]; exact hu
  | some nameAttr docs content nd' s' hn' hdo hc hk' hu hx' hp =>
    obtain ⟨h1, h2⟩ := key hc hk' hx
    have h2' : (nd'.attr c!"use").map XAttr.value = nd.value c!"use" := h2 _
    rw [h2'] at hu ⊢
    refine h1.imp fun hcont => .cons (value_some hn') rfl ?_ rfl hcont .nil
    intro e
    rw [e] at hu
    revert hu
    decide

end

section
variable {x : Ext} {F : Files} {path : Str} {t : Namespaces} {G : Name → Option Root} {d : XDoc} (hd : DocOK d)
include hd

theorem attributes_for {parent : Name} {cs : List Nd} {as : List Attribute} {s s' : PCtx} (ho : On d t s)
    (hn : ∀ c ∈ cs, c.name = c!"attribute") (hk : ∀ c ∈ cs, NodeOK F path d c)
    (h : AttributesRun x parent cs s as s') (hx : s'.nss.Extends t) (nd : Nd) (f : Nat) :
    Adds G s s' (cs.map (fun c => ownType nd c + typesBelow f c)).sum (AttrsFor F path t G d cs as) := by
  induction h with
  | nil => exact .nil rfl .nil
  | skip c cs s s1 as s' h hs ih =>
    have hl := (attribute_log (parseAttribute_run x h)).toLater
    have hl' := (attributes_log hs).toLater
    have h1 := attribute_for (G := G) hd ho (hn c (.head _)) (hk c (.head _)) (parseAttribute_run x h) ((ho.later hl).ext hl' hx)
    have h2 := ih (ho.later hl) (fun c hc => hn c (.tail _ hc)) (fun c hc => hk c (.tail _ hc)) hx
    rw [List.map_cons, List.sum_cons, ownType_attribute (hn c (.head _)), below_attribute (hn c (.head _))]
    refine (h1.trans h2).imp fun ⟨ha, hb⟩ => ?_
    cases ha with
    | skip hu _ => exact .skip hu hb
  | cons c cs s s1 a as s' h hs ih =>
    have hl := (attribute_log (parseAttribute_run x h)).toLater
    have hl' := (attributes_log hs).toLater
    have h1 := attribute_for (G := G) hd ho (hn c (.head _)) (hk c (.head _)) (parseAttribute_run x h) ((ho.later hl).ext hl' hx)
    have h2 := ih (ho.later hl) (fun c hc => hn c (.tail _ hc)) (fun c hc => hk c (.tail _ hc)) hx
    rw [List.map_cons, List.sum_cons, ownType_attribute (hn c (.head _)), below_attribute (hn c (.head _))]
    refine (h1.trans h2).imp fun ⟨ha, hb⟩ => ?_
    cases ha with
    | skip _ h => cases h
    | cons h1 h2 h3 h4 h5 _ => exact .cons h1 h2 h3 h4 h5 hb

end
end Xsd.Tree
