import Verif.Model.Schema
/-!
# Successful parser steps
-/
namespace Xsd

namespace P
variable {α β : Type}

theorem bind_ok {m : P α} {f : α → P β} {s : PCtx} {b : β} {s'' : PCtx} :
    (m >>= f) s = .ok (b, s'') ↔ ∃ a s', m s = .ok (a, s') ∧ f a s' = .ok (b, s'') := by
  show P.bnd m f s = _ ↔ _
  unfold P.bnd
  cases h : m s with
  | ok p =>
    obtain ⟨a, s'⟩ := p
    constructor
    · intro hf; exact ⟨a, s', rfl, hf⟩
    · rintro ⟨a', s1, h1, h2⟩; cases h1; exact h2
  | err e => constructor <;> simp
  | panic => constructor <;> simp
  | diverge => constructor <;> simp

theorem pure_ok {a b : α} {s s' : PCtx} : (pure a : P α) s = .ok (b, s') ↔ b = a ∧ s' = s := by
  show Res.ok (a, s) = _ ↔ _
  constructor
  · intro h; cases h; exact ⟨rfl, rfl⟩
  · rintro ⟨rfl, rfl⟩; rfl

theorem lift_ok {r : Res XErr α} {s s' : PCtx} {a : α} : P.lift r s = .ok (a, s') ↔ r = .ok a ∧ s' = s := by
  unfold P.lift
  cases r with
  | ok b =>
    constructor
    · intro h; cases h; exact ⟨rfl, rfl⟩
    · rintro ⟨h, rfl⟩; cases h; rfl
  | err e => constructor <;> simp
  | panic => constructor <;> simp
  | diverge => constructor <;> simp

theorem fail_ok {e : XErr} {s s' : PCtx} {a : α} : (P.fail e : P α) s = .ok (a, s') ↔ False := by
  constructor
  · intro h; cases h
  · exact False.elim

theorem diverge_ok {s s' : PCtx} {a : α} : (P.diverge : P α) s = .ok (a, s') ↔ False := by
  constructor
  · intro h; cases h
  · exact False.elim

theorem modify_ok {f : PCtx → PCtx} {s s' : PCtx} {u : Unit} : P.modify f s = .ok (u, s') ↔ s' = f s := by
  constructor
  · intro h; cases h; rfl
  · rintro rfl; rfl

theorem ite_ok {c : Prop} [Decidable c] {m n : P α} {s : PCtx} {r : Res XErr (α × PCtx)} :
    (if c then m else n) s = r ↔ (c ∧ m s = r) ∨ (¬ c ∧ n s = r) := by
  split <;> simp_all

end P

theorem addRoot_ok {n : Name} {r : Root} {s s' : PCtx} {u : Unit} : addRoot n r s = .ok (u, s') ↔ s' = s.addRoot n r :=
  P.modify_ok

theorem discoverType_ok {n p : Name} {s s' : PCtx} {u : Unit} :
    discoverType n p s = .ok (u, s') ↔ s' = s.discoverType n p := P.modify_ok

theorem nodeName_ok {n : Str} {s s' : PCtx} {m : Name} :
    nodeName n s = .ok (m, s') ↔ m = s.nodeName n false ∧ s' = s := by
  constructor
  · intro h; cases h; exact ⟨rfl, rfl⟩
  · rintro ⟨rfl, rfl⟩; rfl

theorem deriveVirtualName_ok {x : Ext} {ns : List Name} {b : Bool} {s s' : PCtx} {m : Name} :
    deriveVirtualName x ns b s = .ok (m, s') ↔
      ∃ v, virtualName x (ns.map Name.name) b = .ok v ∧ m = s.nodeName v false ∧ s' = s := by
  unfold deriveVirtualName
  cases virtualName x (ns.map Name.name) b with
  | ok v =>
    constructor
    · intro h; cases h; exact ⟨v, rfl, rfl, rfl⟩
    · rintro ⟨v', h, rfl, rfl⟩; cases h; rfl
  | err e => simp
  | panic => simp
  | diverge => simp

/-- `pbind h with a s h1` takes the first step off a successful run `h`. -/
macro "pbind" h:ident "with" a:ident s:ident h1:ident : tactic =>
  `(tactic| (rw [P.bind_ok] at $h:ident; obtain ⟨$a:ident, $s:ident, $h1:ident, $h:ident⟩ := $h:ident))

/-- `plift h with a h1` is `pbind` for a step that does not change the context. -/
macro "plift" h:ident "with" a:ident h1:ident : tactic =>
  `(tactic| (rw [P.bind_ok] at $h:ident; obtain ⟨$a:ident, _, $h1:ident, $h:ident⟩ := $h:ident
             rw [P.lift_ok] at $h1:ident; obtain ⟨$h1:ident, he⟩ := $h1:ident; have he := he.symm; subst he))

/-- `pret h` ends a successful run. -/
macro "pret" h:ident : tactic =>
  `(tactic| (rw [P.pure_ok] at $h:ident; obtain ⟨he, hs⟩ := $h:ident; subst he; subst hs))

/-- A group is added: two derived names, one root, one dependency. -/
theorem addGroup_ok {x : Ext} {parent : Name} {members : List Leaf} {suffix : List Name} {root : Root}
    {docs : Option Str} {mn : Nat} {mx : MaxOccurs} {s s' : PCtx} {l : Leaf}
    (h : addGroup x parent members suffix root docs mn mx s = .ok (l, s')) :
    ∃ leafName rootName, deriveVirtualName x (members.map Leaf.name) true s = .ok (leafName, s) ∧
      deriveVirtualName x (parent :: leafName :: suffix) false s = .ok (rootName, s) ∧
      s' = (s.addRoot rootName root).discoverType rootName parent ∧
      l = ⟨leafName, ⟨.named rootName, [], docs⟩, false, true, mn, mx⟩ := by
  unfold addGroup at h
  obtain ⟨ln, s1, h1, h⟩ := P.bind_ok.1 h
  obtain ⟨rn, s2, h2, h⟩ := P.bind_ok.1 h
  obtain ⟨_, s3, h3, h⟩ := P.bind_ok.1 h
  obtain ⟨_, s4, h4, h⟩ := P.bind_ok.1 h
  obtain ⟨rfl, rfl⟩ := P.pure_ok.1 h
  have e1 : s1 = s := by obtain ⟨_, _, _, e⟩ := deriveVirtualName_ok.1 h1; exact e
  subst e1
  have e2 : s2 = s1 := by obtain ⟨_, _, _, e⟩ := deriveVirtualName_ok.1 h2; exact e
  subst e2
  rw [addRoot_ok] at h3
  rw [discoverType_ok] at h4
  subst h3
  subst h4
  exact ⟨ln, rn, h1, h2, rfl, rfl⟩

theorem parseLeaves_ok {f : Nd → P (Option Leaf)} {c : Nd} {cs : List Nd} {s s' : PCtx} {r : List Leaf} :
    parseLeaves f (c :: cs) s = .ok (r, s') ↔ ∃ l ls s1, f c s = .ok (l, s1) ∧ parseLeaves f cs s1 = .ok (ls, s') ∧
      r = l.toList ++ ls := by
  constructor
  · intro h
    unfold parseLeaves at h
    obtain ⟨l, s1, h1, h⟩ := P.bind_ok.1 h
    obtain ⟨ls, s2, h2, h⟩ := P.bind_ok.1 h
    obtain ⟨rfl, rfl⟩ := P.pure_ok.1 h
    exact ⟨l, ls, s1, h1, h2, by cases l <;> rfl⟩
  · rintro ⟨l, ls, s1, h1, h2, rfl⟩
    unfold parseLeaves
    refine P.bind_ok.2 ⟨l, s1, h1, P.bind_ok.2 ⟨ls, s', h2, P.pure_ok.2 ⟨?_, rfl⟩⟩⟩
    cases l <;> rfl

/-- `remove` takes out the first child of that name. -/
theorem removeKid_some {n : Str} {ks rest : List Nd} {k : Nd} (h : removeKid n ks = (some k, rest)) :
    ∃ a b, ks = a ++ k :: b ∧ rest = a ++ b ∧ k.info.name = ⟨n, some nsXsd⟩ ∧ ∀ j ∈ a, j.info.name ≠ ⟨n, some nsXsd⟩ := by
  induction ks generalizing rest with
  | nil => cases h
  | cons c cs ih =>
    simp only [removeKid] at h
    split at h
    · next hc => cases h; exact ⟨[], _, rfl, rfl, hc, by simp⟩
    · next hc =>
      obtain ⟨h1, h2⟩ := Prod.mk.inj h
      obtain ⟨a, b, e1, e2, e3, e4⟩ := ih (Prod.ext h1 rfl)
      refine ⟨c :: a, b, by rw [e1]; rfl, h2.symm.trans (congrArg (c :: ·) e2), e3, ?_⟩
      intro j hj
      rcases List.mem_cons.1 hj with rfl | hj
      · exact hc
      · exact e4 j hj

theorem removeKid_none {n : Str} {ks rest : List Nd} (h : removeKid n ks = (none, rest)) :
    rest = ks ∧ ∀ j ∈ ks, j.info.name ≠ ⟨n, some nsXsd⟩ := by
  induction ks generalizing rest with
  | nil => cases h; simp
  | cons c cs ih =>
    simp only [removeKid] at h
    split at h
    · cases h
    · next hc =>
      obtain ⟨h1, h2⟩ := Prod.mk.inj h
      obtain ⟨e1, e2⟩ := ih (Prod.ext h1 rfl)
      refine ⟨h2.symm.trans (congrArg (c :: ·) e1), ?_⟩
      intro j hj
      rcases List.mem_cons.1 hj with rfl | hj
      · exact hc
      · exact e2 j hj

theorem tryRemoveKid_ok {nd : Nd} {n : Str} {ks rest : List Nd} {k : Nd} :
    tryRemoveKid nd n ks = .ok (k, rest) ↔ removeKid n ks = (some k, rest) := by
  unfold tryRemoveKid
  split
  · next h => rw [h]; constructor <;> (intro hh; cases hh; rfl)
  · next h => rw [h]; constructor <;> (intro hh; cases hh)

theorem preventUnvisitedChildren_ok {nd : Nd} {ks : List Nd} {u : Unit} :
    preventUnvisitedChildren nd ks = .ok u ↔ ks = [] := by
  cases ks <;> simp [preventUnvisitedChildren]

theorem tryAttr_ok {nd : Nd} {n : Str} {a : XAttr} : nd.tryAttr n = .ok a ↔ nd.attr n = some a := by
  unfold Nd.tryAttr
  cases nd.attr n <;> simp

/-- Children found are children in the XSD namespace. -/
theorem mem_xsdKids {nd k : Nd} (h : k ∈ nd.xsdKids) :
    ∃ e, .elem e.1 e.2 ∈ nd.kids ∧ k = Nd.of e ∧ k.info.name.ns = some nsXsd := by
  obtain ⟨e, he, rfl⟩ := List.mem_map.1 h
  obtain ⟨he, hn⟩ := List.mem_filter.1 he
  obtain ⟨n, hn', he⟩ := List.mem_filterMap.1 he
  cases n with
  | elem i cs => cases he; exact ⟨(i, cs), hn', rfl, of_decide_eq_true hn⟩
  | text _ => cases he
  | other => cases he

theorem attr_see {nd : Nd} {n m : Str} : (nd.see n).attr m = nd.attr m := rfl

theorem child_see {nd : Nd} {n m : Str} : (nd.see n).child m = nd.child m := rfl

theorem xsdKids_see {nd : Nd} {n : Str} : (nd.see n).xsdKids = nd.xsdKids := rfl

theorem attr_sees {nd : Nd} {ns : List Str} {m : Str} : ({ nd with seen := ns } : Nd).attr m = nd.attr m := rfl

/-- The node after these attributes were looked at. -/
def Nd.sees (nd : Nd) (ns : List Str) : Nd := { nd with seen := ns ++ nd.seen }

theorem getTypeName_fixed {a : XAttr} {s s' : PCtx} {f : Str} : getTypeName a s ≠ .ok (.fixed f, s') := by
  intro h
  unfold getTypeName at h
  have hl : ∀ n, P.lift (literalOr n a) s ≠ .ok (.fixed f, s') := by
    intro n hh
    rw [P.lift_ok] at hh
    unfold literalOr at hh
    split at hh
    · cases hh.1
    · cases hh.1
  split at h
  · split at h
    · cases h
    · split at h
      · exact hl _ h
      · cases h
  · split at h
    · exact hl _ h
    · cases h

/-- Successful runs of `parseTypeAttr`. -/
inductive TypeAttrRun (nd : Nd) (a : XAttr) (parent : Name) (s : PCtx) : LeafContent → Nd → PCtx → Prop where
  | named (n s1) (h : getTypeName a s = .ok (.named n, s1)) :
      TypeAttrRun nd a parent s (.named n) nd (s1.discoverType n parent)
  | fixed (t s1 f) (h : getTypeName a s = .ok (.literal t, s1)) (hf : nd.attr c!"fixed" = some f) :
      TypeAttrRun nd a parent s (.fixed f.value) (nd.see c!"fixed") s1
  | literal (t s1) (h : getTypeName a s = .ok (.literal t, s1)) (hf : nd.attr c!"fixed" = none) :
      TypeAttrRun nd a parent s (.literal t) (nd.see c!"fixed") s1

theorem parseTypeAttr_run {nd nd' : Nd} {a : XAttr} {parent : Name} {s s' : PCtx} {c : LeafContent}
    (h : parseTypeAttr nd a parent s = .ok ((c, nd'), s')) : TypeAttrRun nd a parent s c nd' s' := by
  unfold parseTypeAttr at h
  pbind h with c0 s1 h1
  cases c0 with
  | named n =>
    pbind h with u s2 h2
    rw [discoverType_ok] at h2
    subst h2
    rw [P.pure_ok] at h
    obtain ⟨he, rfl⟩ := h
    cases he
    exact .named n s1 h1
  | literal t =>
    dsimp only at h
    cases hf : nd.attr c!"fixed" with
    | some f =>
      rw [hf] at h
      rw [P.pure_ok] at h
      obtain ⟨he, rfl⟩ := h
      cases he
      exact .fixed t _ f h1 hf
    | none =>
      rw [hf] at h
      rw [P.pure_ok] at h
      obtain ⟨he, rfl⟩ := h
      cases he
      exact .literal t _ h1 hf
  | fixed f => exact (getTypeName_fixed h1).elim

section
variable (x : Ext)

/-- Successful runs of `parseSimpleType`. -/
inductive SimpleTypeRun (nd : Nd) (s : PCtx) : Root → PCtx → Prop where
  | mk (docs restriction rest attr t s' fs) (hp : nd.preventUnvisitedAttributes = .ok ())
      (hd : parseAnnotation x (removeKid c!"annotation" nd.xsdKids).1 = .ok docs)
      (hr : removeKid c!"restriction" (removeKid c!"annotation" nd.xsdKids).2 = (some restriction, rest))
      (ha : restriction.attr c!"base" = some attr) (ht : getTypeName attr s = .ok (.literal t, s'))
      (hc : rest = []) (hf : parseFacets x restriction.xsdKids = .ok fs) :
      SimpleTypeRun nd s (if fs.1 = [] then .leaf ⟨.literal t, fs.2, docs⟩ else .enum (fs.1.map (fun v => ⟨v, .none⟩))) s'

theorem parseSimpleType_run {nd : Nd} {s s' : PCtx} {r : Root} (h : parseSimpleType x nd s = .ok (r, s')) :
    SimpleTypeRun x nd s r s' := by
  unfold parseSimpleType at h
  plift h with u h1
  plift h with docs h2
  plift h with p h3
  obtain ⟨restriction, rest⟩ := p
  rw [tryRemoveKid_ok] at h3
  plift h with attr h4
  rw [tryAttr_ok] at h4
  pbind h with c s1 h5
  cases c with
  | literal t =>
    plift h with u h6
    rw [preventUnvisitedChildren_ok] at h6
    plift h with fs h7
    pret h
    exact .mk docs restriction rest attr t s' fs h1 h2 h3 h4 h5 h6 h7
  | named n => exact (P.fail_ok.1 h).elim
  | fixed f => exact (P.fail_ok.1 h).elim

/-- Successful runs of `parseAttrContent`. -/
inductive AttrContentRun (nd : Nd) (name parent : Name) (s : PCtx) : Option Nd → LeafContent → Nd → PCtx → Prop where
  | plain (c t rs docs s') (h : SimpleTypeRun x c s (.leaf ⟨.literal t, rs, docs⟩) s') :
      AttrContentRun nd name parent s (some c) (.literal t) nd s'
  | inline (c root s1 v) (h : SimpleTypeRun x c s root s1)
      (hv : virtualName x [parent.name, name.name, c!"Data"] false = .ok v)
      (hne : ∀ t rs docs, root ≠ .leaf ⟨.literal t, rs, docs⟩) :
      AttrContentRun nd name parent s (some c) (.named (s1.nodeName v false)) nd
        ((s1.addRoot (s1.nodeName v false) root).discoverType (s1.nodeName v false) parent)
  | typed (a c nd' s') (ha : nd.attr c!"type" = some a) (h : TypeAttrRun (nd.see c!"type") a parent s c nd' s') :
      AttrContentRun nd name parent s none c nd' s'

theorem parseAttrContent_run {nd nd' : Nd} {name parent : Name} {s s' : PCtx} {child : Option Nd} {c : LeafContent}
    (h : parseAttrContent x nd name parent child s = .ok ((c, nd'), s')) :
    AttrContentRun x nd name parent s child c nd' s' := by
  unfold parseAttrContent at h
  cases child with
  | none =>
    plift h with a h1
    rw [tryAttr_ok] at h1
    exact .typed a c nd' s' h1 (parseTypeAttr_run h)
  | some k =>
    pbind h with root s1 h1
    have hr := parseSimpleType_run x h1
    split at h
    · next t rs docs =>
      rw [P.pure_ok] at h
      obtain ⟨he, rfl⟩ := h
      cases he
      exact .plain k t rs docs _ hr
    · next hne =>
      pbind h with data s2 h2
      rw [nodeName_ok] at h2
      obtain ⟨rfl, rfl⟩ := h2
      pbind h with vname s3 h3
      rw [deriveVirtualName_ok] at h3
      obtain ⟨v, hv, rfl, rfl⟩ := h3
      pbind h with u s4 h4
      rw [addRoot_ok] at h4
      subst h4
      pbind h with u s5 h5
      rw [discoverType_ok] at h5
      subst h5
      rw [P.pure_ok] at h
      obtain ⟨he, rfl⟩ := h
      cases he
      exact .inline k root _ v hr hv hne

/-- Successful runs of `parseAttribute`. -/
inductive AttributeRun (nd : Nd) (parent : Name) (s : PCtx) : Option Attribute → PCtx → Prop where
  | prohibited (nameAttr docs content nd' s') (hn : nd.attr c!"name" = some nameAttr)
      (hd : parseAnnotation x (removeKid c!"annotation" nd.xsdKids).1 = .ok docs)
      (hc : AttrContentRun x (nd.see c!"name") ⟨nameAttr.value, .none⟩ parent s
        (removeKid c!"simpleType" (removeKid c!"annotation" nd.xsdKids).2).1 content nd' s')
      (hk : (removeKid c!"simpleType" (removeKid c!"annotation" nd.xsdKids).2).2 = [])
      (hu : (nd'.attr c!"use").map XAttr.value = some c!"prohibited") : AttributeRun nd parent s none s'
  | some (nameAttr docs content nd' s') (hn : nd.attr c!"name" = some nameAttr)
      (hd : parseAnnotation x (removeKid c!"annotation" nd.xsdKids).1 = .ok docs)
      (hc : AttrContentRun x (nd.see c!"name") ⟨nameAttr.value, .none⟩ parent s
        (removeKid c!"simpleType" (removeKid c!"annotation" nd.xsdKids).2).1 content nd' s')
      (hk : (removeKid c!"simpleType" (removeKid c!"annotation" nd.xsdKids).2).2 = [])
      (hu : (nd'.attr c!"use").map XAttr.value = some c!"required" ∨ (nd'.attr c!"use").map XAttr.value = some c!"optional" ∨
        (nd'.attr c!"use").map XAttr.value = none)
      (hx : (nd'.attr c!"default").isSome = true → (nd'.attr c!"use").map XAttr.value ≠ some c!"required")
      (hp : ((nd'.see c!"default").see c!"use").preventUnvisitedAttributes = .ok ()) :
      AttributeRun nd parent s (some ⟨⟨nameAttr.value, .none⟩, content, (nd'.attr c!"default").map XAttr.value,
        decide ((nd'.attr c!"use").map XAttr.value ≠ some c!"required"), docs⟩) s'

theorem parseAttribute_run {nd : Nd} {parent : Name} {s s' : PCtx} {r : Option Attribute}
    (h : parseAttribute x nd parent s = .ok (r, s')) : AttributeRun x nd parent s r s' := by
  unfold parseAttribute at h
  plift h with nameAttr h1
  rw [tryAttr_ok] at h1
  dsimp only at h
  plift h with docs h2
  pbind h with p s1 h3
  obtain ⟨content, nd'⟩ := p
  have hc := parseAttrContent_run x h3
  plift h with u h4
  rw [preventUnvisitedChildren_ok] at h4
  rw [P.ite_ok] at h
  rcases h with ⟨hu, h⟩ | ⟨hu, h⟩
  · pret h
    exact .prohibited nameAttr docs content nd' s' h1 h2 hc h4 hu
  · rw [P.ite_ok] at h
    rcases h with ⟨hu2, h⟩ | ⟨_, h⟩
    · dsimp only at h
      rw [P.ite_ok] at h
      rcases h with ⟨_, h⟩ | ⟨hx, h⟩
      · exact (P.fail_ok.1 h).elim
      · plift h with u h5
        pret h
        refine .some nameAttr docs content nd' s' h1 h2 hc h4 hu2 (fun hd hreq => hx ⟨?_, ?_⟩) h5
        · rw [Option.isSome_map]; exact hd
        · exact decide_eq_false (fun hne => hne hreq)
    · exact (P.fail_ok.1 h).elim

/-- Successful runs of `parseAttributes`. -/
inductive AttributesRun (parent : Name) : List Nd → PCtx → List Attribute → PCtx → Prop where
  | nil (s) : AttributesRun parent [] s [] s
  | skip (c cs s s1 as s') (h : parseAttribute x c parent s = .ok (none, s1)) (hs : AttributesRun parent cs s1 as s') :
      AttributesRun parent (c :: cs) s as s'
  | cons (c cs s s1 a as s') (h : parseAttribute x c parent s = .ok (some a, s1)) (hs : AttributesRun parent cs s1 as s') :
      AttributesRun parent (c :: cs) s (a :: as) s'

theorem parseAttributes_run {parent : Name} {cs : List Nd} {s s' : PCtx} {as : List Attribute}
    (h : parseAttributes x parent cs s = .ok (as, s')) : AttributesRun x parent cs s as s' := by
  induction cs generalizing s as with
  | nil => unfold parseAttributes at h; pret h; exact .nil _
  | cons c cs ih =>
    unfold parseAttributes at h
    pbind h with a s1 h1
    pbind h with as' s2 h2
    cases a with
    | none => pret h; exact .skip c cs s s1 _ s' h1 (ih h2)
    | some a => pret h; exact .cons c cs s s1 a as' s' h1 (ih h2)

/-- Successful runs of `parseSimpleContent`. -/
inductive SimpleContentRun (nd : Nd) (parent : Name) (s : PCtx) : ElementDef → PCtx → Prop where
  | named (extension base n s1 attributes s') (hp : nd.preventUnvisitedAttributes = .ok ())
      (hr : removeKid c!"extension" nd.xsdKids = (some extension, []))
      (hb : extension.attr c!"base" = some base) (ht : getTypeName base s = .ok (.named n, s1))
      (ha : AttributesRun x parent (removeKids c!"attribute" extension.xsdKids).1 (s1.discoverType n parent) attributes s')
      (hk : (removeKids c!"attribute" extension.xsdKids).2 = []) :
      SimpleContentRun nd parent s ⟨attributes, some (.leaf n ⟨.named n, [], none⟩), false, none⟩ s'
  | literal (extension base t s1 attributes s') (hp : nd.preventUnvisitedAttributes = .ok ())
      (hr : removeKid c!"extension" nd.xsdKids = (some extension, []))
      (hb : extension.attr c!"base" = some base) (ht : getTypeName base s = .ok (.literal t, s1))
      (ha : AttributesRun x parent (removeKids c!"attribute" extension.xsdKids).1 s1 attributes s')
      (hk : (removeKids c!"attribute" extension.xsdKids).2 = []) :
      SimpleContentRun nd parent s ⟨attributes, some (.leaf parent ⟨.literal t, [], none⟩), false, none⟩ s'

theorem parseSimpleContent_run {nd : Nd} {parent : Name} {s s' : PCtx} {d : ElementDef}
    (h : parseSimpleContent x nd parent s = .ok (d, s')) : SimpleContentRun x nd parent s d s' := by
  unfold parseSimpleContent at h
  plift h with u h1
  plift h with p h2
  obtain ⟨extension, rest⟩ := p
  rw [tryRemoveKid_ok] at h2
  plift h with u h3
  rw [preventUnvisitedChildren_ok] at h3
  subst h3
  plift h with base h4
  rw [tryAttr_ok] at h4
  pbind h with c s1 h5
  cases c with
  | fixed f => exact (getTypeName_fixed h5).elim
  | named n =>
    pbind h with ln s2 h6
    pbind h6 with u s3 h7
    rw [discoverType_ok] at h7
    subst h7
    pret h6
    pbind h with as s4 h8
    plift h with u h9
    rw [preventUnvisitedChildren_ok] at h9
    pret h
    exact .named extension base ln s1 as s' h1 h2 h4 h5 (parseAttributes_run x h8) h9
  | literal t =>
    pbind h with ln s2 h6
    pret h6
    pbind h with as s4 h8
    plift h with u h9
    rw [preventUnvisitedChildren_ok] at h9
    pret h
    exact .literal extension base t _ as s' h1 h2 h4 h5 (parseAttributes_run x h8) h9

/-- The attributes a local element looks at before its type. -/
def childSeen : List Str := [c!"type", c!"form", c!"default", c!"name", c!"ref", c!"maxOccurs", c!"minOccurs"]

/-- The attributes a reference to an element looks at. -/
def refSeen : List Str := [c!"ref", c!"maxOccurs", c!"minOccurs"]

/-- Successful runs of `parseElementChild` with more than no fuel. -/
inductive ChildRun (k : Nat) (nd : Nd) (parent : Name) (s : PCtx) : Leaf → PCtx → Prop where
  | ref (mn mx a n s1) (hmn : parseMinOccurs (nd.attr c!"minOccurs") = .ok mn)
      (hmx : parseMaxOccurs (nd.attr c!"maxOccurs") = .ok mx) (hr : nd.attr c!"ref" = some a)
      (hp : (nd.sees refSeen).preventUnvisitedAttributes = .ok ()) (ht : getTypeName a s = .ok (.named n, s1)) :
      ChildRun k nd parent s ⟨n, ⟨.named n, [], none⟩, false, false, mn, mx⟩ (s1.discoverType n parent)
  | typed (mn mx na docs a c nd' s') (hmn : parseMinOccurs (nd.attr c!"minOccurs") = .ok mn)
      (hmx : parseMaxOccurs (nd.attr c!"maxOccurs") = .ok mx) (hr : nd.attr c!"ref" = none)
      (hn : nd.attr c!"name" = some na) (hd : parseAnnotation x (nd.child c!"annotation") = .ok docs)
      (ht : nd.attr c!"type" = some a) (hc : TypeAttrRun (nd.sees childSeen) a parent s c nd' s')
      (hp : nd'.preventUnvisitedAttributes = .ok ()) :
      ChildRun k nd parent s ⟨s.nodeName na.value false, ⟨c, [], docs⟩, false, false, mn, mx⟩ s'
  | any (mn mx na docs) (hmn : parseMinOccurs (nd.attr c!"minOccurs") = .ok mn)
      (hmx : parseMaxOccurs (nd.attr c!"maxOccurs") = .ok mx) (hr : nd.attr c!"ref" = none)
      (hn : nd.attr c!"name" = some na) (hd : parseAnnotation x (nd.child c!"annotation") = .ok docs)
      (ht : nd.attr c!"type" = none) (hs : nd.child c!"simpleType" = none) (hc : nd.child c!"complexType" = none)
      (hp : (nd.sees childSeen).preventUnvisitedAttributes = .ok ()) :
      ChildRun k nd parent s ⟨s.nodeName na.value false, ⟨.literal .any, [], docs⟩, false, false, mn, mx⟩ s
  | inline (mn mx na docs v root s1) (hmn : parseMinOccurs (nd.attr c!"minOccurs") = .ok mn)
      (hmx : parseMaxOccurs (nd.attr c!"maxOccurs") = .ok mx) (hr : nd.attr c!"ref" = none)
      (hn : nd.attr c!"name" = some na) (hd : parseAnnotation x (nd.child c!"annotation") = .ok docs)
      (ht : nd.attr c!"type" = none) (hsc : ¬ (nd.child c!"simpleType" = none ∧ nd.child c!"complexType" = none))
      (hp : (nd.sees childSeen).preventUnvisitedAttributes = .ok ())
      (hv : virtualName x [parent.name, na.value, c!"Data"] false = .ok v)
      (hroot : parseRoot x k (nd.sees childSeen) (s.nodeName v false) s = .ok (root, s1)) :
      ChildRun k nd parent s ⟨s.nodeName na.value false, ⟨.named (s.nodeName v false), [], docs⟩, false, false, mn, mx⟩
        ((s1.addRoot (s.nodeName v false) root).discoverType (s.nodeName v false) parent)

theorem parseElementChild_run {k : Nat} {nd : Nd} {parent : Name} {s s' : PCtx} {l : Leaf}
    (h : parseElementChild x (k + 1) nd parent s = .ok (l, s')) : ChildRun x k nd parent s l s' := by
  unfold parseElementChild at h
  plift h with mn h1
  plift h with mx h2
  simp only [attr_see] at h
  cases hr : nd.attr c!"ref" with
  | some a =>
    rw [hr] at h
    plift h with u h3
    pbind h with c s1 h4
    cases c with
    | named n =>
      pbind h with u s2 h5
      rw [discoverType_ok] at h5
      subst h5
      pret h
      exact .ref mn mx a n s1 h1 h2 hr h3 h4
    | literal _ => exact (P.fail_ok.1 h).elim
    | fixed _ => exact (P.fail_ok.1 h).elim
  | none =>
    rw [hr] at h
    plift h with na h3
    rw [tryAttr_ok] at h3
    pbind h with c s1 h4
    rw [nodeName_ok] at h4
    obtain ⟨rfl, rfl⟩ := h4
    plift h with docs h5
    cases ht : nd.attr c!"type" with
    | some a =>
      rw [ht] at h
      pbind h with p s2 h6
      obtain ⟨c, nd'⟩ := p
      plift h with u h7
      pret h
      exact .typed mn mx na docs a c nd' _ h1 h2 hr h3 h5 ht (parseTypeAttr_run h6) h7
    | none =>
      rw [ht] at h
      dsimp only at h
      rw [P.ite_ok] at h
      rcases h with ⟨hi, h⟩ | ⟨hi, h⟩
      · rw [Option.isNone_iff_eq_none, Option.isNone_iff_eq_none] at hi
        plift h with u h6
        pret h
        exact .any mn mx na docs h1 h2 hr h3 h5 ht hi.1 hi.2 h6
      · rw [Option.isNone_iff_eq_none, Option.isNone_iff_eq_none] at hi
        plift h with u h6
        pbind h with data s2 h7
        rw [nodeName_ok] at h7
        obtain ⟨rfl, rfl⟩ := h7
        pbind h with vname s3 h8
        rw [deriveVirtualName_ok] at h8
        obtain ⟨v, hv, rfl, rfl⟩ := h8
        pbind h with root s4 h9
        pbind h with u s5 h10
        rw [addRoot_ok] at h10
        subst h10
        pbind h with u s6 h11
        rw [discoverType_ok] at h11
        subst h11
        pret h
        exact .inline mn mx na docs v root s4 h1 h2 hr h3 h5 ht hi h6 hv h9

/-- Successful runs of `parseRoot` with more than no fuel. -/
inductive RootRun (k : Nat) (nd : Nd) (parent : Name) (s : PCtx) : Root → PCtx → Prop where
  | element (r s') (hn : nd.name = c!"element") (h : parseElementRoot x k nd parent s = .ok (r, s')) :
      RootRun k nd parent s r s'
  | complexType (r s') (hn : nd.name = c!"complexType") (h : parseComplexType x k nd parent s = .ok (r, s')) :
      RootRun k nd parent s r s'
  | simpleType (r s') (hn : nd.name = c!"simpleType") (h : SimpleTypeRun x nd s r s') : RootRun k nd parent s r s'

theorem parseRoot_run {k : Nat} {nd : Nd} {parent : Name} {s s' : PCtx} {r : Root}
    (h : parseRoot x (k + 1) nd parent s = .ok (r, s')) : RootRun x k nd parent s r s' := by
  unfold parseRoot at h
  rw [P.ite_ok] at h
  rcases h with ⟨hn, h⟩ | ⟨_, h⟩
  · exact .element r s' hn h
  · rw [P.ite_ok] at h
    rcases h with ⟨hn, h⟩ | ⟨_, h⟩
    · exact .complexType r s' hn h
    · rw [P.ite_ok] at h
      rcases h with ⟨hn, h⟩ | ⟨_, h⟩
      · exact .simpleType r s' hn (parseSimpleType_run x h)
      · exact (P.fail_ok.1 h).elim

/-- Successful runs of `parseElementRoot` with more than no fuel. -/
inductive ElementRootRun (k : Nat) (nd : Nd) (parent : Name) (s : PCtx) : Root → PCtx → Prop where
  | typed (docs a c nd' s') (hd : parseAnnotation x (removeKid c!"annotation" nd.xsdKids).1 = .ok docs)
      (ht : nd.attr c!"type" = some a) (hc : TypeAttrRun (nd.see c!"type") a parent s c nd' s')
      (hp : nd'.preventUnvisitedAttributes = .ok ()) (hk : (removeKid c!"annotation" nd.xsdKids).2 = []) :
      ElementRootRun k nd parent s (.leaf ⟨c, [], docs⟩) s'
  | complexType (docs child root s') (hd : parseAnnotation x (removeKid c!"annotation" nd.xsdKids).1 = .ok docs)
      (ht : nd.attr c!"type" = none) (hp : (nd.see c!"type").preventUnvisitedAttributes = .ok ())
      (hk : removeKid c!"complexType" (removeKid c!"annotation" nd.xsdKids).2 = (some child, []))
      (h : parseComplexType x k child parent s = .ok (root, s')) : ElementRootRun k nd parent s (root.withDocs docs) s'
  | simpleType (docs child root s') (hd : parseAnnotation x (removeKid c!"annotation" nd.xsdKids).1 = .ok docs)
      (ht : nd.attr c!"type" = none) (hp : (nd.see c!"type").preventUnvisitedAttributes = .ok ())
      (hn : (removeKid c!"complexType" (removeKid c!"annotation" nd.xsdKids).2).1 = none)
      (hk : removeKid c!"simpleType" (removeKid c!"annotation" nd.xsdKids).2 = (some child, []))
      (h : SimpleTypeRun x child s root s') : ElementRootRun k nd parent s (root.withDocs docs) s'

theorem parseElementRoot_run {k : Nat} {nd : Nd} {parent : Name} {s s' : PCtx} {r : Root}
    (h : parseElementRoot x (k + 1) nd parent s = .ok (r, s')) : ElementRootRun x k nd parent s r s' := by
  unfold parseElementRoot at h
  plift h with docs h1
  cases ht : nd.attr c!"type" with
  | some a =>
    rw [ht] at h
    pbind h with p s1 h2
    obtain ⟨c, nd'⟩ := p
    plift h with u h3
    plift h with u h4
    rw [preventUnvisitedChildren_ok] at h4
    pret h
    exact .typed docs a c nd' _ h1 ht (parseTypeAttr_run h2) h3 h4
  | none =>
    rw [ht] at h
    plift h with u h2
    obtain ⟨o, rest, hk⟩ : ∃ o r, removeKid c!"complexType" (removeKid c!"annotation" nd.xsdKids).2 = (o, r) := ⟨_, _, rfl⟩
    rw [hk] at h
    cases o with
    | some child =>
      pbind h with root s1 h3
      plift h with u h4
      rw [preventUnvisitedChildren_ok] at h4
      subst h4
      pret h
      exact .complexType docs child root _ h1 ht h2 hk h3
    | none =>
      obtain ⟨o, rest1, hk1⟩ : ∃ o r, removeKid c!"simpleType" (removeKid c!"annotation" nd.xsdKids).2 = (o, r) := ⟨_, _, rfl⟩
      rw [hk1] at h
      cases o with
      | some child =>
        pbind h with root s1 h3
        plift h with u h4
        rw [preventUnvisitedChildren_ok] at h4
        subst h4
        pret h
        exact .simpleType docs child root _ h1 ht h2 (by rw [hk]) hk1 (parseSimpleType_run x h3)
      | none => exact (P.fail_ok.1 h).elim

/-- Successful runs of `parseComplexType` with more than no fuel. -/
inductive ComplexTypeRun (k : Nat) (nd : Nd) (parent : Name) (s : PCtx) : Root → PCtx → Prop where
  | simpleContent (docs child d s') (hm : (nd.attr c!"mixed").map XAttr.value ≠ some c!"true")
      (hp : (nd.see c!"mixed").preventUnvisitedAttributes = .ok ())
      (hd : parseAnnotation x (removeKid c!"annotation" nd.xsdKids).1 = .ok docs)
      (hk : removeKid c!"simpleContent" (removeKid c!"annotation" nd.xsdKids).2 = (some child, []))
      (h : SimpleContentRun x child parent s d s') : ComplexTypeRun k nd parent s (.element (d.withDocs docs)) s'
  | complexContent (docs child d s') (hm : (nd.attr c!"mixed").map XAttr.value ≠ some c!"true")
      (hp : (nd.see c!"mixed").preventUnvisitedAttributes = .ok ())
      (hd : parseAnnotation x (removeKid c!"annotation" nd.xsdKids).1 = .ok docs)
      (hn : (removeKid c!"simpleContent" (removeKid c!"annotation" nd.xsdKids).2).1 = none)
      (hk : removeKid c!"complexContent" (removeKid c!"annotation" nd.xsdKids).2 = (some child, []))
      (h : parseComplexContent x k child parent s = .ok (d, s')) :
      ComplexTypeRun k nd parent s (.element (d.withDocs docs)) s'
  | particle (docs content rest s1 attributes s') (hm : (nd.attr c!"mixed").map XAttr.value ≠ some c!"true")
      (hp : (nd.see c!"mixed").preventUnvisitedAttributes = .ok ())
      (hd : parseAnnotation x (removeKid c!"annotation" nd.xsdKids).1 = .ok docs)
      (hn : (removeKid c!"simpleContent" (removeKid c!"annotation" nd.xsdKids).2).1 = none)
      (hn2 : (removeKid c!"complexContent" (removeKid c!"annotation" nd.xsdKids).2).1 = none)
      (h : parseParticle x k (removeKid c!"annotation" nd.xsdKids).2 parent s = .ok ((content, rest), s1))
      (ha : AttributesRun x parent (removeKids c!"attribute" rest).1 s1 attributes s')
      (hk : (removeKids c!"attribute" rest).2 = []) :
      ComplexTypeRun k nd parent s (.element ⟨attributes, content, false, docs⟩) s'

theorem parseComplexType_run {k : Nat} {nd : Nd} {parent : Name} {s s' : PCtx} {r : Root}
    (h : parseComplexType x (k + 1) nd parent s = .ok (r, s')) : ComplexTypeRun x k nd parent s r s' := by
  unfold parseComplexType at h
  rw [P.ite_ok] at h
  rcases h with ⟨_, h⟩ | ⟨hm, h⟩
  · exact (P.fail_ok.1 h).elim
  · plift h with u h1
    plift h with docs h2
    obtain ⟨o, rest, hk⟩ : ∃ o r, removeKid c!"simpleContent" (removeKid c!"annotation" nd.xsdKids).2 = (o, r) := ⟨_, _, rfl⟩
    rw [hk] at h
    cases o with
    | some child =>
      plift h with u h3
      rw [preventUnvisitedChildren_ok] at h3
      subst h3
      pbind h with d s1 h4
      pret h
      exact .simpleContent docs child d _ hm h1 h2 hk (parseSimpleContent_run x h4)
    | none =>
      have hk0 := hk
      obtain ⟨o, rest1, hk⟩ : ∃ o r, removeKid c!"complexContent" (removeKid c!"annotation" nd.xsdKids).2 = (o, r) := ⟨_, _, rfl⟩
      rw [hk] at h
      cases o with
      | some child =>
        plift h with u h3
        rw [preventUnvisitedChildren_ok] at h3
        subst h3
        pbind h with d s1 h4
        pret h
        exact .complexContent docs child d _ hm h1 h2 (by rw [hk0]) hk h4
      | none =>
        pbind h with p s1 h3
        obtain ⟨content, rest⟩ := p
        pbind h with as s2 h4
        plift h with u h5
        rw [preventUnvisitedChildren_ok] at h5
        pret h
        exact .particle docs content rest s1 as _ hm h1 h2 (by rw [hk0]) (by rw [hk]) h3 (parseAttributes_run x h4) h5

/-- The attributes of a sequence or choice that are looked at outside. -/
def occursSeen : List Str := [c!"maxOccurs", c!"minOccurs"]

/-- The sequence or all of a complex type, and the other children. -/
def sequenceOrAll (kids : List Nd) : Option Nd × List Nd :=
  match removeKid c!"sequence" kids with
  | (some c, rest) => (some c, rest)
  | (none, _) => removeKid c!"all" kids

/-- Children of `all` are marked as unordered. -/
def markUnordered (child : Nd) (leaves : List Leaf) : List Leaf :=
  if child.name = c!"all" then leaves.map (fun l => { l with isUnordered := true }) else leaves

/-- Successful runs of `parseParticle` with more than no fuel. -/
inductive ParticleRun (k : Nat) (kids : List Nd) (parent : Name) (s : PCtx) :
    Option ElementContent → List Nd → PCtx → Prop where
  | group (child rest mn mx leaves s1 leaf s') (hk : sequenceOrAll kids = (some child, rest))
      (hmn : parseMinOccurs (child.attr c!"minOccurs") = .ok mn) (hmx : parseMaxOccurs (child.attr c!"maxOccurs") = .ok mx)
      (h : parseSequence x k (child.sees occursSeen) parent s = .ok (leaves, s1)) (hg : mx.isVec = true ∨ mn ≠ 1)
      (hl : addGroup x parent (markUnordered child leaves) [] (groupRoot (markUnordered child leaves)) none mn mx s1 = .ok (leaf, s')) :
      ParticleRun k kids parent s (some (.leaves [leaf])) rest s'
  | sequence (child rest mn mx leaves s') (hk : sequenceOrAll kids = (some child, rest))
      (hmn : parseMinOccurs (child.attr c!"minOccurs") = .ok mn) (hmx : parseMaxOccurs (child.attr c!"maxOccurs") = .ok mx)
      (h : parseSequence x k (child.sees occursSeen) parent s = .ok (leaves, s')) (hg : ¬ (mx.isVec = true ∨ mn ≠ 1)) :
      ParticleRun k kids parent s (some (.leaves (markUnordered child leaves))) rest s'
  | choice (child rest variants s1 v) (hn : (sequenceOrAll kids).1 = none) (hk : removeKid c!"choice" kids = (some child, rest))
      (h : parseChoice x k child parent s = .ok (variants, s1)) (hv : virtualName x [parent.name, c!"Data"] false = .ok v) :
      ParticleRun k kids parent s (some (.leaf (s1.nodeName v false) ⟨.named (s1.nodeName v false), [], none⟩)) rest
        ((s1.addRoot (s1.nodeName v false) (.choice variants false none)).discoverType (s1.nodeName v false) parent)
  | none (hn : (sequenceOrAll kids).1 = none) (hk : (removeKid c!"choice" kids).1 = none) :
      ParticleRun k kids parent s none kids s

theorem parseParticle_run {k : Nat} {kids rest : List Nd} {parent : Name} {s s' : PCtx} {c : Option ElementContent}
    (h : parseParticle x (k + 1) kids parent s = .ok ((c, rest), s')) : ParticleRun x k kids parent s c rest s' := by
  unfold parseParticle at h
  change (match sequenceOrAll kids with | (some child, rest) => _ | (Option.none, _) => _ : P _) s = _ at h
  cases hk : sequenceOrAll kids with
  | mk o rest0 =>
    rw [hk] at h
    cases o with
    | some child =>
      dsimp only at h
      plift h with mn h1
      plift h with mx h2
      pbind h with leaves s1 h3
      simp only [decide_eq_true_eq] at h
      rw [P.ite_ok] at h
      rcases h with ⟨hg, h⟩ | ⟨hg, h⟩
      · pbind h with leaf s2 h4
        rw [P.pure_ok] at h
        obtain ⟨he, rfl⟩ := h
        cases he
        exact .group child _ mn mx leaves s1 leaf _ hk h1 h2 h3 hg h4
      · rw [P.pure_ok] at h
        obtain ⟨he, rfl⟩ := h
        cases he
        exact .sequence child _ mn mx leaves _ hk h1 h2 h3 hg
    | none =>
      dsimp only at h
      obtain ⟨o, rest1, hk1⟩ : ∃ o r, removeKid c!"choice" kids = (o, r) := ⟨_, _, rfl⟩
      rw [hk1] at h
      cases o with
      | some child =>
        pbind h with variants s1 h3
        pbind h with data s2 h4
        rw [nodeName_ok] at h4
        obtain ⟨rfl, rfl⟩ := h4
        pbind h with rn s3 h5
        rw [deriveVirtualName_ok] at h5
        obtain ⟨v, hv, rfl, rfl⟩ := h5
        pbind h with u s4 h6
        rw [addRoot_ok] at h6
        subst h6
        pbind h with u s5 h7
        rw [discoverType_ok] at h7
        subst h7
        rw [P.pure_ok] at h
        obtain ⟨he, rfl⟩ := h
        cases he
        exact .choice child _ variants _ v (by rw [hk]) hk1 h3 hv
      | none =>
        rw [P.pure_ok] at h
        obtain ⟨he, rfl⟩ := h
        cases he
        exact .none (by rw [hk]) (by rw [hk1])

/-- Successful runs of `parseComplexContent` with more than no fuel. -/
inductive ComplexContentRun (k : Nat) (nd : Nd) (parent : Name) (s : PCtx) : ElementDef → PCtx → Prop where
  | mk (extension base n s1 vl s2 attributes s') (hp : nd.preventUnvisitedAttributes = .ok ())
      (hr : removeKid c!"extension" nd.xsdKids = (some extension, []))
      (hb : extension.attr c!"base" = some base) (ht : getTypeName base s = .ok (.named n, s1))
      (h : parseExtension x k (removeKid c!"sequence" extension.xsdKids).1 n parent (s1.discoverType n parent) = .ok (vl, s2))
      (ha : AttributesRun x parent (removeKids c!"attribute" (removeKid c!"sequence" extension.xsdKids).2).1 s2 attributes s')
      (hk : (removeKids c!"attribute" (removeKid c!"sequence" extension.xsdKids).2).2 = []) :
      ComplexContentRun k nd parent s ⟨attributes, some (if vl = [] then .leaf n ⟨.named n, [], none⟩ else
        .leaves (⟨s'.nodeName c!"base" false, ⟨.named n, [], none⟩, false, true, 1, .number 1⟩ :: vl)), false, none⟩ s'

theorem removeKid_rest (n : Str) (ks : List Nd) :
    (if (removeKid n ks).1.isSome = true then (removeKid n ks).2 else ks) = (removeKid n ks).2 := by
  split
  · rfl
  · next h =>
    cases hk : removeKid n ks with
    | mk o r =>
      rw [hk] at h
      cases o with
      | none => exact (removeKid_none hk).1.symm
      | some _ => exact absurd rfl h

theorem parseComplexContent_run {k : Nat} {nd : Nd} {parent : Name} {s s' : PCtx} {d : ElementDef}
    (h : parseComplexContent x (k + 1) nd parent s = .ok (d, s')) : ComplexContentRun x k nd parent s d s' := by
  unfold parseComplexContent at h
  plift h with u h1
  plift h with p h2
  obtain ⟨extension, rest⟩ := p
  rw [tryRemoveKid_ok] at h2
  plift h with u h3
  rw [preventUnvisitedChildren_ok] at h3
  subst h3
  plift h with base h4
  rw [tryAttr_ok] at h4
  pbind h with c s1 h5
  cases c with
  | fixed f => exact (P.fail_ok.1 h).elim
  | literal f => exact (P.fail_ok.1 h).elim
  | named n =>
    pbind h with u s2 h6
    rw [discoverType_ok] at h6
    subst h6
    pbind h with vl s3 h7
    pbind h with as s4 h8
    plift h with u h9
    rw [preventUnvisitedChildren_ok] at h9
    rw [removeKid_rest] at h8 h9
    have run := fun s'' (hs : s4 = s'') => ComplexContentRun.mk (x := x) (k := k) (nd := nd) (parent := parent) (s := s)
      extension base n s1 vl s3 as s'' h1 h2 h4 h5 h7 (hs ▸ parseAttributes_run x h8) h9
    rw [P.ite_ok] at h
    rcases h with ⟨hv, h⟩ | ⟨hv, h⟩
    · rw [P.pure_ok] at h
      obtain ⟨rfl, rfl⟩ := h
      have := run _ rfl
      rw [if_pos hv] at this
      exact this
    · pbind h with b s5 h10
      rw [nodeName_ok] at h10
      obtain ⟨rfl, rfl⟩ := h10
      rw [P.pure_ok] at h
      obtain ⟨rfl, rfl⟩ := h
      have := run _ rfl
      rw [if_neg hv] at this
      exact this

/-- Successful runs of `parseExtension` with more than no fuel. -/
inductive ExtensionRun (k : Nat) (base parent : Name) (s : PCtx) : Option Nd → List Leaf → PCtx → Prop where
  | none : ExtensionRun k base parent s none [] s
  | some (child mn leaves s1 v) (hmn : parseMinOccurs (child.attr c!"minOccurs") = .ok mn)
      (h : parseSequence x k (child.see c!"minOccurs") parent s = .ok (leaves, s1))
      (hv : virtualName x [parent.name, base.name] false = .ok v) :
      ExtensionRun k base parent s (some child)
        [⟨s1.nodeName base.name false, ⟨.named (s1.nodeName v false), [], Option.none⟩, false, true, mn, .number 1⟩]
        ((s1.addRoot (s1.nodeName v false) (groupRoot leaves)).discoverType (s1.nodeName v false) parent)

theorem parseExtension_run {k : Nat} {child : Option Nd} {base parent : Name} {s s' : PCtx} {ls : List Leaf}
    (h : parseExtension x (k + 1) child base parent s = .ok (ls, s')) : ExtensionRun x k base parent s child ls s' := by
  cases child with
  | none =>
    unfold parseExtension at h
    pret h
    exact .none
  | some child =>
    unfold parseExtension at h
    plift h with mn h1
    pbind h with leaves s1 h2
    pbind h with ln s2 h3
    rw [nodeName_ok] at h3
    obtain ⟨rfl, rfl⟩ := h3
    pbind h with rn s3 h4
    rw [deriveVirtualName_ok] at h4
    obtain ⟨v, hv, rfl, rfl⟩ := h4
    pbind h with u s4 h6
    rw [addRoot_ok] at h6
    subst h6
    pbind h with u s5 h7
    rw [discoverType_ok] at h7
    subst h7
    pret h
    exact .some child mn leaves _ v h1 h2 hv

/-- Successful runs for one child of a sequence. -/
inductive SeqItemRun (k : Nat) (child : Nd) (parent : Name) (s : PCtx) : Option Leaf → PCtx → Prop where
  | element (l s') (hn : child.name = c!"element") (h : parseElementChild x k child parent s = .ok (l, s')) :
      SeqItemRun k child parent s (some l) s'
  | choice (mn mx variants s1 l s') (hn : child.name = c!"choice")
      (hmn : parseMinOccurs (child.attr c!"minOccurs") = .ok mn) (hmx : parseMaxOccurs (child.attr c!"maxOccurs") = .ok mx)
      (h : parseChoice x k (child.sees occursSeen) parent s = .ok (variants, s1))
      (hl : addGroup x parent variants [] (.choice variants true none) none mn mx s1 = .ok (l, s')) :
      SeqItemRun k child parent s (some l) s'
  | sequence (docs mn leaves s1 l s') (hn : child.name = c!"sequence")
      (hd : parseAnnotation x (child.child c!"annotation") = .ok docs)
      (hmn : parseMinOccurs (child.attr c!"minOccurs") = .ok mn)
      (h : parseSequence x k (child.see c!"minOccurs") parent s = .ok (leaves, s1))
      (hl : addGroup x parent leaves [] (groupRoot leaves) docs mn (.number 1) s1 = .ok (l, s')) :
      SeqItemRun k child parent s (some l) s'
  | annotation (hn : child.name = c!"annotation") : SeqItemRun k child parent s none s

/-- Successful runs for one child of a choice. -/
inductive ChoiceItemRun (k : Nat) (child : Nd) (parent : Name) (s : PCtx) : Option Leaf → PCtx → Prop where
  | element (l s') (hn : child.name = c!"element") (h : parseElementChild x k child parent s = .ok (l, s')) :
      ChoiceItemRun k child parent s (some l) s'
  | sequence (docs mn mx leaves s1 l s') (hn : child.name = c!"sequence")
      (hd : parseAnnotation x (child.child c!"annotation") = .ok docs)
      (hmn : parseMinOccurs (child.attr c!"minOccurs") = .ok mn) (hmx : parseMaxOccurs (child.attr c!"maxOccurs") = .ok mx)
      (h : parseSequence x k (child.sees occursSeen) parent s = .ok (leaves, s1))
      (hl : addGroup x parent leaves [s1.nodeName c!"Variant" false] (groupRoot leaves) docs mn mx s1 = .ok (l, s')) :
      ChoiceItemRun k child parent s (some l) s'
  | annotation (hn : child.name = c!"annotation") : ChoiceItemRun k child parent s none s

/-- A run over a list of children. -/
inductive LeavesRun (R : Nd → PCtx → Option Leaf → PCtx → Prop) : List Nd → PCtx → List Leaf → PCtx → Prop where
  | nil (s) : LeavesRun R [] s [] s
  | skip (c cs s s1 ls s') (h : R c s none s1) (hs : LeavesRun R cs s1 ls s') : LeavesRun R (c :: cs) s ls s'
  | cons (c cs s s1 l ls s') (h : R c s (some l) s1) (hs : LeavesRun R cs s1 ls s') : LeavesRun R (c :: cs) s (l :: ls) s'

theorem parseLeaves_run {f : Nd → P (Option Leaf)} {R : Nd → PCtx → Option Leaf → PCtx → Prop}
    (hf : ∀ c s l s', f c s = .ok (l, s') → R c s l s') {cs : List Nd} {s s' : PCtx} {ls : List Leaf}
    (h : parseLeaves f cs s = .ok (ls, s')) : LeavesRun R cs s ls s' := by
  induction cs generalizing s ls with
  | nil => unfold parseLeaves at h; pret h; exact .nil _
  | cons c cs ih =>
    obtain ⟨l, ls', s1, h1, h2, rfl⟩ := parseLeaves_ok.1 h
    cases l with
    | none => exact .skip c cs s s1 ls' s' (hf _ _ _ _ h1) (ih h2)
    | some l => exact .cons c cs s s1 l ls' s' (hf _ _ _ _ h1) (ih h2)

theorem parseSequence_run {k : Nat} {nd : Nd} {parent : Name} {s s' : PCtx} {ls : List Leaf}
    (h : parseSequence x (k + 1) nd parent s = .ok (ls, s')) : nd.preventUnvisitedAttributes = .ok () ∧
    LeavesRun (fun c s l s' => SeqItemRun x k c parent s l s') nd.xsdKids s ls s' := by
  unfold parseSequence at h
  plift h with u h1
  refine ⟨h1, parseLeaves_run ?_ h⟩
  clear h
  intro c s l s' h
  rw [P.ite_ok] at h
  rcases h with ⟨hn, h⟩ | ⟨_, h⟩
  · pbind h with l s1 h2
    pret h
    exact .element l _ hn h2
  · rw [P.ite_ok] at h
    rcases h with ⟨hn, h⟩ | ⟨_, h⟩
    · plift h with mn h2
      plift h with mx h3
      pbind h with vs s1 h4
      pbind h with l s2 h5
      pret h
      exact .choice mn mx vs s1 l _ hn h2 h3 h4 h5
    · rw [P.ite_ok] at h
      rcases h with ⟨hn, h⟩ | ⟨_, h⟩
      · plift h with docs h2
        plift h with mn h3
        pbind h with vs s1 h4
        pbind h with l s2 h5
        pret h
        exact .sequence docs mn vs s1 l _ hn h2 h3 h4 h5
      · rw [P.ite_ok] at h
        rcases h with ⟨hn, h⟩ | ⟨_, h⟩
        · pret h
          exact .annotation hn
        · exact (P.fail_ok.1 h).elim

theorem parseChoice_run {k : Nat} {nd : Nd} {parent : Name} {s s' : PCtx} {ls : List Leaf}
    (h : parseChoice x (k + 1) nd parent s = .ok (ls, s')) : nd.preventUnvisitedAttributes = .ok () ∧
    LeavesRun (fun c s l s' => ChoiceItemRun x k c parent s l s') nd.xsdKids s ls s' := by
  unfold parseChoice at h
  plift h with u h1
  refine ⟨h1, parseLeaves_run ?_ h⟩
  clear h
  intro c s l s' h
  rw [P.ite_ok] at h
  rcases h with ⟨hn, h⟩ | ⟨_, h⟩
  · pbind h with l s1 h2
    pret h
    exact .element l _ hn h2
  · rw [P.ite_ok] at h
    rcases h with ⟨hn, h⟩ | ⟨_, h⟩
    · plift h with docs h2
      plift h with mn h3
      plift h with mx h3'
      pbind h with vs s1 h4
      pbind h with v s2 h6
      rw [nodeName_ok] at h6
      obtain ⟨rfl, rfl⟩ := h6
      pbind h with l s2 h5
      pret h
      exact .sequence docs mn mx vs _ l _ hn h2 h3 h3' h4 h5
    · rw [P.ite_ok] at h
      rcases h with ⟨hn, h⟩ | ⟨_, h⟩
      · pret h
        exact .annotation hn
      · exact (P.fail_ok.1 h).elim

end

end Xsd
