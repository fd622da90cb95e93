import Verif.Lemmas.TreeNodes
/-!
# Parsing a node adds the types of the nodes below it: all nodes
-/
namespace Xsd.Tree
open Xsd.Flat (Typ RefersTo TypeAttr LocalNs SimpleType Lexical attributeNodes Names TypIs DocOK nodeName_names removeKids_attribute)

theorem TreeOK.node {F : Files} {path : Str} {d : XDoc} {nd : Nd} (h : TreeOK F path d nd) : NodeOK F path d nd := by
  cases h; assumption

theorem TreeOK.kid {F : Files} {path : Str} {d : XDoc} {nd c : Nd} (h : TreeOK F path d nd) (hc : c ∈ nd.xsdKids) :
    TreeOK F path d c := by
  cases h with
  | mk _ hk => exact hk c hc

theorem kid_seen {nd c : Nd} (h : c ∈ nd.xsdKids) : c.seen = [] := by
  obtain ⟨e, _, rfl, _⟩ := mem_xsdKids h
  rfl

theorem addGroup_later {x : Ext} {parent : Name} {members : List Leaf} {suffix : List Name} {root : Root} {docs : Option Str} {mn : Nat}
    {mx : MaxOccurs} {s s' : PCtx} {l : Leaf} (h : addGroup x parent members suffix root docs mn mx s = .ok (l, s')) : Later s s' := by
  obtain ⟨ln, rn, _, _, rfl, rfl⟩ := addGroup_ok h
  exact ⟨rfl, fun h => ⟨.refl _, h⟩⟩

/-- An occurrence attribute that was not looked at is not there. -/
theorem lacks_value {F : Files} {path : Str} {d : XDoc} {nd nd' : Nd} {n : Str} (h : nd'.preventUnvisitedAttributes = .ok ())
    (hi : nd'.info = nd.info) (hn : n ∉ nd'.seen) (hk : NodeOK F path d nd)
    (ho : n = c!"minOccurs" ∨ n = c!"maxOccurs" ∨ n = c!"ref") : nd.value n = none := by
  have hl := prevent_lacks h hi hn
  unfold Nd.value
  cases ha : nd.attr n with
  | none => rfl
  | some a =>
    have hm := List.mem_of_find?_eq_some ha
    have hloc : a.loc = n := by simpa using List.find?_some (p := fun a : XAttr => decide (a.loc = n)) ha
    exact absurd (hk.occurs a (List.mem_reverse.1 hm) (by rw [hloc]; exact ho)) (hl a ha)

theorem once_true {c : Nd} {mn : Nat} {mx : MaxOccurs} (h1 : parseMinOccurs (c.attr c!"minOccurs") = .ok mn)
    (h2 : parseMaxOccurs (c.attr c!"maxOccurs") = .ok mx) : occursOnce c = true ↔ ¬ (mx.isVec = true ∨ mn ≠ 1) := by
  unfold occursOnce
  rw [h1, h2]
  by_cases h : mn = 1
  · subst h
    simp
  · have : mn = 1 ↔ False := iff_of_false h id
    split
    · next h' _ => cases h'; exact absurd rfl h
    · simp [h]

section
variable (x : Ext) (F : Files) (path : Str) (t : Namespaces) (G : Name → Option Root) (d : XDoc)

/-- The statement of the induction. -/
structure TreeAll (k : Nat) : Prop where
  root : ∀ {nd parent s r s' f}, k + 3 ≤ f → On d t s → TreeOK F path d nd →
    (nd.value c!"ref" = none ∨ c!"ref" ∉ nd.seen) → parseRoot x k nd parent s = .ok (r, s') → s'.nss.Extends t →
    Adds G s s' (typesBelow f nd) (RootFor F path t G d nd r)
  elementRoot : ∀ {nd parent s r s' f}, k + 3 ≤ f → nd.name = c!"element" → On d t s → TreeOK F path d nd →
    (nd.value c!"ref" = none ∨ c!"ref" ∉ nd.seen) → parseElementRoot x k nd parent s = .ok (r, s') → s'.nss.Extends t →
    Adds G s s' (typesBelow f nd) (RootFor F path t G d nd r)
  complexType : ∀ {nd parent s r s' f}, k + 3 ≤ f → nd.name = c!"complexType" → On d t s → TreeOK F path d nd →
    parseComplexType x k nd parent s = .ok (r, s') → s'.nss.Extends t →
    Adds G s s' (typesBelow f nd) (RootFor F path t G d nd r)
  particle : ∀ {nd parent s c rest s' f}, k + 3 ≤ f → nd.name = c!"complexType" → On d t s → TreeOK F path d nd →
    (∀ c ∈ nd.xsdKids, c.name ≠ c!"simpleContent" ∧ c.name ≠ c!"complexContent") →
    parseParticle x k (removeKid c!"annotation" nd.xsdKids).2 parent s = .ok ((c, rest), s') → s'.nss.Extends t →
    (∀ c ∈ rest, c.name = c!"attribute") →
    ∃ n, (nd.xsdKids.map (fun c => ownType nd c + typesBelow f c)).sum = n + (rest.map (fun c => ownType nd c + typesBelow f c)).sum ∧
      (∀ c ∈ rest, c ∈ nd.xsdKids) ∧ rest = attributeNodes nd ∧ Adds G s s' n (ContentFor F path t G d nd c (attributeNodes nd))
  complexContent : ∀ {nd parent s e s' f}, k + 3 ≤ f → nd.name = c!"complexContent" → On d t s → TreeOK F path d nd →
    parseComplexContent x k nd parent s = .ok (e, s') → s'.nss.Extends t →
    Adds G s s' (typesBelow f nd) (∀ p : Nd, p.name = c!"complexType" → nd ∈ p.xsdKids →
      (∀ c' ∈ p.xsdKids, c'.name ∈ contentNames → c' = nd) → RootFor F path t G d p (.element e))
  extension : ∀ {o base parent s ls s' f}, k + 2 ≤ f → On d t s →
    (∀ g, o = some g → g.name = c!"sequence" ∧ TreeOK F path d g ∧ g.seen = []) →
    parseExtension x k o base parent s = .ok (ls, s') → s'.nss.Extends t →
    Adds G s s' (match o with | some g => 1 + typesBelow f g | none => 0)
      ((o = none → ls = []) ∧ ∀ g, o = some g → ∃ l, ls = [l] ∧ LeafFor F path t G d g l)
  sequence : ∀ {nd parent s ls s' f}, k + 3 ≤ f → nd.name = c!"sequence" ∨ nd.name = c!"all" → On d t s → TreeOK F path d nd →
    parseSequence x k nd parent s = .ok (ls, s') → s'.nss.Extends t →
    nd.preventUnvisitedAttributes = .ok () ∧ Adds G s s' (typesBelow f nd) (LeavesFor F path t G d nd.particles ls)
  choice : ∀ {nd parent s ls s' f}, k + 3 ≤ f → nd.name = c!"choice" → On d t s → TreeOK F path d nd →
    parseChoice x k nd parent s = .ok (ls, s') → s'.nss.Extends t →
    nd.preventUnvisitedAttributes = .ok () ∧ Adds G s s' (typesBelow f nd) (LeavesFor F path t G d nd.particles ls)
  child : ∀ {nd parent s l s' f}, k + 3 ≤ f → nd.name = c!"element" → On d t s → TreeOK F path d nd →
    parseElementChild x k nd parent s = .ok (l, s') → s'.nss.Extends t → ∀ p,
    Adds G s s' (ownType p nd + typesBelow f nd) (LeafFor F path t G d nd l)

variable {x F path t G d}

/-- A list of particles. -/
theorem leaves_for {Q : Nd → PCtx → Option Leaf → PCtx → Prop} {g : Nd → Nat} {cs : List Nd} {ls : List Leaf} {s s' : PCtx}
    (hl : ∀ c ∈ cs, ∀ s o s', Q c s o s' → Later s s')
    (hn : ∀ c ∈ cs, ∀ s s', Q c s none s' → c.name = c!"annotation" ∧ s' = s)
    (hq : ∀ c ∈ cs, ∀ s l s', On d t s → s'.nss.Extends t → Q c s (some l) s' →
      c.name ≠ c!"annotation" ∧ Adds G s s' (g c) (LeafFor F path t G d c l))
    (ho : On d t s) (h : LeavesRun Q cs s ls s') (hx : s'.nss.Extends t) :
    Later s s' ∧ Adds G s s' (cs.map g).sum (LeavesFor F path t G d (cs.filter (fun c => c.name ≠ c!"annotation")) ls) := by
  induction h with
  | nil => exact ⟨.refl, .nil rfl .nil⟩
  | skip c cs s s1 ls s' h hs ih =>
    obtain ⟨h1, rfl⟩ := hn c (.head _) _ _ h
    obtain ⟨h2, h3⟩ := ih (fun c hc => hl c (.tail _ hc)) (fun c hc => hn c (.tail _ hc)) (fun c hc => hq c (.tail _ hc)) ho hx
    refine ⟨h2, ?_⟩
    rw [List.filter_cons_of_neg (by simpa using h1), List.map_cons, List.sum_cons]
    exact h3.le (by omega) fun _ h => h
  | cons c cs s s1 l ls s' h hs ih =>
    have hl1 := hl c (.head _) _ _ _ h
    have hl2 : Later s1 s' := by
      clear ih hn hq hx ho h hl1
      induction hs with
      | nil => exact .refl
      | skip c' cs s s1 ls s' h hs ih => exact (hl c' (.tail _ (.head _)) _ _ _ h).trans (ih fun c hc => hl c (by
          rcases List.mem_cons.1 hc with rfl | hc
          · exact .head _
          · exact .tail _ (.tail _ hc)))
      | cons c' cs s s1 l ls s' h hs ih => exact (hl c' (.tail _ (.head _)) _ _ _ h).trans (ih fun c hc => hl c (by
          rcases List.mem_cons.1 hc with rfl | hc
          · exact .head _
          · exact .tail _ (.tail _ hc)))
    obtain ⟨h1, h1'⟩ := hq c (.head _) _ _ _ ho ((ho.later hl1).ext hl2 hx) h
    obtain ⟨h2, h3⟩ := ih (fun c hc => hl c (.tail _ hc)) (fun c hc => hn c (.tail _ hc)) (fun c hc => hq c (.tail _ hc)) (ho.later hl1) hx
    refine ⟨hl1.trans h2, ?_⟩
    rw [List.filter_cons_of_pos (by simpa using h1), List.map_cons, List.sum_cons]
    exact (h1'.trans h3).imp fun ⟨a, b⟩ => .cons a b

theorem particles_sees (nd : Nd) (ns : List Str) : (nd.sees ns).particles = nd.particles := rfl

theorem tree_sees {nd : Nd} (ns : List Str) (h : TreeOK F path d nd) : TreeOK F path d (nd.sees ns) := by
  cases h with
  | mk h hk => exact .mk ⟨h.all, h.last, h.form, h.occurs, h.type, h.ref, h.base, h.choice⟩ hk

variable (x F path t G) in
theorem treeAll (hd : DocOK d) (k : Nat) : TreeAll x F path t G d k := by
  induction k with
  | zero =>
    constructor
    case extension => intro o base parent s ls s' f _ _ _ h; unfold parseExtension at h; cases h
    case particle => intro nd parent s c rest s' f _ _ _ _ _ h; cases h
    case child => intro nd parent s l s' f _ _ _ _ h; cases h
    case root => intro nd parent s l s' f _ _ _ _ h; cases h
    case elementRoot => intro nd parent s l s' f _ _ _ _ _ h; cases h
    all_goals (intro nd parent s l s' f _ _ _ _ h; cases h)
  | succ k ih =>
    -- one child of a group
    have hown : ∀ {p c : Nd}, c.name = c!"choice" → ownType p c = 1 := by
      intro p c h
      unfold ownType
      rw [if_pos h]
    have hownS : ∀ {p c : Nd}, c.name = c!"sequence" → p.name ≠ c!"complexType" → ownType p c = 1 := by
      intro p c h hp
      unfold ownType
      rw [h, if_neg (by decide), if_pos (by decide), if_neg (fun h => hp h.1)]
    constructor
    case root =>
      intro nd parent s r s' f hf ho hk hr h hx
      replace h := parseRoot_run x h
      cases h with
      | element hn h => exact ih.elementRoot (by omega) hn ho hk hr h hx
      | complexType hn h => exact ih.complexType (by omega) hn ho hk h hx
      | simpleType hn h =>
        refine .nil (simpleType_roots h).1 ?_
        rcases simpleType_for hd ho h with ⟨l, rs, docs, rfl, h1, h2⟩ | ⟨vs, rfl, h1, h2⟩
        · exact .text hn h1 h2
        · exact .enumeration hn h1 h2
    case elementRoot =>
      intro nd parent s r s' f hf hel ho hk hr h hx
      replace h := parseElementRoot_run x h
      have hval : ∀ {n}, nd.attr n = none → nd.value n = none := by intro n h; unfold Nd.value; rw [h]; rfl
      cases h with
      | typed docs a c nd' s' hdo ht hc hp hk' =>
        obtain ⟨ty, h1, h2, h3, _⟩ := typeAttr_for hd ho hk.node (nd := nd) (fun n => by rfl) ht hc hx
        exact .nil (typeAttr_roots hc).1 (.typed hel h1 h2 h3)
      | complexType docs child root s' hdo ht hp hk' h =>
        have hch := rk_name (by rw [hk'] :
          (removeKid c!"complexType" (removeKid c!"annotation" nd.xsdKids).2).1 = some child)
        have hcn := name_of_info hch.1
        have hcm := rk_rest hch.2
        have hon : ∀ c ∈ nd.xsdKids, c.name = c!"complexType" ∨ c.name = c!"simpleType" → c = child := by
          intro c hc hn
          exact (rk_only hk' (rk_keep hc (by rcases hn with hn | hn <;> rw [hn] <;> decide))).1
        have hrv : nd.value c!"ref" = none := by
          rcases hr with hr | hr
          · exact hr
          · refine lacks_value hp rfl (fun hm => ?_) hk.node (.inr (.inr rfl))
            rcases List.mem_cons.1 hm with h | h
            · exact absurd h (by decide)
            · exact hr h
        obtain ⟨f, rfl⟩ : ∃ g, f = g + 1 := ⟨f - 1, by omega⟩
        rw [below_element hrv (hval ht) hel, ← sum_annotation (g := fun c => ownType nd c + typesBelow f c)
          (fun c h => by rw [ownType_annotation h, below_annotation h]), sum_some hk']
        refine (ih.complexType (f := f) (by omega) hcn ho (hk.kid hcm) h hx).le (by omega) fun _ h => ?_
        exact RootFor.withDocs (.inline hel (hval ht) hcm (.inl hcn) hon h) docs
      | simpleType docs child root s' hdo ht hp hn hk' h =>
        have hch := rk_name (by rw [hk'] :
          (removeKid c!"simpleType" (removeKid c!"annotation" nd.xsdKids).2).1 = some child)
        have hcn := name_of_info hch.1
        have hcm := rk_rest hch.2
        have hon : ∀ c ∈ nd.xsdKids, c.name = c!"complexType" ∨ c.name = c!"simpleType" → c = child := by
          intro c hc hn
          exact (rk_only hk' (rk_keep hc (by rcases hn with hn | hn <;> rw [hn] <;> decide))).1
        refine .nil (simpleType_roots h).1 (RootFor.withDocs (.inline hel (hval ht) hcm (.inr hcn) hon ?_) docs)
        rcases simpleType_for hd ho h with ⟨l, rs, docs, rfl, h1, h2⟩ | ⟨vs, rfl, h1, h2⟩
        · exact .text hcn h1 h2
        · exact .enumeration hcn h1 h2
    case complexType =>
      intro nd parent s r s' f hf hnn ho hk h hx
      replace h := parseComplexType_run x h
      obtain ⟨f, rfl⟩ : ∃ g, f = g + 1 := ⟨f - 1, by omega⟩
      rw [below_holds (by rw [hnn]; decide)]
      have only : ∀ {n child} (_ : removeKid n (removeKid c!"annotation" nd.xsdKids).2 = (some child, [])),
          child ∈ nd.xsdKids ∧ child.name = n ∧ (∀ c' ∈ nd.xsdKids, c'.name ∈ contentNames → c' = child) ∧
          (nd.xsdKids.map (fun c => ownType nd c + typesBelow f c)).sum = ownType nd child + typesBelow f child := by
        intro n child hk
        obtain ⟨h1, h2, h3⟩ := only_kid hk
        refine ⟨h1, h2, fun c' hc' hn' => ?_, ?_⟩
        · rcases h3 c' hc' with h | h
          · exact h
          · rw [h] at hn'; exact absurd hn' (by decide)
        · rw [← sum_annotation (g := fun c => ownType nd c + typesBelow f c)
            (fun c h => by rw [ownType_annotation h, below_annotation h]), sum_some hk]
          rfl
      cases h with
      | simpleContent docs child e s' hm hp hdo hk' h =>
        obtain ⟨hcm, hcn, hu, hsum⟩ := only hk'
        rw [hsum]
        -- both kinds of base types
        have key : ∀ {ext base content s1 s2 as ln rs dd} (_ : removeKid c!"extension" child.xsdKids = (some ext, []))
            (_ : ext.attr c!"base" = some base) (_ : getTypeName base s = .ok (content, s1)) (_ : Later s1 s2) (_ : s2.roots = s1.roots)
            (_ : AttributesRun x parent (removeKids c!"attribute" ext.xsdKids).1 s2 as s')
            (_ : (removeKids c!"attribute" ext.xsdKids).2 = []),
            Adds G s s' (ownType nd child + typesBelow f child)
              (RootFor F path t G d nd (.element (ElementDef.withDocs ⟨as, some (.leaf ln ⟨content, rs, dd⟩), false, none⟩ docs))) := by
          intro ext base content s1 s2 as ln rs dd hr hb ht hl12 hroots ha hk''
          obtain ⟨hq, hq'⟩ := removeKids_rest hk''
          have hex := rk_name (by rw [hr] : (removeKid c!"extension" child.xsdKids).1 = some ext)
          have hxn := name_of_info hex.1
          have hl1 := (getTypeName_later ht).trans hl12
          have hl2 := (attributes_log ha).toLater
          have hkx := (hk.kid hcm).kid hex.2
          obtain ⟨ty, h1, h2, h3⟩ := base_for hd ho hkx.node hb ht
            ((ho.later (getTypeName_later ht)).ext (hl12.trans hl2) hx)
          have hattr : ext.xsdKids = attributeNodes ext := by
            unfold attributeNodes
            rw [List.filter_eq_self.2]
            intro c hc
            simpa using name_of_info (hq' c hc)
          rw [hq] at ha
          obtain ⟨f, rfl⟩ : ∃ g, f = g + 2 := ⟨f - 2, by omega⟩
          have hA := attributes_for (G := G) hd (ho.later hl1) (fun c hc => name_of_info (hq' c hc))
            (fun c hc => (hkx.kid hc).node) ha hx ext f
          rw [below_holds (f := f + 1) (nd := child) (by rw [hcn]; decide), sum_some hr, below_holds (f := f) (by rw [hxn]; decide)]
          refine ((hA.from (hroots.trans (getTypeName_roots ht))).le (by omega) fun _ hA => ?_)
          rw [hattr] at hA
          exact RootFor.elementDocs (.complex hnn (.simpleContent hcm hcn hu hex.2 hxn (fun r' hr' => (rk_only hr hr').1) h1 h2 h3) hA) docs
        cases h with
        | named ext base n s1 attributes s' hp hr hb ht ha hk'' =>
          exact key hr hb ht (Later.refl.discover (n := n) (p := parent)) rfl ha hk''
        | literal ext base l s1 attributes s' hp hr hb ht ha hk'' => exact key hr hb ht Later.refl rfl ha hk''
      | complexContent docs child e s' hm hp hdo hn hk' h =>
        obtain ⟨hcm, hcn, hu, hsum⟩ := only hk'
        rw [hsum]
        refine (ih.complexContent (f := f) (by omega) hcn ho (hk.kid hcm) h hx).le (by omega) fun _ h => ?_
        exact RootFor.elementDocs (h nd hnn hcm hu) docs
      | particle docs content rest s1 attributes s' hm hp hdo hn hn2 h ha hk' =>
        obtain ⟨hq, hq'⟩ := removeKids_rest hk'
        have hl := (attributes_log ha).toLater
        obtain ⟨o, _, _, _, hl0⟩ := (logAll x k).particle h
        have hno : ∀ c ∈ nd.xsdKids, c.name ≠ c!"simpleContent" ∧ c.name ≠ c!"complexContent" := fun c hc =>
          ⟨fun e => (rk_none hn).2 c (rk_keep hc (by rw [e]; decide)) (kid_info hc e),
           fun e => (rk_none hn2).2 c (rk_keep hc (by rw [e]; decide)) (kid_info hc e)⟩
        obtain ⟨n, h1, h2, h3, h4⟩ := ih.particle (f := f) (by omega) hnn ho hk hno h ((ho.later hl0.toLater).ext hl hx)
          (fun c hc => name_of_info (hq' c hc))
        rw [h1]
        rw [hq] at ha
        have hA := attributes_for (G := G) hd (ho.later hl0.toLater) (fun c hc => name_of_info (hq' c hc))
            (fun c hc => (hk.kid (h2 c hc)).node) ha hx nd f
        refine (h4.trans hA).imp fun ⟨h5, h6⟩ => ?_
        rw [h3] at h6
        exact .complex hnn h5 h6
    case particle =>
      intro nd parent s c rest s' f hf hnn ho hk hno h hx hrest
      have hrun := parseParticle_run x h
      clear h
      have h0 : (removeKid c!"annotation" nd.xsdKids).2.filter (fun c => c.name = c!"attribute") = attributeNodes nd :=
        filter_removeKid (by intro k hk; simp [hk]) _
      have hsum : (nd.xsdKids.map (fun c => ownType nd c + typesBelow f c)).sum =
          ((removeKid c!"annotation" nd.xsdKids).2.map (fun c => ownType nd c + typesBelow f c)).sum :=
        (sum_annotation (g := fun c => ownType nd c + typesBelow f c)
            (fun c h => by rw [ownType_annotation h, below_annotation h]) _).symm
      -- one child is removed
      have key : ∀ {n child rest} (_ : n ∈ contentNames) (_ : removeKid n (removeKid c!"annotation" nd.xsdKids).2 = (some child, rest))
          (_ : ∀ c ∈ rest, c.name = c!"attribute"),
          child ∈ nd.xsdKids ∧ child.name = n ∧ (∀ c' ∈ nd.xsdKids, c'.name ∈ contentNames → c' = child) ∧
          (∀ c ∈ rest, c ∈ nd.xsdKids) ∧ rest = attributeNodes nd ∧
          (nd.xsdKids.map (fun c => ownType nd c + typesBelow f c)).sum =
            (ownType nd child + typesBelow f child) + (rest.map (fun c => ownType nd c + typesBelow f c)).sum := by
        intro n child rest hn hk' hrest
        have h1 := rk_name (by rw [hk'] : (removeKid n (removeKid c!"annotation" nd.xsdKids).2).1 = some child)
        have hcn := name_of_info h1.1
        refine ⟨rk_rest h1.2, hcn, fun c' hc' hn' => ?_, fun c hc => rk_rest (rk_rest (n := n) (by rw [hk']; exact hc)), ?_, ?_⟩
        · rcases rk_mem n (rk_keep (n := c!"annotation") hc' (by rintro e; rw [e] at hn'; exact absurd hn' (by decide))) with h | h
          · rw [hk'] at h; exact (Option.some.inj h).symm
          · rw [hk'] at h
            have := hrest c' h
            rw [this] at hn'
            exact absurd hn' (by decide)
        · rw [← h0, ← filter_removeKid (n := n) (by
            intro k hk
            have : n ≠ c!"attribute" := by rintro rfl; exact absurd hn (by decide)
            simpa [hk] using this) _, hk', List.filter_eq_self.2 (by simpa using hrest)]
        · rw [hsum, sum_some hk']
      -- the sequence
      have hseq : ∀ {child r}, sequenceOrAll (removeKid c!"annotation" nd.xsdKids).2 = (some child, r) →
          ∃ n, (n = c!"sequence" ∨ n = c!"all") ∧ removeKid n (removeKid c!"annotation" nd.xsdKids).2 = (some child, r) := by
        intro child r hk'
        unfold sequenceOrAll at hk'
        split at hk'
        · next h' => exact ⟨_, .inl rfl, by rw [h', hk']⟩
        · exact ⟨_, .inr rfl, hk'⟩
      have hcon : ∀ {n : Str}, n = c!"sequence" ∨ n = c!"all" → n ∈ contentNames := by rintro n (rfl | rfl) <;> decide
      have hmark : ∀ {child : Nd} {ls}, child.name = c!"sequence" → markUnordered child ls = ls := by
        intro child ls h
        unfold markUnordered
        rw [if_neg (by rw [h]; decide)]
      cases hrun with
      | group child rest mn mx leaves s1 leaf s' hk' hmn hmx h hg hl =>
        obtain ⟨n, hn, hk'⟩ := hseq hk'
        obtain ⟨h1, h2, h3, h4, h5, h6⟩ := key (hcon hn) hk' hrest
        subst h2
        refine ⟨_, h6, h4, h5, ?_⟩
        have hs := (ih.sequence (nd := child.sees occursSeen) (f := f) (by omega) hn ho (tree_sees _ (hk.kid h1)) h
          ((ho.later ((logAll x k).sequence h).toLater).ext (addGroup_later hl) hx)).2
        rw [particles_sees, below_see] at hs
        replace hn : child.name = c!"sequence" := by
          rcases hn with hn | hn
          · exact hn
          · obtain ⟨⟨hm, mx', hmx', h01⟩, _⟩ := (hk.kid h1).node.all hn
            cases Flat.minOf_unique hmn hm
            cases Flat.maxOf_unique hmx hmx'
            rcases hg with hg | hg
            · rcases h01 with rfl | rfl <;> exact absurd hg (by decide)
            · exact absurd rfl hg
        rw [hmark hn] at hl
        obtain ⟨ln, rn, _, _, rfl, rfl⟩ := addGroup_ok hl
        have hone : ownType nd child = 1 := by
          unfold ownType
          rw [hn, if_neg (by decide), if_pos (by decide), if_neg]
          rintro ⟨_, h⟩
          exact (once_true hmn hmx).1 h hg
        refine ((hs.add (n := rn) (p := parent)).cast (by omega)).imp fun ⟨hs, hg⟩ => ?_
        refine .group h1 hn h3 (.sequence hn ⟨?_, ?_, rfl⟩ rfl rfl hg hs)
        · exact parseMinOccurs_minOf hmn
        · exact parseMaxOccurs_maxOf hmx
      | sequence child rest mn mx leaves s' hk' hmn hmx h hg =>
        obtain ⟨n, hn, hk'⟩ := hseq hk'
        obtain ⟨h1, h2, h3, h4, h5, h6⟩ := key (hcon hn) hk' hrest
        subst h2
        refine ⟨_, h6, h4, h5, ?_⟩
        have hs := (ih.sequence (nd := child.sees occursSeen) (f := f) (by omega) hn ho (tree_sees _ (hk.kid h1)) h hx).2
        rw [particles_sees, below_see] at hs
        refine hs.le (by omega) fun _ hs => ?_
        have hmn1 : mn = 1 := Classical.byContradiction fun h => hg (.inr h)
        subst hmn1
        have h01 : mx = .number 0 ∨ mx = .number 1 := by
          have : mx.isVec = false := by simpa using fun h => hg (.inl h)
          cases mx with
          | unbounded => cases this
          | number m =>
            have : m ≤ 1 := by simpa [MaxOccurs.isVec] using this
            rcases Nat.le_one_iff_eq_zero_or_eq_one.1 this with rfl | rfl
            · exact .inl rfl
            · exact .inr rfl
        rcases hn with hn | hn
        · rw [hmark hn]
          exact .once h1 hn h3 (parseMinOccurs_minOf hmn) (parseMaxOccurs_maxOf hmx) h01 hs
        · rw [show markUnordered child leaves = leaves.map Leaf.unordered by unfold markUnordered; exact if_pos hn]
          exact .all h1 hn h3 (parseMinOccurs_minOf hmn) (parseMaxOccurs_maxOf hmx) h01 ((hk.kid h1).node.all hn).2.1 ((hk.kid h1).node.all hn).2.2 hs
      | choice child rest variants s1 v hn hk' h hv =>
        obtain ⟨h1, h2, h3, h4, h5, h6⟩ := key (by decide) hk' hrest
        refine ⟨_, h6, h4, h5, ?_⟩
        obtain ⟨hp, hs⟩ := ih.choice (f := f) (by omega) h2 ho (hk.kid h1) h hx
        have hseen : ∀ n : Str, n ∉ child.seen := by rw [kid_seen h1]; exact fun _ => nofun
        have hmin := lacks_value hp rfl (hseen c!"minOccurs") (hk.kid h1).node (.inl rfl)
        have hmax := lacks_value hp rfl (hseen c!"maxOccurs") (hk.kid h1).node (.inr (.inl rfl))
        refine ((hs.add (p := parent)).cast (by rw [hown h2]; omega)).imp fun ⟨hs, hg⟩ => ?_
        exact .choice h1 h2 h3 (.inl ⟨hmin, rfl⟩) (.inl ⟨hmax, rfl⟩) hg hs
      | none hn hk' =>
        refine ⟨0, by rw [hsum]; omega, fun c hc => rk_rest hc, ?_, .nil rfl (.empty fun c hc hcn => ?_)⟩
        · rw [← h0, List.filter_eq_self.2 (by simpa using hrest)]
        · have := hrest c (rk_keep hc (by rintro e; rw [e] at hcn; exact absurd hcn (by decide)))
          rw [this] at hcn
          exact absurd hcn (by decide)
    case complexContent =>
      intro nd parent s e s' f hf hnn ho hk h hx
      replace h := parseComplexContent_run x h
      cases h with
      | mk ext base n s1 vl s2 attributes s' hp hr hb ht h ha hk' =>
        have hex := rk_name (by rw [hr] : (removeKid c!"extension" nd.xsdKids).1 = some ext)
        have hxn := name_of_info hex.1
        have hkx := hk.kid hex.2
        obtain ⟨hq, hq'⟩ := removeKids_rest hk'
        have hsn := fun g => rk_name (n := c!"sequence") (ks := ext.xsdKids) (c := g)
        have hl1 := (getTypeName_later ht).discover (n := n) (p := parent)
        have hle := ((logAll x k).extension h fun g hg => name_of_info (hsn g hg).1).toLater
        have hla := (attributes_log ha).toLater
        obtain ⟨ty, h1, h2, h3⟩ := base_for hd ho hkx.node hb ht ((ho.later hl1).ext (hle.trans hla) hx)
        obtain ⟨f, rfl⟩ : ∃ g, f = g + 2 := ⟨f - 2, by omega⟩
        have hE := ih.extension (f := f) (by omega) (ho.later hl1)
          (fun g hg => ⟨name_of_info (hsn g hg).1, hkx.kid (hsn g hg).2, kid_seen (hsn g hg).2⟩) h
          ((ho.later (hl1.trans hle)).ext hla hx)
        have hattr : (removeKid c!"sequence" ext.xsdKids).2 = attributeNodes ext := by
          unfold attributeNodes
          rw [← filter_removeKid (n := c!"sequence") (by intro k hk; simp [hk]) ext.xsdKids, List.filter_eq_self.2]
          intro c hc
          simpa using name_of_info (hq' c hc)
        rw [hq] at ha
        have hA := attributes_for (G := G) hd (ho.later (hl1.trans hle)) (fun c hc => name_of_info (hq' c hc))
            (fun c hc => (hkx.kid (rk_rest hc)).node) ha hx ext f
        rw [below_holds (f := f + 1) (by rw [hnn]; decide), sum_some hr, below_holds (f := f) (by rw [hxn]; decide),
          sum_removeKid (fun c => ownType ext c + typesBelow f c) c!"sequence"]
        have hgu : ∀ g, (removeKid c!"sequence" ext.xsdKids).1 = some g → ∀ g' ∈ ext.xsdKids, g'.name ∈ contentNames → g' = g := by
          intro g hg g' hg' hn'
          rcases rk_mem c!"sequence" hg' with h | h
          · rw [hg] at h; exact (Option.some.inj h).symm
          · have := name_of_info (hq' g' h)
            rw [this] at hn'
            exact absurd hn' (by decide)
        have hgn : (removeKid c!"sequence" ext.xsdKids).1 = none → ∀ g ∈ ext.xsdKids, g.name ∉ contentNames := by
          intro hg g hg' hn'
          rcases rk_mem c!"sequence" hg' with h | h
          · rw [hg] at h; cases h
          · have := name_of_info (hq' g h)
            rw [this] at hn'
            exact absurd hn' (by decide)
        generalize (removeKid c!"sequence" ext.xsdKids).1 = o at h hE hsn hgu hgn hle
        have hA := (hE.trans hA).from (getTypeName_roots ht : s1.roots = _)
        refine hA.le ?_ ?_
        · cases o with
          | none => simp only []; omega
          | some g => simp only []; rw [hownS (name_of_info (hsn g rfl).1) (by rw [hxn]; decide)]; omega
        · rintro _ ⟨⟨h4, h5⟩, hA⟩ p hp hm hu
          rw [hattr] at hA
          refine .complex hp ?_ hA
          cases o with
          | none =>
            simp only [h4 rfl, if_true]
            exact .complexContent hm hnn hu hex.2 hxn (fun r' hr' => (rk_only hr hr').1) h1 h2 h3 (hgn rfl)
          | some g =>
            obtain ⟨l, rfl, hl⟩ := h5 g rfl
            rw [if_neg (by simp)]
            refine .extension hm hnn hu hex.2 hxn (fun r' hr' => (rk_only hr hr').1) h1 h2 (hsn g rfl).2 (name_of_info (hsn g rfl).1)
              (hgu g rfl) ⟨rfl, rfl, rfl, rfl⟩ h3 ?_ hl
            intro q hq d' b ht
            subst hq
            cases h1 with
            | own hv hr _ => exact hkx.node.last ⟨g, (hsn g rfl).2, name_of_info (hsn g rfl).1⟩ _ _ hv hr d' b ht
    case extension =>
      intro o base parent s ls s' f hf ho hg h hx
      replace h := parseExtension_run x h
      cases h with
      | none => exact .nil rfl ⟨fun _ => rfl, nofun⟩
      | some child mn leaves s1 v hmn h hv =>
        obtain ⟨h1, h2, h3⟩ := hg child rfl
        obtain ⟨hp, hs⟩ := ih.sequence (nd := child.see c!"minOccurs") (f := f) (by omega) (.inl h1) ho (tree_sees [c!"minOccurs"] h2) h hx
        rw [show typesBelow f (child.see c!"minOccurs") = typesBelow f child from below_see (ns := [c!"minOccurs"])] at hs
        have hmax := lacks_value (nd := child) hp rfl (by
          show c!"maxOccurs" ∉ c!"minOccurs" :: child.seen
          rw [h3]; decide) h2.node (.inr (.inl rfl))
        refine ((hs.add (p := parent)).cast (by simp only []; omega)).imp fun ⟨hs, hg⟩ => ⟨nofun, fun g hg' => ?_⟩
        cases hg'
        exact ⟨_, rfl, .sequence h1 ⟨parseMinOccurs_minOf hmn, .inl ⟨hmax, rfl⟩, rfl⟩ rfl rfl hg hs⟩
    case sequence =>
      intro nd parent s ls s' f hf hnn ho hk h hx
      obtain ⟨hp, h⟩ := parseSequence_run x h
      refine ⟨hp, ?_⟩
      obtain ⟨f, rfl⟩ : ∃ g, f = g + 1 := ⟨f - 1, by omega⟩
      have hnc : nd.name ≠ c!"complexType" := by rcases hnn with h | h <;> rw [h] <;> decide
      rw [below_holds (by rcases hnn with h | h <;> rw [h] <;> decide)]
      refine (leaves_for ?_ ?_ ?_ ho h hx).2
      · intro c hc s o s' h
        cases h with
        | element l s' hn h => exact ((logAll x k).child hn h).toLater
        | choice mn mx variants s1 l s' hn hmn hmx h hl => exact ((logAll x k).choice h).toLater.trans (addGroup_later hl)
        | sequence docs mn leaves s1 l s' hn hd hmn h hl => exact ((logAll x k).sequence h).toLater.trans (addGroup_later hl)
        | annotation hn => exact .refl
      · intro c hc s s' h
        cases h with
        | annotation hn => exact ⟨hn, rfl⟩
      · intro c hc s l s' ho hx h
        have hkc := hk.kid hc
        cases h with
        | element l s' hn h => exact ⟨by rw [hn]; decide, ih.child (f := f) (by omega) hn ho hkc h hx nd⟩
        | choice mn mx variants s1 l s' hn hmn hmx h hl =>
          refine ⟨by rw [hn]; decide, ?_⟩
          have hs := (ih.choice (nd := c.sees occursSeen) (f := f) (by omega) hn ho (tree_sees _ hkc) h
            ((ho.later ((logAll x k).choice h).toLater).ext (addGroup_later hl) hx)).2
          rw [particles_sees, below_see] at hs
          obtain ⟨ln, rn, _, _, rfl, rfl⟩ := addGroup_ok hl
          refine ((hs.add (n := rn) (p := parent)).cast (by rw [hown hn]; omega)).imp fun ⟨hs, hg⟩ => ?_
          exact .choice hn ⟨parseMinOccurs_minOf hmn, parseMaxOccurs_maxOf hmx, rfl⟩ rfl rfl hg hs
        | sequence docs mn leaves s1 l s' hn hdo hmn h hl =>
          refine ⟨by rw [hn]; decide, ?_⟩
          obtain ⟨hp, hs⟩ := ih.sequence (nd := c.see c!"minOccurs") (f := f) (by omega) (.inl hn) ho (tree_sees [c!"minOccurs"] hkc) h
            ((ho.later ((logAll x k).sequence h).toLater).ext (addGroup_later hl) hx)
          rw [show typesBelow f (c.see c!"minOccurs") = typesBelow f c from below_see (ns := [c!"minOccurs"])] at hs
          have hmax := lacks_value (nd := c) hp rfl (by
            show c!"maxOccurs" ∉ c!"minOccurs" :: c.seen
            rw [kid_seen hc]; decide) hkc.node (.inr (.inl rfl))
          obtain ⟨ln, rn, _, _, rfl, rfl⟩ := addGroup_ok hl
          refine ((hs.add (n := rn) (p := parent)).cast (by rw [hownS hn hnc]; omega)).imp fun ⟨hs, hg⟩ => ?_
          exact .sequence hn ⟨parseMinOccurs_minOf hmn, .inl ⟨hmax, rfl⟩, rfl⟩ rfl rfl hg hs
    case choice =>
      intro nd parent s ls s' f hf hnn ho hk h hx
      obtain ⟨hp, h⟩ := parseChoice_run x h
      refine ⟨hp, ?_⟩
      obtain ⟨f, rfl⟩ : ∃ g, f = g + 1 := ⟨f - 1, by omega⟩
      rw [below_holds (by rw [hnn]; decide)]
      refine (leaves_for ?_ ?_ ?_ ho h hx).2
      · intro c hc s o s' h
        cases h with
        | element l s' hn h => exact ((logAll x k).child hn h).toLater
        | sequence docs mn mx leaves s1 l s' hn hd hmn hmx h hl =>
          exact ((logAll x k).sequence h).toLater.trans (addGroup_later hl)
        | annotation hn => exact .refl
      · intro c hc s s' h
        cases h with
        | annotation hn => exact ⟨hn, rfl⟩
      · intro c hc s l s' ho hx h
        have hkc := hk.kid hc
        cases h with
        | element l s' hn h => exact ⟨by rw [hn]; decide, ih.child (f := f) (by omega) hn ho hkc h hx nd⟩
        | sequence docs mn mx leaves s1 l s' hn hdo hmn hmx h hl =>
          refine ⟨by rw [hn]; decide, ?_⟩
          have hs := (ih.sequence (nd := c.sees occursSeen) (f := f) (by omega) (.inl hn) ho (tree_sees _ hkc) h
            ((ho.later ((logAll x k).sequence h).toLater).ext (addGroup_later hl) hx)).2
          rw [particles_sees, below_see] at hs
          obtain ⟨ln, rn, _, _, rfl, rfl⟩ := addGroup_ok hl
          refine ((hs.add (n := rn) (p := parent)).cast (by rw [hownS hn (by rw [hnn]; decide)]; omega)).imp fun ⟨hs, hg⟩ => ?_
          exact .sequence hn ⟨parseMinOccurs_minOf hmn, parseMaxOccurs_maxOf hmx, rfl⟩ rfl rfl hg hs
    case child =>
      intro nd parent s l s' f hf hnn ho hk h hx p
      replace h := parseElementChild_run x h
      have hval : ∀ {n}, nd.attr n = none → nd.value n = none := by intro n h; unfold Nd.value; rw [h]; rfl
      have hns : ∃ ns, LocalNs d ns := by
        by_cases h : Flat.Qualified d
        · exact ⟨_, .qualified h⟩
        · exact ⟨_, .unqualified h⟩
      obtain ⟨ns, hns⟩ := hns
      cases h with
      | ref mn mx a n s1 hmn hmx hr hp ht =>
        obtain ⟨q, h1, h2, h3⟩ := typeName_refers hd ho ht
        obtain ⟨d', c, h4, h5⟩ := hk.node.ref _ q (value_some hr) h1 h2
        refine .nil (getTypeName_roots ht : s1.roots = _) ?_
        exact .ref hnn ⟨parseMinOccurs_minOf hmn, parseMaxOccurs_maxOf hmx, rfl⟩ rfl (value_some hr) h1
          (fun q' h' => h'.unique hd.nodup h1) h2 (h3.mono hx) rfl h4 h5
      | typed mn mx na docs a c nd' s' hmn hmx hr hn hdo ht hc hp =>
        obtain ⟨ty, h1, h2, h3, _⟩ := typeAttr_for hd ho hk.node (nd := nd) (fun n => by rfl) ht hc hx
        refine .nil (typeAttr_roots hc).1 ?_
        exact .typed hnn ⟨parseMinOccurs_minOf hmn, parseMaxOccurs_maxOf hmx, rfl⟩ rfl (hval hr) (value_some hn) hns
          (nodeName_names ho.env ho.target hns) h1 h2 h3
      | any mn mx na docs hmn hmx hr hn hdo ht hs hc hp =>
        refine .nil rfl ?_
        exact .any hnn ⟨parseMinOccurs_minOf hmn, parseMaxOccurs_maxOf hmx, rfl⟩ rfl (hval hr) (value_some hn) hns
          (nodeName_names ho.env ho.target hns) (hval ht) (fun c hc' => ⟨child_none hs c hc', child_none hc c hc'⟩) rfl
      | inline mn mx na docs v root s1 hmn hmx hr hn hdo ht hsc hp hv hroot =>
        have hR := ih.root (f := f) (by omega) ho (tree_sees childSeen hk) (.inl (hval hr)) hroot hx
        rw [below_see] at hR
        have hone : ownType p nd = 1 := by
          unfold ownType
          rw [hnn, if_neg (by decide), if_neg (by decide), if_pos rfl, if_pos]
          refine ⟨hval hr, hval ht, List.any_eq_true.2 ?_⟩
          have : (∃ c ∈ nd.xsdKids, c.name = c!"simpleType") ∨ ∃ c ∈ nd.xsdKids, c.name = c!"complexType" := by
            refine Classical.byContradiction fun hh => hsc ⟨?_, ?_⟩
            · rw [child_find]
              exact List.find?_eq_none.2 fun c hc => by simpa using fun e => hh (.inl ⟨c, hc, e⟩)
            · rw [child_find]
              exact List.find?_eq_none.2 fun c hc => by simpa using fun e => hh (.inr ⟨c, hc, e⟩)
          rcases this with ⟨c, h1, h2⟩ | ⟨c, h1, h2⟩
          · exact ⟨c, h1, by simp [h2]⟩
          · exact ⟨c, h1, by simp [h2]⟩
        refine ((hR.add (n := s.nodeName v false) (p := parent)).cast (by rw [hone]; omega)).imp fun ⟨hR, hg⟩ => ?_
        cases hR with
        | typed hn' ht' => 
          have ht0 : (nd.sees childSeen).value c!"type" = none := hval ht
          cases ht' with
          | builtin hv' => rw [ht0] at hv'; cases hv'
          | fixed hv' => rw [ht0] at hv'; cases hv'
          | own hv' => rw [ht0] at hv'; cases hv'
        | inline hn' ht' hc hcn hu h =>
          exact .inline hnn ⟨parseMinOccurs_minOf hmn, parseMaxOccurs_maxOf hmx, rfl⟩ rfl (hval hr) (value_some hn) hns
            (nodeName_names ho.env ho.target hns) (hval ht) hc hcn hu rfl hg h
        | text hn' => rw [show (nd.sees childSeen).name = nd.name from rfl, hnn] at hn'; exact absurd hn' (by decide)
        | enumeration hn' => rw [show (nd.sees childSeen).name = nd.name from rfl, hnn] at hn'; exact absurd hn' (by decide)
        | complex hn' => rw [show (nd.sees childSeen).name = nd.name from rfl, hnn] at hn'; exact absurd hn' (by decide)

end
end Xsd.Tree
