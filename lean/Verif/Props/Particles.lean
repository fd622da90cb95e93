import Verif.Props.SchemaParts
import Verif.Lemmas.Gen
/-!
# Particles are kept in order (C37)
-/
namespace Xsd

/-- The children of a sequence, `all` or choice that are particles. -/
def Nd.particles (nd : Nd) : List Nd := nd.xsdKids.filter (fun c => c.name ≠ c!"annotation")

/-- Specification: the local name an element declaration has, by `name` or by the local part of `ref`. -/
def DeclaredName (c : Nd) (n : Str) : Prop :=
  (c.attr c!"ref" = none ∧ c.value c!"name" = some n) ∨
  ∃ v, c.value c!"ref" = some v ∧ ((∃ p, Prefixed v p n) ∨ (':' ∉ v ∧ v = n))

/-- Specification: the node has no attribute of that local name, unless one in a namespace. -/
def Lacks (c : Nd) (n : Str) : Prop := ∀ a, c.attr n = some a → a.ns ≠ none

/-- Specification: a particle of the schema and the field or alternative for it. Elements keep their name. A nested group
becomes one virtual field; its type is registered with the root that holds the particles of the group, again in order. All
occur as often as written; a sequence in a sequence has no `maxOccurs`. -/
inductive ParticleOf (x : Ext) (parent : Name) : Nd → Leaf → Prop where
  | element (c l) (hn : c.name = c!"element") (hv : l.isVirtual = false) (hd : DeclaredName c l.name.name)
      (ho : MinOf c l.minOccurs ∧ MaxOf c l.maxOccurs) : ParticleOf x parent c l
  | choice (c l members suffix docs mn mx s s') (hn : c.name = c!"choice") (hv : l.isVirtual = true)
      (hm : Each (ParticleOf x parent) c.particles members)
      (hg : addGroup x parent members suffix (.choice members true none) docs mn mx s = .ok ({ l with isUnordered := false }, s'))
      (ho : MinOf c l.minOccurs ∧ MaxOf c l.maxOccurs) : ParticleOf x parent c l
  | sequence (c l members suffix docs mn mx s s') (hn : c.name = c!"sequence") (hv : l.isVirtual = true)
      (hm : Each (ParticleOf x parent) c.particles members)
      (hg : addGroup x parent members suffix (.element ⟨[], some (.leaves members), true, none⟩) docs mn mx s =
        .ok ({ l with isUnordered := false }, s'))
      (ho : MinOf c l.minOccurs ∧ (MaxOf c l.maxOccurs ∨ (l.maxOccurs = .number 1 ∧ Lacks c c!"maxOccurs"))) :
      ParticleOf x parent c l

theorem attr_mem_lastAttrs {as : List XAttr} {n : Str} {a : XAttr} (h : as.reverse.find? (fun a => a.loc = n) = some a) :
    a ∈ lastAttrs as ∧ a.loc = n := by
  induction as with
  | nil => cases h
  | cons b as ih =>
    rw [List.reverse_cons, List.find?_append] at h
    unfold lastAttrs
    cases hf : as.reverse.find? (fun a => a.loc = n) with
    | some c =>
      rw [hf] at h
      cases h
      obtain ⟨h1, h2⟩ := ih hf
      refine ⟨?_, h2⟩
      split
      · exact h1
      · exact .tail _ h1
    | none =>
      rw [hf] at h
      have hb : b.loc = n ∧ b = a := by
        by_cases e : b.loc = n <;> simp [e] at h
        exact ⟨e, h⟩
      obtain ⟨hb, rfl⟩ := hb
      refine ⟨?_, hb⟩
      rw [if_neg]
      · exact .head _
      · intro hh
        obtain ⟨c, hc, hcn⟩ := List.any_eq_true.1 hh
        have := List.find?_eq_none.1 hf c (List.mem_reverse.2 hc)
        exact this (decide_eq_true ((of_decide_eq_true hcn).trans hb))

theorem prevent_lacks {nd nd' : Nd} (h : nd.preventUnvisitedAttributes = .ok ()) (hi : nd.info = nd'.info) {n : Str}
    (hn : n ∉ nd.seen) : Lacks nd' n := by
  intro a ha hns
  obtain ⟨h1, h2⟩ := attr_mem_lastAttrs ha
  unfold Nd.preventUnvisitedAttributes at h
  split at h
  · cases h
  · next hf =>
    have := List.find?_eq_none.1 hf a (hi ▸ h1)
    exact this (decide_eq_true ⟨hns, h2 ▸ hn⟩)

theorem xsdKids_seen {nd c : Nd} (h : c ∈ nd.xsdKids) : c.seen = [] := by
  obtain ⟨e, _, rfl, _⟩ := mem_xsdKids h
  rfl

theorem addGroup_virtual {x : Ext} {parent : Name} {members : List Leaf} {suffix : List Name} {root : Root}
    {docs : Option Str} {mn : Nat} {mx : MaxOccurs} {s s' : PCtx} {l : Leaf}
    (h : addGroup x parent members suffix root docs mn mx s = .ok (l, s')) : l.isVirtual = true := by
  obtain ⟨_, _, _, _, _, rfl⟩ := addGroup_ok h
  rfl

theorem addGroup_occurs {x : Ext} {parent : Name} {members : List Leaf} {suffix : List Name} {root : Root}
    {docs : Option Str} {mn : Nat} {mx : MaxOccurs} {s s' : PCtx} {l : Leaf}
    (h : addGroup x parent members suffix root docs mn mx s = .ok (l, s')) : l.minOccurs = mn ∧ l.maxOccurs = mx := by
  obtain ⟨_, _, _, _, _, rfl⟩ := addGroup_ok h
  exact ⟨rfl, rfl⟩

theorem addGroup_unordered {x : Ext} {parent : Name} {members : List Leaf} {suffix : List Name} {root : Root}
    {docs : Option Str} {mn : Nat} {mx : MaxOccurs} {s s' : PCtx} {l : Leaf}
    (h : addGroup x parent members suffix root docs mn mx s = .ok (l, s')) : l = { l with isUnordered := false } := by
  obtain ⟨_, _, _, _, _, rfl⟩ := addGroup_ok h
  rfl

theorem getTypeName_local {a : XAttr} {s s' : PCtx} {n : Name} (h : getTypeName a s = .ok (.named n, s')) :
    (∃ p, Prefixed a.value p n.name) ∨ (':' ∉ a.value ∧ a.value = n.name) := by
  unfold getTypeName at h
  have hl : ∀ m, P.lift (literalOr m a) s ≠ .ok (.named n, s') := by
    intro m hh
    rw [P.lift_ok] at hh
    unfold literalOr at hh
    split at hh <;> cases hh.1
  split at h
  · next p m hs =>
    split at h
    · cases h
    · split at h
      · exact (hl _ h).elim
      · cases h
        exact .inl ⟨p, splitn2_prefixed.1 hs⟩
  · next m hs =>
    split at h
    · exact (hl _ h).elim
    · cases h
      have hnc : ':' ∉ a.value := by
        intro hm
        obtain ⟨l, r, e, hl⟩ := firstColon hm
        rw [splitn2_prefixed.2 ⟨e, hl⟩] at hs
        cases hs
      refine .inr ⟨hnc, ?_⟩
      rw [splitn2_unprefixed hnc] at hs
      exact (Prod.mk.inj hs).1

theorem child_particle {x : Ext} {k : Nat} {c : Nd} {parent : Name} {s s' : PCtx} {l : Leaf}
    (h : parseElementChild x k c parent s = .ok (l, s')) : l.isVirtual = false ∧ DeclaredName c l.name.name := by
  cases k with
  | zero => cases h
  | succ k =>
    cases parseElementChild_run x h with
    | ref mn mx a n s1 hmn hmx hr hp ht =>
      refine ⟨rfl, .inr ⟨a.value, ?_, getTypeName_local ht⟩⟩
      unfold Nd.value; rw [hr]; rfl
    | typed mn mx na docs a c nd' s' hmn hmx hr hn =>
      refine ⟨rfl, .inl ⟨hr, ?_⟩⟩
      unfold Nd.value; rw [hn]; rfl
    | any mn mx na docs hmn hmx hr hn =>
      refine ⟨rfl, .inl ⟨hr, ?_⟩⟩
      unfold Nd.value; rw [hn]; rfl
    | inline mn mx na docs v root s1 hmn hmx hr hn =>
      refine ⟨rfl, .inl ⟨hr, ?_⟩⟩
      unfold Nd.value; rw [hn]; rfl

theorem leavesRun_each {R : Nd → PCtx → Option Leaf → PCtx → Prop} {Q : Nd → Leaf → Prop}
    (hn : ∀ c s s', R c s none s' → c.name = c!"annotation")
    {cs : List Nd} {s s' : PCtx} {ls : List Leaf}
    (hq : ∀ c ∈ cs, ∀ s l s', R c s (some l) s' → Q c l ∧ c.name ≠ c!"annotation") (h : LeavesRun R cs s ls s') : Each Q (cs.filter (fun c => c.name ≠ c!"annotation")) ls := by
  induction h with
  | nil => exact .nil
  | skip c cs s s1 ls s' h hs ih =>
    rw [List.filter_cons_of_neg (by simp [hn _ _ _ h])]
    exact ih (fun c hc => hq c (.tail _ hc))
  | cons c cs s s1 l ls s' h hs ih =>
    obtain ⟨h1, h2⟩ := hq _ (.head _) _ _ _ h
    rw [List.filter_cons_of_pos (by simpa using h2)]
    exact .cons h1 (ih (fun c hc => hq c (.tail _ hc)))

theorem particles_in_order (x : Ext) (parent : Name) (k : Nat) :
    (∀ nd s s' ls, parseSequence x k nd parent s = .ok (ls, s') → Each (ParticleOf x parent) nd.particles ls) ∧
    (∀ nd s s' ls, parseChoice x k nd parent s = .ok (ls, s') → Each (ParticleOf x parent) nd.particles ls) := by
  induction k with
  | zero => exact ⟨fun _ _ _ _ h => (by cases h), fun _ _ _ _ h => (by cases h)⟩
  | succ k ih =>
    constructor
    · intro nd s s' ls h
      refine leavesRun_each ?_ ?_ (parseSequence_run x h).2
      · intro c s s' h
        cases h with
        | annotation hn => exact hn
      · intro c hc s l s' h
        cases h with
        | element l s' hn h =>
          obtain ⟨h1, h2⟩ := child_particle h
          obtain ⟨h3, h4⟩ := C34_leaf x _ _ _ _ _ _ h
          exact ⟨.element c l hn h1 h2 ⟨h3, h4⟩, by rw [hn]; decide⟩
        | choice mn mx variants s1 l s' hn hmn hmx h hl =>
          obtain ⟨h3, h4⟩ := addGroup_occurs hl
          exact ⟨.choice c l variants [] none mn mx s1 s' hn (addGroup_virtual hl) (ih.2 (c.sees occursSeen) s s1 variants h)
            (addGroup_unordered hl ▸ hl) ⟨h3 ▸ parseMinOccurs_minOf hmn, h4 ▸ parseMaxOccurs_maxOf hmx⟩,
            by rw [hn]; decide⟩
        | sequence docs mn leaves s1 l s' hn hd hmn h hl =>
          obtain ⟨h3, h4⟩ := addGroup_occurs hl
          have hlk : Lacks c c!"maxOccurs" := by
            cases k with
            | zero => cases h
            | succ k =>
              refine prevent_lacks (parseSequence_run x h).1 rfl ?_
              show _ ∉ c!"minOccurs" :: c.seen
              rw [xsdKids_seen hc]
              decide
          exact ⟨.sequence c l leaves [] docs mn _ s1 s' hn (addGroup_virtual hl) (ih.1 (c.see c!"minOccurs") s s1 leaves h)
            (addGroup_unordered hl ▸ hl) ⟨h3 ▸ parseMinOccurs_minOf hmn, .inr ⟨h4, hlk⟩⟩,
            by rw [hn]; decide⟩
    · intro nd s s' ls h
      refine leavesRun_each ?_ ?_ (parseChoice_run x h).2
      · intro c s s' h
        cases h with
        | annotation hn => exact hn
      · intro c hc s l s' h
        cases h with
        | element l s' hn h =>
          obtain ⟨h1, h2⟩ := child_particle h
          obtain ⟨h3, h4⟩ := C34_leaf x _ _ _ _ _ _ h
          exact ⟨.element c l hn h1 h2 ⟨h3, h4⟩, by rw [hn]; decide⟩
        | sequence docs mn mx leaves s1 l s' hn hd hmn hmx h hl =>
          obtain ⟨h3, h4⟩ := addGroup_occurs hl
          exact ⟨.sequence c l leaves _ docs mn mx s1 s' hn (addGroup_virtual hl) (ih.1 (c.sees occursSeen) s s1 leaves h)
            (addGroup_unordered hl ▸ hl) ⟨h3 ▸ parseMinOccurs_minOf hmn, .inl (h4 ▸ parseMaxOccurs_maxOf hmx)⟩,
            by rw [hn]; decide⟩

/-- C37: the fields for a sequence (or `all`) correspond one to one, in order, to its particles, at every nesting depth. -/
theorem C37_sequence (x : Ext) (k : Nat) (nd : Nd) (parent : Name) (s s' : PCtx) (ls : List Leaf)
    (h : parseSequence x k nd parent s = .ok (ls, s')) : Each (ParticleOf x parent) nd.particles ls :=
  (particles_in_order x parent k).1 nd s s' ls h

/-- C37: the alternatives for a choice correspond one to one, in order, to its particles, at every nesting depth. -/
theorem C37_choice (x : Ext) (k : Nat) (nd : Nd) (parent : Name) (s s' : PCtx) (ls : List Leaf)
    (h : parseChoice x k nd parent s = .ok (ls, s')) : Each (ParticleOf x parent) nd.particles ls :=
  (particles_in_order x parent k).2 nd s s' ls h

theorem ParticleOf.unordered {x : Ext} {parent : Name} {c : Nd} {l : Leaf} (h : ParticleOf x parent c l) :
    ParticleOf x parent c { l with isUnordered := true } := by
  cases h with
  | element c l hn hv hd ho => exact .element _ _ hn hv hd ho
  | choice c l members suffix docs mn mx s s' hn hv hm hg ho => exact .choice _ _ members suffix docs mn mx s s' hn hv hm hg ho
  | sequence c l members suffix docs mn mx s s' hn hv hm hg ho => exact .sequence _ _ members suffix docs mn mx s s' hn hv hm hg ho

theorem Each.mapRight {α β γ : Type} {R : α → β → Prop} {R' : α → γ → Prop} {f : β → γ} (hr : ∀ a b, R a b → R' a (f b))
    {as : List α} {bs : List β} (h : Each R as bs) : Each R' as (bs.map f) := by
  induction h with
  | nil => exact .nil
  | cons h hs ih => exact .cons (hr _ _ h) ih

theorem markUnordered_each {x : Ext} {parent : Name} {child : Nd} {cs : List Nd} {ls : List Leaf}
    (h : Each (ParticleOf x parent) cs ls) : Each (ParticleOf x parent) cs (markUnordered child ls) := by
  unfold markUnordered
  split
  · exact h.mapRight (fun _ _ h => h.unordered)
  · exact h

/-- Specification: at most once. -/
def AtMostOnce (m : MaxOccurs) : Prop := m = .number 0 ∨ m = .number 1

theorem not_isVec {m : MaxOccurs} : m.isVec = true ↔ ¬ AtMostOnce m := by
  unfold AtMostOnce MaxOccurs.isVec
  cases m with
  | unbounded => simp
  | number n => simp only [MaxOccurs.number.injEq, decide_eq_true_eq]; omega

/-- C37: the content of a complex type with a particle is: the fields for the particles of its sequence or `all`, if that has
to occur once and can not repeat; or, if it can repeat or has to occur any other number of times, one virtual field that
occurs so often and whose type holds them; or one field whose type holds the alternatives for the particles of its choice,
which has no occurrences written on it. -/
theorem C37_complexType (x : Ext) (k : Nat) (kids rest : List Nd) (parent : Name) (s s' : PCtx) (c : ElementContent)
    (h : parseParticle x k kids parent s = .ok ((some c, rest), s')) :
    ∃ child ∈ kids, ∃ ls, Each (ParticleOf x parent) child.particles ls ∧
      ((child.name ∈ [c!"sequence", c!"all"] ∧ c = .leaves ls ∧ MinOf child 1 ∧ ∃ m, MaxOf child m ∧ AtMostOnce m) ∨
       (child.name ∈ [c!"sequence", c!"all"] ∧ ∃ l n, c = .leaves [l] ∧ l.isVirtual = true ∧ l.definition.content = .named n ∧
          alookup s'.roots n = some (.element ⟨[], some (.leaves ls), true, none⟩) ∧
          MinOf child l.minOccurs ∧ MaxOf child l.maxOccurs ∧ (l.minOccurs ≠ 1 ∨ ¬ AtMostOnce l.maxOccurs)) ∨
       (child.name = c!"choice" ∧ (∃ n d, c = .leaf n d ∧ d.content = .named n ∧
          alookup s'.roots n = some (.choice ls false none)) ∧
          (child.seen = [] → Lacks child c!"minOccurs" ∧ Lacks child c!"maxOccurs"))) := by
  cases k with
  | zero => cases h
  | succ k =>
    have hsa : ∀ {child r}, sequenceOrAll kids = (some child, r) → child ∈ kids ∧ child.name ∈ [c!"sequence", c!"all"] := by
      intro child r hk
      unfold sequenceOrAll at hk
      split at hk
      · next c' r' h' =>
        cases hk
        obtain ⟨a, b, e1, _, e3, _⟩ := removeKid_some h'
        refine ⟨by rw [e1]; simp, ?_⟩
        have : child.name = c!"sequence" := by unfold Nd.name; rw [e3]
        simp [this]
      · obtain ⟨a, b, e1, _, e3, _⟩ := removeKid_some hk
        refine ⟨by rw [e1]; simp, ?_⟩
        have : child.name = c!"all" := by unfold Nd.name; rw [e3]
        simp [this]
    have hrun := parseParticle_run x h
    clear h
    cases hrun with
    | group child rest mn mx leaves s1 leaf s' hk hmn hmx h hg hl =>
      obtain ⟨h1, h2⟩ := hsa hk
      refine ⟨child, h1, markUnordered child leaves,
        markUnordered_each (C37_sequence x k (child.sees occursSeen) parent s s1 leaves h), .inr (.inl ⟨h2, leaf, ?_⟩)⟩
      obtain ⟨ln, rn, _, _, rfl, rfl⟩ := addGroup_ok hl
      refine ⟨rn, rfl, rfl, rfl, ?_, parseMinOccurs_minOf hmn, parseMaxOccurs_maxOf hmx, ?_⟩
      · show alookup (ainsert s1.roots rn _) rn = _
        rw [alookup_ainsert, if_pos rfl]
        rfl
      · exact hg.symm.imp id not_isVec.1
    | sequence child rest mn mx leaves s' hk hmn hmx h hg =>
      obtain ⟨h1, h2⟩ := hsa hk
      refine ⟨child, h1, markUnordered child leaves,
        markUnordered_each (C37_sequence x k (child.sees occursSeen) parent s s' leaves h), .inl ⟨h2, rfl, ?_, mx, parseMaxOccurs_maxOf hmx, ?_⟩⟩
      · have : mn = 1 := Decidable.byContradiction (fun h => hg (.inr h))
        exact this ▸ parseMinOccurs_minOf hmn
      · exact Classical.byContradiction (fun h => hg (.inl (not_isVec.2 h)))
    | choice child rest variants s1 v hn hk h hv =>
      obtain ⟨a, b, e1, _, e3, _⟩ := removeKid_some hk
      refine ⟨child, by rw [e1]; simp, variants, C37_choice x k child parent s s1 variants h, .inr (.inr ⟨?_, ⟨_, _, rfl, rfl, ?_⟩, ?_⟩)⟩
      · unfold Nd.name; rw [e3]
      · show alookup (ainsert s1.roots _ _) _ = _
        rw [alookup_ainsert, if_pos rfl]
      · intro hs
        cases k with
        | zero => cases h
        | succ k =>
          have hp := (parseChoice_run x h).1
          exact ⟨prevent_lacks hp rfl (by rw [hs]; decide), prevent_lacks hp rfl (by rw [hs]; decide)⟩

theorem mapRes_each {α β : Type} {f : α → Res Str β} {as : List α} {bs : List β} (h : mapRes f as = .ok bs) :
    Each (fun a b => f a = .ok b) as bs := by
  induction as generalizing bs with
  | nil => cases h; exact .nil
  | cons a as ih =>
    unfold mapRes at h
    rw [Res.bind_eq_ok] at h
    obtain ⟨b, hb, h⟩ := h
    rw [Res.bind_eq_ok] at h
    obtain ⟨bs', hbs, h⟩ := h
    cases h
    exact .cons hb (ih hbs)

/-- C37: the declared struct has one field for each leaf, in order, then one for each attribute, in order; the declared
enum has one variant for each alternative, in order. -/
theorem C37_fields (x : Ext) (S : SchemaContext) :
    (∀ as ls virt docs d, rootDecl x S (.element ⟨as, some (.leaves ls), virt, docs⟩) = .ok d →
      ∃ fs gs, d = .struct (fs ++ gs) ∧ Each (fun l f => fieldIdent x l.name = .ok f.1) ls fs ∧
        Each (fun a g => fieldIdent x a.name = .ok g.1) as gs) ∧
    (∀ ls virt docs d, rootDecl x S (.choice ls virt docs) = .ok d →
      ∃ vs, d = .choice vs ∧ Each (fun l v => pascalIdent x l.name = .ok v.1) ls vs) := by
  have mono : ∀ {α β : Type} {R R' : α → β → Prop} {as : List α} {bs : List β}, (∀ a b, R a b → R' a b) → Each R as bs →
      Each R' as bs := by
    intro α β R R' as bs hr h
    induction h with
    | nil => exact .nil
    | cons h hs ih => exact .cons (hr _ _ h) ih
  constructor
  · intro as ls virt docs d h
    unfold rootDecl at h
    rw [Res.bind_eq_ok] at h
    obtain ⟨fs, hf, h⟩ := h
    rw [Res.bind_eq_ok] at h
    obtain ⟨gs, hg, h⟩ := h
    cases h
    refine ⟨fs, gs, rfl, mono ?_ (mapRes_each hf), mono ?_ (mapRes_each hg)⟩
    · intro l f h
      unfold leafDecl at h
      rw [Res.bind_eq_ok] at h
      obtain ⟨i, hi, h⟩ := h
      rw [Res.bind_eq_ok] at h
      obtain ⟨t, _, h⟩ := h
      cases h
      exact hi
    · intro a f h
      unfold attrDecl at h
      rw [Res.bind_eq_ok] at h
      obtain ⟨i, hi, h⟩ := h
      rw [Res.bind_eq_ok] at h
      obtain ⟨t, _, h⟩ := h
      cases h
      exact hi
  · intro ls virt docs d h
    unfold rootDecl at h
    rw [Res.bind_eq_ok] at h
    obtain ⟨vs, hv, h⟩ := h
    cases h
    refine ⟨vs, rfl, mono ?_ (mapRes_each hv)⟩
    intro l f h
    unfold variantDecl at h
    rw [Res.bind_eq_ok] at h
    obtain ⟨i, hi, h⟩ := h
    rw [Res.bind_eq_ok] at h
    obtain ⟨t, _, h⟩ := h
    cases h
    exact hi

/-- C38 in generated code: the fields of the attributes are the last fields of the struct, one for each declaration that is not
prohibited, in order, named by the declaration, and an option iff it is not required. -/
theorem C38_generated (x : Ext) (S : SchemaContext) (parent : Name) (cs : List Nd) (s s' : PCtx) (as : List Attribute)
    (h : parseAttributes x parent cs s = .ok (as, s')) (content : Option ElementContent) (virt : Bool) (docs : Option Str) (d : Decl)
    (hd : rootDecl x S (.element ⟨as, content, virt, docs⟩) = .ok d) :
    ∃ fs gs, d = .struct (fs ++ gs) ∧ contentDecl x S content = .ok fs ∧
      Each (fun c g => (∃ n, c.value c!"name" = some n ∧ fieldIdent x ⟨n, .none⟩ = .ok g.1) ∧
          ((∃ t, g.2 = .option t) ↔ c.value c!"use" ≠ some c!"required"))
        (cs.filter (fun c => c.value c!"use" ≠ some c!"prohibited")) gs := by
  unfold rootDecl at hd
  rw [Res.bind_eq_ok] at hd
  obtain ⟨fs, hf, hd⟩ := hd
  rw [Res.bind_eq_ok] at hd
  obtain ⟨gs, hg, hd⟩ := hd
  cases hd
  refine ⟨fs, gs, rfl, hf, ?_⟩
  clear hf
  induction cs generalizing s as gs with
  | nil =>
    unfold parseAttributes at h
    pret h
    cases hg
    exact .nil
  | cons c cs ih =>
    unfold parseAttributes at h
    pbind h with a s1 h1
    pbind h with as' s2 h2
    obtain ⟨c1, c2, c3⟩ := C38 x c parent s s1 a h1
    cases a with
    | none =>
      pret h
      rw [List.filter_cons_of_neg (by simpa using c1.1 rfl)]
      exact ih _ _ h2 _ hg
    | some a =>
      pret h
      have hne : c.value c!"use" ≠ some c!"prohibited" := fun hp => by cases c1.2 hp
      rw [List.filter_cons_of_pos (by simpa using hne)]
      obtain ⟨d1, d2, _, d4, _⟩ := c3 a rfl
      obtain ⟨g, gs', hga, hgs, rfl⟩ := mapRes_cons_ok.1 hg
      refine .cons ⟨⟨a.name.name, d1.symm, ?_⟩, ?_⟩ (ih _ _ h2 _ hgs)
      · unfold attrDecl at hga
        obtain ⟨f, hf, hga⟩ := Res.bind_eq_ok.1 hga
        obtain ⟨t, _, hga⟩ := Res.bind_eq_ok.1 hga
        cases hga
        rw [← hf, ← d2]
      · refine (C38_field_type x S a g.1 g.2 hga).trans ?_
        rw [← Bool.not_eq_false, d4]

end Xsd
