import Verif.Spec.NodeCells
import Verif.Spec.Order
import Verif.Lemmas.Quiet
import Verif.Lemmas.Grammar
/-!
# C72: schema nodes keep track of what was looked at
-/
namespace Xsd.NodeRs

/-! ## Attributes -/

/-- The node after `attribute` was called with the names. -/
def Node.asks (n : Node) (ns : List Str) : Node := ns.foldl (fun n a => (n.attribute a).2) n

/-- The order of a map is an order of its entries. -/
def IsOrder (hash : List (Str × Attribute) → List (Str × Attribute)) : Prop := ∀ m, (hash m).Perm m

theorem lastOf_iff_find {as : List XAttr} {n : Str} {a : XAttr} : LastOf as n a ↔ as.reverse.find? (fun a => a.loc = n) = some a := by
  rw [List.find?_eq_some_iff_append]
  constructor
  · rintro ⟨l, r, rfl, h, hr⟩
    refine ⟨by simpa using h, r.reverse, l.reverse, by simp, fun b hb => ?_⟩
    simpa using hr b (List.mem_reverse.1 hb)
  · rintro ⟨h, l, r, he, hl⟩
    have he := congrArg List.reverse he
    refine ⟨r.reverse, l.reverse, by simpa using he, by simpa using h, fun b hb => ?_⟩
    simpa using hl b (List.mem_reverse.1 hb)

theorem LastOf.unique {as : List XAttr} {n : Str} {a b : XAttr} (ha : LastOf as n a) (hb : LastOf as n b) : a = b :=
  Option.some.inj ((lastOf_iff_find.1 ha).symm.trans (lastOf_iff_find.1 hb))

theorem lastOf_exists {as : List XAttr} {a : XAttr} (h : a ∈ as) : ∃ b, LastOf as a.loc b := by
  have : (as.reverse.find? (fun b => b.loc = a.loc)).isSome := by
    rw [List.find?_isSome]
    exact ⟨a, List.mem_reverse.2 h, by simp⟩
  obtain ⟨b, hb⟩ := Option.isSome_iff_exists.1 this
  exact ⟨b, lastOf_iff_find.2 hb⟩

theorem collect_lookup (as : List XAttr) (n : Str) (m : List (Str × Attribute)) :
    alookup (as.foldl (fun m a => ainsert m a.loc (⟨a, false⟩ : Attribute)) m) n =
      match as.reverse.find? (fun a => a.loc = n) with
      | some a => some ⟨a, false⟩
      | none => alookup m n := by
  induction as generalizing m with
  | nil => rfl
  | cons a as ih =>
    rw [List.foldl_cons, ih, List.reverse_cons, List.find?_append]
    cases as.reverse.find? (fun a => a.loc = n) with
    | some b => rfl
    | none =>
      simp only [alookup_ainsert, Option.none_or, List.find?_cons, List.find?_nil]
      by_cases h : a.loc = n <;> simp [h]

theorem collect_nodup (as : List XAttr) (m : List (Str × Attribute)) (hm : (m.map Prod.fst).Nodup) :
    ((as.foldl (fun m a => ainsert m a.loc (⟨a, false⟩ : Attribute)) m).map Prod.fst).Nodup := by
  induction as generalizing m with
  | nil => exact hm
  | cons a as ih => exact ih _ (nodup_keys_ainsert hm _ _)

/-- The invariant: the map has the last attribute of each local name, with the flag set if it was asked for. -/
structure Tracks (e : Elem) (ns : List Str) (n : Node) : Prop where
  inner : n.inner = e
  nodup : (n.attributes.map Prod.fst).Nodup
  mem : ∀ k c, (k, c) ∈ n.attributes ↔ LastOf e.1.attrs k c.inner ∧ c.visited = decide (k ∈ ns)

theorem Tracks.of {hash} (hh : IsOrder hash) (e : Elem) : Tracks e [] (Node.of hash e) := by
  have hn : ((collectAttributes e.1.attrs).map Prod.fst).Nodup := collect_nodup _ _ List.nodup_nil
  refine ⟨rfl, ((hh _).map _).nodup_iff.2 hn, fun k c => ?_⟩
  rw [show (Node.of hash e).attributes = hash (collectAttributes e.1.attrs) from rfl, (hh _).mem_iff]
  have hl := collect_lookup e.1.attrs k []
  rw [lastOf_iff_find]
  constructor
  · intro h
    have h := alookup_of_mem hn h
    rw [collectAttributes, hl] at h
    split at h
    · next a ha => cases h; exact ⟨ha, by simp⟩
    · cases h
  · rintro ⟨h, hv⟩
    obtain ⟨a, v⟩ := c
    simp only [List.not_mem_nil, decide_false] at hv
    subst hv
    refine alookup_mem ?_
    rw [collectAttributes, hl, h]

theorem Tracks.lookup {e ns n} (H : Tracks e ns n) (k : Str) :
    alookup n.attributes k = (e.1.attrs.reverse.find? (fun a => a.loc = k)).map fun a => ⟨a, decide (k ∈ ns)⟩ := by
  cases h : alookup n.attributes k with
  | some c =>
    have := (H.mem k c).1 (alookup_mem h)
    rw [lastOf_iff_find.1 this.1]
    obtain ⟨a, v⟩ := c
    have hv : v = decide (k ∈ ns) := this.2
    rw [hv]
    rfl
  | none =>
    cases hf : e.1.attrs.reverse.find? (fun a => a.loc = k) with
    | none => rfl
    | some a =>
      have := (H.mem k ⟨a, decide (k ∈ ns)⟩).2 ⟨lastOf_iff_find.2 hf, rfl⟩
      rw [alookup_of_mem H.nodup this] at h
      cases h

theorem Tracks.attribute {e ns n} (H : Tracks e ns n) (k : Str) : Tracks e (ns ++ [k]) (n.attribute k).2 := by
  have keys : ∀ m : List (Str × Attribute), (visit k m).map Prod.fst = m.map Prod.fst := by
    intro m
    rw [visit, List.map_map]
    refine List.map_congr_left fun p _ => ?_
    simp only [Function.comp]
    split <;> rfl
  unfold Node.attribute
  split
  · next a ha =>
    refine ⟨H.inner, by rw [keys]; exact H.nodup, fun k' c => ?_⟩
    simp only [visit, List.mem_map]
    constructor
    · rintro ⟨⟨k2, c2⟩, h2, he⟩
      have := (H.mem k2 c2).1 h2
      by_cases hk : k2 = k
      · rw [if_pos hk] at he
        cases he
        exact ⟨this.1, by simp [hk]⟩
      · rw [if_neg hk] at he
        cases he
        exact ⟨this.1, by rw [this.2]; simp [hk]⟩
    · rintro ⟨h1, h2⟩
      refine ⟨(k', ⟨c.inner, decide (k' ∈ ns)⟩), (H.mem _ _).2 ⟨h1, rfl⟩, ?_⟩
      by_cases hk : k' = k
      · rw [if_pos hk]
        obtain ⟨a, v⟩ := c
        have hv : v = decide (k' ∈ ns ++ [k]) := h2
        simp only [Prod.mk.injEq, Attribute.mk.injEq, true_and]
        rw [hv]; simp [hk]
      · rw [if_neg hk]
        obtain ⟨a, v⟩ := c
        have hv : v = decide (k' ∈ ns ++ [k]) := h2
        simp only [Prod.mk.injEq, Attribute.mk.injEq, true_and]
        rw [hv]; simp [hk]
  · next ha =>
    refine ⟨H.inner, H.nodup, fun k' c => ?_⟩
    rw [H.mem]
    have hne : LastOf e.1.attrs k' c.inner → k' ≠ k := by
      rintro h rfl
      rw [H.lookup, lastOf_iff_find.1 h] at ha
      cases ha
    constructor
    · rintro ⟨h1, h2⟩
      exact ⟨h1, by rw [h2]; simp [hne h1]⟩
    · rintro ⟨h1, h2⟩
      exact ⟨h1, by rw [h2]; simp [hne h1]⟩

theorem Tracks.asks {e ns n} (H : Tracks e ns n) (ks : List Str) : Tracks e (ns ++ ks) (n.asks ks) := by
  induction ks generalizing ns n with
  | nil => rw [List.append_nil]; exact H
  | cons k ks ih =>
    have := ih (H.attribute k)
    rw [List.append_assoc] at this
    exact this

theorem tracks_asks {hash} (hh : IsOrder hash) (e : Elem) (ks : List Str) : Tracks e ks ((Node.of hash e).asks ks) := by
  have := (Tracks.of hh e).asks ks
  rwa [List.nil_append] at this

theorem firstUnvisited_ok (el : Str) (m : List (Str × Attribute)) :
    firstUnvisited el m = .ok () ↔ ∀ p ∈ m, p.2.inner.ns = none → p.2.visited = true := by
  induction m with
  | nil => simp [firstUnvisited]
  | cons p m ih =>
    obtain ⟨k, a, v⟩ := p
    simp only [firstUnvisited, List.forall_mem_cons]
    split
    · next h => simp [h.1, h.2]
    · next h =>
      rw [ih]
      cases v <;> simp_all

theorem firstUnvisited_err (el : Str) (m : List (Str × Attribute)) :
    ∀ r, firstUnvisited el m = r → r = .ok () ∨
      ∃ k a, (k, a) ∈ m ∧ a.inner.ns = none ∧ a.visited = false ∧ r = .err (.unsupportedAttribute k el a.inner.start) := by
  induction m with
  | nil => rintro r rfl; exact .inl rfl
  | cons p m ih =>
    obtain ⟨k, a⟩ := p
    rintro r rfl
    unfold firstUnvisited
    split
    · next h => exact .inr ⟨k, a, List.mem_cons_self, h.1, h.2, rfl⟩
    · rcases ih _ rfl with h | ⟨k', a', h1, h2⟩
      · exact .inl h
      · exact .inr ⟨k', a', List.mem_cons_of_mem _ h1, h2⟩

/-- **C72, attributes.** Whatever was asked for before, and in whatever order the map is kept, `attribute` returns the last attribute with that
local name, and nothing exactly if there is none. -/
theorem C72_attribute {hash} (hh : IsOrder hash) (e : Elem) (ks : List Str) (k : Str) :
    (∀ c, (((Node.of hash e).asks ks).attribute k).1 = some c → LastOf e.1.attrs k c.inner) ∧
    ((((Node.of hash e).asks ks).attribute k).1 = none ↔ ∀ a ∈ e.1.attrs, a.loc ≠ k) := by
  have H := (tracks_asks hh e ks).lookup k
  unfold Node.attribute
  rw [H]
  cases hf : e.1.attrs.reverse.find? (fun a => a.loc = k) with
  | some a =>
    refine ⟨fun c hc => ?_, ?_⟩
    · cases hc
      exact lastOf_iff_find.2 hf
    · have := List.mem_of_find?_eq_some hf
      have h2 := List.find?_some hf
      simp only [Option.map_some, reduceCtorEq, false_iff]
      exact fun h => h a (List.mem_reverse.1 this) (by simpa using h2)
  | none =>
    refine ⟨fun c hc => (by cases hc), ?_⟩
    simp only [Option.map_none, true_iff]
    simpa using hf

/-- **C72, unvisited attributes.** `prevent_unvisited_attributes` succeeds exactly if each attribute that is the last with its local name and
has no namespace was asked for; otherwise the error names one that was not. -/
theorem C72_unvisited {hash} (hh : IsOrder hash) (e : Elem) (ks : List Str) :
    (((Node.of hash e).asks ks).preventUnvisitedAttributes = .ok () ↔ ∀ k a, LastOf e.1.attrs k a → a.ns = none → k ∈ ks) ∧
    (((Node.of hash e).asks ks).preventUnvisitedAttributes = .ok () ∨
      ∃ k a, LastOf e.1.attrs k a ∧ a.ns = none ∧ k ∉ ks ∧
        ((Node.of hash e).asks ks).preventUnvisitedAttributes = .err (.unsupportedAttribute k e.1.name.loc a.start)) := by
  have H := tracks_asks hh e ks
  refine ⟨?_, ?_⟩
  · rw [Node.preventUnvisitedAttributes, firstUnvisited_ok]
    constructor
    · intro h k a hl hn
      have := h _ ((H.mem k ⟨a, decide (k ∈ ks)⟩).2 ⟨hl, rfl⟩) hn
      simpa using this
    · intro h p hp hn
      have := (H.mem p.1 p.2).1 hp
      rw [this.2]
      simpa using h _ _ this.1 hn
  · rcases firstUnvisited_err _ _ _ rfl with h | ⟨k, a, hm, hn, hv, h⟩
    · exact .inl h
    · have := (H.mem k a).1 hm
      refine .inr ⟨k, a.inner, this.1, hn, ?_, ?_⟩
      · rw [hv] at this
        simpa using this.2
      · rw [Node.preventUnvisitedAttributes, h, Node.name, H.inner]

/-! ## Children -/

/-- Removing children with the names, one after the other. -/
def Children.removes (c : Children) : List QName → List (Option Elem) × Children
  | [] => ([], c)
  | q :: qs => (((c.remove q).1 :: ((c.remove q).2.removes qs).1), ((c.remove q).2.removes qs).2)

theorem remove_cases (c : Children) (q : QName) :
    ((∀ f ∈ c.children, f.1.name ≠ q) ∧ c.remove q = (none, c)) ∨
    ∃ l e r, c.children = l ++ e :: r ∧ e.1.name = q ∧ (∀ f ∈ l, f.1.name ≠ q) ∧ c.remove q = (some e, { c with children := l ++ r }) := by
  unfold Children.remove
  cases h : c.children.findIdx? (fun e => e.is q) with
  | none =>
    refine .inl ⟨fun f hf hq => ?_, rfl⟩
    rw [List.findIdx?_eq_none_iff] at h
    have := h f hf
    rw [(Elem.is_iff f q).2 hq] at this
    cases this
  | some i =>
    obtain ⟨hi, h1, h2⟩ := List.findIdx?_eq_some_iff_getElem.1 h
    refine .inr ⟨c.children.take i, c.children[i], c.children.drop (i + 1), ?_, (Elem.is_iff _ _).1 h1, ?_, ?_⟩
    · rw [List.getElem_cons_drop, List.take_append_drop]
    · intro f hf hq
      obtain ⟨j, hj, rfl⟩ := List.mem_take_iff_getElem.1 hf
      exact h2 j (by omega) ((Elem.is_iff _ _).2 hq)
    · simp only [List.getElem?_eq_getElem hi, List.eraseIdx_eq_take_drop_succ]

theorem removes_takes (c : Children) (qs : List QName) : Takes c.children qs (c.removes qs).1 (c.removes qs).2.children := by
  induction qs generalizing c with
  | nil => exact .done _
  | cons q qs ih =>
    unfold Children.removes
    rcases remove_cases c q with ⟨hl, he⟩ | ⟨l, e, r, hc, hq, hl, he⟩
    · rw [he]
      exact .miss hl (ih _)
    · rw [he, hc]
      exact .hit hq hl (ih { c with children := l ++ r })

theorem remove_node (c : Children) (q : QName) : (c.remove q).2.node = c.node := by
  rcases remove_cases c q with ⟨_, h⟩ | ⟨_, _, _, _, _, _, h⟩ <;> rw [h]

theorem removes_node (c : Children) (qs : List QName) : (c.removes qs).2.node = c.node := by
  induction qs generalizing c with
  | nil => rfl
  | cons q qs ih => exact (ih _).trans (remove_node c q)

/-- **C72, children.** Any sequence of `remove` takes, each time, the first child with that name that is left. Then `prevent_unvisited_children`
succeeds exactly if none is left, and otherwise names the first that is. -/
theorem C72_children (n : Node) (f : ChildrenFilter) (qs : List QName) :
    ∃ rest, Takes (n.iter f) qs ((n.collect f).removes qs).1 rest ∧
      (rest = [] ∧ ((n.collect f).removes qs).2.preventUnvisitedChildren = .ok () ∨
        ∃ e r, rest = e :: r ∧
          ((n.collect f).removes qs).2.preventUnvisitedChildren = .err (.unsupportedElement e.1.name.loc n.inner.1.name.loc e.1.start)) := by
  refine ⟨_, removes_takes (n.collect f) qs, ?_⟩
  unfold Children.preventUnvisitedChildren
  rw [removes_node]
  cases ((n.collect f).removes qs).2.children with
  | nil => exact .inl ⟨rfl, rfl⟩
  | cons e r => exact .inr ⟨e, r, rfl, rfl⟩

/-- **C72, loops.** The loops that remove children with a name until there is none end: they visit all of them, in the order of the document, and
leave the others, in order. -/
theorem C72_loop (c : Children) (q : QName) (k : Nat) (hk : c.children.length < k) :
    Children.drain q k c =
      some (c.children.filter (fun e => e.1.name = q), { c with children := c.children.filter (fun e => ¬ e.1.name = q) }) := by
  induction k generalizing c with
  | zero => omega
  | succ k ih =>
    unfold Children.drain
    rcases remove_cases c q with ⟨hl, he⟩ | ⟨l, e, r, hc, hq, hl, he⟩
    · rw [he]
      have h1 : c.children.filter (fun e => decide (e.1.name = q)) = [] := by
        rw [List.filter_eq_nil_iff]
        intro f hf
        simpa using hl f hf
      have h2 : c.children.filter (fun e => decide (¬ e.1.name = q)) = c.children := by
        rw [List.filter_eq_self]
        intro f hf
        simpa using hl f hf
      simp only [h1, h2]
    · rw [he]
      simp only
      rw [ih _ (by rw [hc] at hk; simp only [List.length_append, List.length_cons] at hk ⊢; omega)]
      have h1 : l.filter (fun e => decide (e.1.name = q)) = [] := by
        rw [List.filter_eq_nil_iff]
        intro f hf
        simpa using hl f hf
      simp [hc, hq, h1]

/-! ## Filters and namespaces -/

theorem keeps_iff (f : ChildrenFilter) (e : Elem) : f.keeps e = true ↔ Meets f e := by
  have hattr : ∀ n v, attrOf e.1 n = some v ↔
      ∃ l a r, e.1.attrs = l ++ a :: r ∧ a.loc = n ∧ a.ns = none ∧ a.value = v ∧ ∀ b ∈ l, ¬ (b.loc = n ∧ b.ns = none) := by
    intro n v
    simp only [attrOf, Option.map_eq_some_iff, List.find?_eq_some_iff_append]
    constructor
    · rintro ⟨a, ⟨h1, l, r, he, hl⟩, hv⟩
      simp only [decide_eq_true_eq] at h1
      refine ⟨l, a, r, he, h1.2, h1.1, hv, fun b hb hc => ?_⟩
      have := hl b hb
      simp [hc.1, hc.2] at this
    · rintro ⟨l, a, r, he, h1, h2, hv, hl⟩
      refine ⟨a, ⟨by simp [h1, h2], l, r, he, fun b hb => ?_⟩, hv⟩
      have := hl b hb
      simp only [not_and] at this
      by_cases hn : b.ns = none
      · simpa [hn] using fun h => this h hn
      · simp [hn]
  obtain ⟨fn, fu, fa, fv⟩ := f
  unfold ChildrenFilter.keeps
  constructor
  · intro h
    split at h
    · cases h
    next h1 =>
    split at h
    · cases h
    next h2 =>
    refine ⟨?_, ?_, ?_⟩
    · rintro n rfl
      exact Decidable.byContradiction fun hh => h1 (by simpa using Ne.symm hh)
    · rintro u rfl
      exact Decidable.byContradiction fun hh => h2 (by simpa using Ne.symm hh)
    · rintro n v rfl rfl
      exact (hattr n v).1 (by simpa using h)
  · rintro ⟨hn, hu, ha⟩
    rw [if_neg, if_neg]
    · split
      · next h1 h2 => simpa using (hattr _ _).2 (ha _ _ h1 h2)
      · rfl
    · cases fu with
      | none => simp
      | some u => simpa using (hu u rfl).symm
    · cases fn with
      | none => simp
      | some n => simpa using (hn n rfl).symm

/-- **C72, filters.** The nodes of a filter are the child elements that meet its conditions, in the order of the document; `try_find` returns
the first, and fails exactly if there is none. -/
theorem C72_find (n : Node) (f : ChildrenFilter) :
    (n.iter f).Sublist (elemKids n.inner.2) ∧ (∀ e, e ∈ n.iter f ↔ e ∈ elemKids n.inner.2 ∧ Meets f e) ∧
    ((∃ l e r, elemKids n.inner.2 = l ++ e :: r ∧ Meets f e ∧ (∀ g ∈ l, ¬ Meets f g) ∧ n.tryFind f = .ok e) ∨
      (∀ e ∈ elemKids n.inner.2, ¬ Meets f e) ∧
        n.tryFind f = .err (.elementNotFound f.elementName f.elementNs f.attributeName f.attributeValue n.inner.1.start)) := by
  refine ⟨List.filter_sublist, fun e => ?_, ?_⟩
  · rw [Node.iter, List.mem_filter, keeps_iff]
  · unfold Node.tryFind
    cases h : n.iter f with
    | cons e es =>
      left
      have hh : (elemKids n.inner.2).find? f.keeps = some e := by
        rw [← List.head?_filter]
        exact congrArg List.head? h
      obtain ⟨h1, l, r, he, hl⟩ := List.find?_eq_some_iff_append.1 hh
      exact ⟨l, e, r, he, (keeps_iff f e).1 h1, fun g hg hm => by simpa [(keeps_iff f g).2 hm] using hl g hg, rfl⟩
    | nil =>
      right
      refine ⟨fun e he hm => ?_, rfl⟩
      have : e ∈ n.iter f := List.mem_filter.2 ⟨he, (keeps_iff f e).2 hm⟩
      rw [h] at this
      cases this

/-- **C72, prefixes.** In an element in which each prefix is bound once, the prefix found for a namespace is bound to it, and so looking it up
returns the namespace. A prefix is found unless the namespace is not bound, or bound as default namespace first. -/
theorem C72_prefix (n : Node) (hd : (n.inner.1.nss.map Prod.fst).Nodup) (u : Str) :
    (∀ p, n.tryNamespacePrefix u = .ok p → n.tryNamespaceUri p = .ok u) ∧
    ((∃ p, n.tryNamespacePrefix u = .ok p) ∨
      n.tryNamespacePrefix u = .err (.missingNamespace u n.inner.1.start) ∧ ((∀ p, (p, u) ∉ n.inner.1.nss) ∨ n.defaultNamespace = some u)) := by
  have lookup : ∀ p, (p, u) ∈ n.inner.1.nss → lookupNamespaceUri n.inner.1.nss p = some u := by
    intro p hp
    unfold lookupNamespaceUri
    cases hf : n.inner.1.nss.find? (fun q => q.1 = p) with
    | none =>
      rw [List.find?_eq_none] at hf
      simpa using hf _ hp
    | some q =>
      have h1 : q.1 = p := by simpa using List.find?_some hf
      obtain ⟨q1, q2⟩ := q
      cases h1
      have e1 := alookup_of_mem hd (List.mem_of_find?_eq_some hf)
      rw [alookup_of_mem hd hp] at e1
      simpa using e1.symm
  unfold Node.tryNamespacePrefix Node.tryNamespaceUri Node.defaultNamespace lookupPrefix
  cases hf : n.inner.1.nss.find? (fun q => q.2 = u) with
  | none =>
    refine ⟨fun p hp => (by cases hp), .inr ⟨rfl, .inl fun p hp => ?_⟩⟩
    rw [List.find?_eq_none] at hf
    simpa using hf _ hp
  | some q =>
    obtain ⟨q1, q2⟩ := q
    have h2 : q2 = u := by simpa using List.find?_some hf
    subst h2
    have hm := List.mem_of_find?_eq_some hf
    cases q1 with
    | none => exact ⟨fun p hp => (by cases hp), .inr ⟨rfl, .inr (lookup _ hm)⟩⟩
    | some p =>
      refine ⟨fun p' hp => ?_, .inl ⟨p, rfl⟩⟩
      cases hp
      rw [lookup _ hm]

/-! ## The view of the parser -/

theorem mem_lastAttrs_iff {as : List XAttr} {a : XAttr} : a ∈ lastAttrs as ↔ LastOf as a.loc a := by
  constructor
  · intro h
    obtain ⟨l, r, he, hr⟩ := effective_of_last h
    exact ⟨l, r, he, rfl, hr⟩
  · rintro ⟨l, r, he, _, hr⟩
    exact mem_lastAttrs he hr

theorem lastAttrs_locs_nodup (as : List XAttr) : ((lastAttrs as).map XAttr.loc).Nodup := by
  induction as with
  | nil => exact List.nodup_nil
  | cons a as ih =>
    unfold lastAttrs
    split
    · exact ih
    · next h =>
      rw [List.map_cons, List.nodup_cons]
      refine ⟨fun hm => ?_, ih⟩
      obtain ⟨b, hb, he⟩ := List.mem_map.1 hm
      refine h (List.any_eq_true.2 ⟨b, ?_, by simpa using he⟩)
      obtain ⟨l, r, hs, _⟩ := mem_lastAttrs_iff.1 hb
      rw [hs]
      exact List.mem_append_right _ List.mem_cons_self

theorem sees_of (e : Elem) (ks : List Str) (nd : Nd) (h : nd.info = e.1 ∧ nd.kids = e.2) :
    (ks.foldl Nd.see nd).info = e.1 ∧ (ks.foldl Nd.see nd).kids = e.2 ∧ ∀ k, k ∈ (ks.foldl Nd.see nd).seen ↔ k ∈ ks ∨ k ∈ nd.seen := by
  induction ks generalizing nd with
  | nil => exact ⟨h.1, h.2, by simp⟩
  | cons k ks ih =>
    obtain ⟨h1, h2, h3⟩ := ih (nd.see k) h
    refine ⟨h1, h2, fun k' => ?_⟩
    rw [List.foldl_cons, h3]
    simp only [Nd.see, List.mem_cons]
    constructor
    · rintro (h | h | h)
      · exact .inl (.inr h)
      · exact .inl (.inl h)
      · exact .inr h
    · rintro ((h | h) | h)
      · exact .inr (.inl h)
      · exact .inl h
      · exact .inr (.inr h)

theorem firstUnvisited_same {nd : Nd} (m : List (Str × Attribute)) (hk : ∀ p ∈ m, p.1 = p.2.inner.loc ∧ p.2.visited = decide (p.1 ∈ nd.seen)) :
    SameRes id (firstUnvisited nd.name m) (unvisitedIn (m.map (fun p => p.2.inner)) nd) := by
  induction m with
  | nil => exact .ok ()
  | cons p m ih =>
    obtain ⟨k, a⟩ := p
    obtain ⟨h1, h2⟩ := hk _ List.mem_cons_self
    simp only at h1 h2
    have ih := ih fun p hp => hk p (List.mem_cons_of_mem _ hp)
    unfold firstUnvisited unvisitedIn
    rw [List.map_cons, List.find?_cons]
    by_cases h : a.inner.ns = none ∧ a.visited = false
    · rw [if_pos h]
      have : a.inner.ns = none ∧ a.inner.loc ∉ nd.seen := ⟨h.1, by rw [← h1]; simpa [h.2] using h2.symm⟩
      simp only [this, not_false_eq_true, and_self, decide_true]
      rw [h1]
      exact .err (.unsupportedAttribute _ _ _)
    · rw [if_neg h]
      have : ¬ (a.inner.ns = none ∧ a.inner.loc ∉ nd.seen) := fun hc => h ⟨hc.1, by rw [h2, h1]; simpa using hc.2⟩
      simp only [this, decide_false]
      exact ih

/-- **C72, refinement of nodes.** After any sequence of calls of `attribute`, the node agrees with the node of the model of the parser that has seen the same
names: on attributes, children and texts, and on unvisited attributes in one of the orders that C50 is about. `try_attribute` is one more such
call. -/
theorem C72_refines {hash} (hh : IsOrder hash) (e : Elem) (ks : List Str) (n : Node) (hn : n = (Node.of hash e).asks ks) (nd : Nd)
    (hnd : nd = ks.foldl Nd.see (Nd.of e)) :
    (∀ k, (n.attribute k).1.map Attribute.inner = nd.attr k) ∧
    (∀ k, SameRes Attribute.inner (n.tryAttribute k).1 (nd.tryAttr k) ∧ (n.tryAttribute k).2 = (Node.of hash e).asks (ks ++ [k])) ∧
    (∃ m, m.Perm (lastAttrs nd.info.attrs) ∧ SameRes id n.preventUnvisitedAttributes (unvisitedIn m nd)) ∧
    (∀ k, (n.child k (some nsXsd)).map Nd.of = nd.child k) ∧
    SameRes id n.tryText nd.tryText ∧
    (n.collect { elementNs := some nsXsd }).children.map Nd.of = nd.xsdKids := by
  have H : Tracks e ks n := hn ▸ tracks_asks hh e ks
  obtain ⟨h1, h2, h3⟩ := sees_of e ks (Nd.of e) ⟨rfl, rfl⟩
  rw [← hnd] at h1 h2 h3
  have h3 : ∀ k, k ∈ nd.seen ↔ k ∈ ks := fun k => (h3 k).trans (by simp [Nd.of])
  have hname : n.name = nd.name := by rw [Node.name, Nd.name, H.inner, h1]
  have hstart : n.start = nd.start := by rw [Node.start, Nd.start, H.inner, h1]
  have hattr : ∀ k, (n.attribute k).1.map Attribute.inner = nd.attr k := by
    intro k
    unfold Node.attribute Nd.attr
    rw [H.lookup, h1]
    cases e.1.attrs.reverse.find? (fun a => a.loc = k) <;> rfl
  refine ⟨hattr, fun k => ?_, ⟨n.attributes.map (fun p => p.2.inner), ?_, ?_⟩, fun k => ?_, ?_, ?_⟩
  · have hasks : (Node.of hash e).asks (ks ++ [k]) = (n.attribute k).2 := by
      rw [hn, Node.asks, List.foldl_append]
      rfl
    rw [hasks]
    unfold Node.tryAttribute Nd.tryAttr
    have ha := hattr k
    have h2 := (H.attribute k).inner
    cases hx : n.attribute k with
    | mk r n' =>
      rw [hx] at ha h2
      cases r with
      | some a =>
        rw [← ha]
        exact ⟨.ok a, rfl⟩
      | none =>
        rw [← ha, Nd.name, Nd.start, h1]
        refine ⟨?_, rfl⟩
        simp only [Node.name, Node.start, Option.map_none]
        rw [h2]
        exact .err (.missingAttribute _ _ _)
  · have hl : ∀ p ∈ n.attributes, p.1 = p.2.inner.loc := fun p hp => by
      obtain ⟨_, _, _, hl, _⟩ := ((H.mem p.1 p.2).1 hp).1
      exact hl.symm
    have nodup_of : ∀ l : List XAttr, (l.map XAttr.loc).Nodup → l.Nodup := fun l hl =>
      (List.pairwise_map.1 hl).imp fun h he => h (congrArg XAttr.loc he)
    have e1 : (n.attributes.map (fun p => p.2.inner)).map XAttr.loc = n.attributes.map Prod.fst := by
      rw [List.map_map]
      exact List.map_congr_left fun p hp => (hl p hp).symm
    refine (List.perm_ext_iff_of_nodup (nodup_of _ (e1 ▸ H.nodup)) (nodup_of _ (lastAttrs_locs_nodup _))).2 fun a => ?_
    rw [mem_lastAttrs_iff, h1, List.mem_map]
    constructor
    · rintro ⟨p, hp, rfl⟩
      rw [← hl p hp]
      exact ((H.mem _ _).1 hp).1
    · intro ha
      exact ⟨(a.loc, ⟨a, decide (a.loc ∈ ks)⟩), (H.mem _ _).2 ⟨ha, rfl⟩, rfl⟩
  · rw [Node.preventUnvisitedAttributes, hname]
    refine firstUnvisited_same _ fun p hp => ?_
    have := (H.mem p.1 p.2).1 hp
    obtain ⟨_, _, _, hl, _⟩ := this.1
    exact ⟨hl.symm, by rw [this.2, decide_eq_decide]; exact (h3 _).symm⟩
  · rw [Node.child, Nd.child, H.inner, h2]
  · have : n.text = nd.text := by
      unfold Node.text Nd.text
      rw [H.inner, h2]
      cases e.2 with
      | nil => rfl
      | cons c cs => cases c <;> rfl
    unfold Node.tryText Nd.tryText
    rw [this, hname, hstart]
    cases nd.text with
    | some s => exact .ok s
    | none => exact .err (.textExpected _ _)
  · rw [Nd.xsdKids, h2]
    simp only [Node.collect, Node.iter, H.inner]
    refine congrArg _ (List.filter_congr fun e _ => ?_)
    have := keeps_iff { elementNs := some nsXsd } e
    rw [Bool.eq_iff_iff, this]
    constructor
    · intro h
      simpa using h.ns _ rfl
    · intro h
      exact ⟨fun _ h => (by cases h), fun u hu => by cases hu; simpa using h, fun _ _ h => (by cases h)⟩

theorem removeKid_map (k : Str) (l : List Elem) :
    (∀ f ∈ l, f.1.name ≠ ⟨k, some nsXsd⟩) → ∀ r, removeKid k ((l ++ r).map Nd.of) = ((removeKid k (r.map Nd.of)).1, l.map Nd.of ++ (removeKid k (r.map Nd.of)).2) := by
  induction l with
  | nil => intro _ r; rfl
  | cons f l ih =>
    intro h r
    have h1 : ¬ (Nd.of f).info.name = ⟨k, some nsXsd⟩ := h f List.mem_cons_self
    rw [List.cons_append, List.map_cons, removeKid, if_neg h1, ih (fun g hg => h g (List.mem_cons_of_mem _ hg)) r]
    rfl

/-- **C72, refinement of children.** Removing children agrees with the functions of the model of the parser. -/
theorem C72_refines_children (c : Children) (nd : Nd) (hnd : nd.info = c.node.inner.1) (k : Str) :
    ((c.remove ⟨k, some nsXsd⟩).1.map Nd.of, (c.remove ⟨k, some nsXsd⟩).2.children.map Nd.of) = removeKid k (c.children.map Nd.of) ∧
    SameRes (fun e => (Nd.of e, (c.tryRemove ⟨k, some nsXsd⟩).2.children.map Nd.of)) (c.tryRemove ⟨k, some nsXsd⟩).1
      (tryRemoveKid nd k (c.children.map Nd.of)) ∧
    (c.tryRemove ⟨k, some nsXsd⟩).2 = (c.remove ⟨k, some nsXsd⟩).2 ∧
    SameRes id c.preventUnvisitedChildren (Xsd.preventUnvisitedChildren nd (c.children.map Nd.of)) ∧
    ∀ j, c.children.length < j → ∃ l c', Children.drain ⟨k, some nsXsd⟩ j c = some (l, c') ∧
      (l.map Nd.of, c'.children.map Nd.of) = removeKids k (c.children.map Nd.of) := by
  have h1 : ((c.remove ⟨k, some nsXsd⟩).1.map Nd.of, (c.remove ⟨k, some nsXsd⟩).2.children.map Nd.of) = removeKid k (c.children.map Nd.of) := by
    rcases remove_cases c ⟨k, some nsXsd⟩ with ⟨hl, he⟩ | ⟨l, e, r, hc, hq, hl, he⟩
    · rw [he]
      have := removeKid_map k c.children hl []
      rw [List.append_nil] at this
      rw [this]
      simp [removeKid]
    · rw [he, hc, removeKid_map k l hl]
      have : (Nd.of e).info.name = ⟨k, some nsXsd⟩ := hq
      simp [removeKid, this]
  refine ⟨h1, ?_, ?_, ?_, fun j hj => ⟨_, _, C72_loop c _ j hj, ?_⟩⟩
  · unfold Children.tryRemove tryRemoveKid
    rw [← h1]
    have hnode := remove_node c ⟨k, some nsXsd⟩
    cases hx : c.remove ⟨k, some nsXsd⟩ with
    | mk r c' =>
      rw [hx] at hnode
      cases r with
      | some e => exact .ok e
      | none =>
        simp only [Option.map_none, Nd.start, hnd, Node.start]
        rw [← (show c'.node = c.node from hnode)]
        exact .err (.missingElement _ _ _)
  · unfold Children.tryRemove
    cases c.remove ⟨k, some nsXsd⟩ with
    | mk r c' => cases r <;> rfl
  · unfold Children.preventUnvisitedChildren
    cases c.children with
    | nil => exact .ok ()
    | cons e r =>
      rw [List.map_cons]
      have : nd.name = c.node.name := by rw [Nd.name, hnd, Node.name]
      simp only [Xsd.preventUnvisitedChildren, this, List.head?_cons]
      exact .err (.unsupportedElement _ _ _)
  · unfold removeKids
    simp only [List.filter_map]
    rfl

/-! ## Examples -/

namespace Example

/-- An attribute. -/
def attr (n v : Str) (ns : Option Str) (s : Nat) : XAttr := ⟨n, ns, v, s⟩

/-- A child element of XML Schema. -/
def kid (n : Str) (s : Nat) (as : List XAttr) : XNode := .elem ⟨⟨n, some nsXsd⟩, as, [], s⟩ []

/-- An element with two attributes of the same local name, one of them foreign. -/
def elem : Elem := (⟨⟨c!"element", some nsXsd⟩, [attr c!"name" c!"a" none 1, attr c!"type" c!"t" none 2, attr c!"type" c!"x" (some c!"urn:x") 3],
    [(some c!"xs", nsXsd), (none, c!"urn:t"), (some c!"t", c!"urn:t")], 0⟩,
  [.text c!" ", kid c!"annotation" 4 [], kid c!"attribute" 5 [attr c!"name" c!"p" none 6], kid c!"attribute" 7 [attr c!"name" c!"q" none 8],
    kid c!"any" 9 []])

/-- The node, with the map in reverse order. -/
def node : Node := Node.of List.reverse elem

example : IsOrder List.reverse := fun _ => List.reverse_perm _

/-- The foreign attribute has replaced the other one; once `name` was asked for there is none left to report. -/
example : ((node.attribute c!"type").1.map Attribute.inner) = some (attr c!"type" c!"x" (some c!"urn:x") 3) ∧
    node.preventUnvisitedAttributes = .err (.unsupportedAttribute c!"name" c!"element" 1) ∧
    (node.asks [c!"id", c!"name"]).preventUnvisitedAttributes = .ok () := by decide +kernel

/-- Taking two attributes and an annotation leaves the last child. -/
example : ((node.collect {}).removes [⟨c!"attribute", some nsXsd⟩, ⟨c!"annotation", some nsXsd⟩, ⟨c!"attribute", some nsXsd⟩, ⟨c!"attribute", some nsXsd⟩]).1.map
      (Option.map fun e => e.1.start) = [some 5, some 4, some 7, none] ∧
    ((node.collect {}).removes [⟨c!"attribute", some nsXsd⟩, ⟨c!"annotation", some nsXsd⟩, ⟨c!"attribute", some nsXsd⟩]).2.preventUnvisitedChildren =
      .err (.unsupportedElement c!"any" c!"element" 9) := by decide +kernel

/-- The loop over attributes. -/
example : ((node.collect {}).drain ⟨c!"attribute", some nsXsd⟩ 5).map (fun r => (r.1.map fun e => e.1.start, r.2.children.map fun e => e.1.start)) =
    some ([5, 7], [4, 9]) := by decide +kernel

/-- Finding a child by the value of an attribute. -/
example : (match node.tryFind { elementName := some c!"attribute", attributeName := some c!"name", attributeValue := some c!"q" } with
    | .ok e => some e.1.start
    | _ => none) = some 7 := by decide +kernel

/-- The namespace `urn:t` has the prefix `t`, but it is the default namespace first; prefixes are bound once. -/
example : node.tryNamespacePrefix c!"urn:t" = .err (.missingNamespace c!"urn:t" 0) ∧ node.tryNamespacePrefix nsXsd = .ok c!"xs" ∧
    node.tryNamespaceUri c!"xs" = .ok nsXsd ∧ (node.inner.1.nss.map Prod.fst).Nodup := by decide +kernel

end Example

end Xsd.NodeRs
