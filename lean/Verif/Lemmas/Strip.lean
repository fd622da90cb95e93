import Verif.Lemmas.Grammar
/-!
# Schema documents without their foreign attributes
-/
namespace Xsd

/-- The element without the attributes that have a namespace. -/
def ElemInfo.strip (i : ElemInfo) : ElemInfo := { i with attrs := i.attrs.filter (fun a => a.ns = none) }

mutual
/-- The node without the attributes that have a namespace. -/
def XNode.strip : XNode → XNode
  | .elem i cs => .elem i.strip (stripKids cs)
  | .text s => .text s
  | .other => .other
/-- The nodes without the attributes that have a namespace. -/
def stripKids : List XNode → List XNode
  | [] => []
  | n :: ns => n.strip :: stripKids ns
end

/-- The attributes that have a meaning somewhere in a schema. -/
def knownAttrs : List Str :=
  [c!"name", c!"type", c!"ref", c!"minOccurs", c!"maxOccurs", c!"fixed", c!"default", c!"form", c!"use", c!"mixed", c!"base",
   c!"value", c!"schemaLocation", c!"targetNamespace"]

/-- No attribute with a namespace has the local name of a known attribute, or of an attribute without a namespace, unless an
attribute with the same local name follows. -/
def ElemInfo.Harmless (i : ElemInfo) : Prop :=
  ∀ l a r, i.attrs = l ++ a :: r → (∀ b ∈ r, b.loc ≠ a.loc) → a.ns ≠ none →
    a.loc ∉ knownAttrs ∧ ∀ b ∈ l, b.ns = none → b.loc ≠ a.loc

/-- The element is harmless if that holds for the attributes that are kept. -/
theorem ElemInfo.harmless_of {i : ElemInfo} (h : ∀ a ∈ lastAttrs i.attrs, a.ns ≠ none →
    a.loc ∉ knownAttrs ∧ ∀ b ∈ i.attrs, b.ns = none → b.loc ≠ a.loc) : i.Harmless := by
  intro l a r he hr hn
  have h1 := h a (mem_lastAttrs he hr) hn
  exact ⟨h1.1, fun b hb => h1.2 b (he ▸ List.mem_append_left _ hb)⟩

mutual
/-- All elements are harmless. -/
def XNode.Harmless : XNode → Prop
  | .elem i cs => i.Harmless ∧ HarmlessKids cs
  | .text _ => True
  | .other => True
/-- All elements are harmless. -/
def HarmlessKids : List XNode → Prop
  | [] => True
  | n :: ns => n.Harmless ∧ HarmlessKids ns
end

/-- The node without the attributes that have a namespace. -/
def Nd.strip (nd : Nd) : Nd := ⟨nd.info.strip, stripKids nd.kids, nd.seen⟩

/-- The node and everything below it is harmless. -/
def Nd.Harmless (nd : Nd) : Prop := nd.info.Harmless ∧ HarmlessKids nd.kids

theorem Nd.Harmless.see {nd : Nd} (h : nd.Harmless) (n : Str) : (nd.see n).Harmless := h

theorem strip_see (nd : Nd) (n : Str) : (nd.see n).strip = nd.strip.see n := rfl

theorem strip_name (nd : Nd) : nd.strip.name = nd.name := rfl

theorem strip_start (nd : Nd) : nd.strip.start = nd.start := rfl

theorem strip_infoName (nd : Nd) : nd.strip.info.name = nd.info.name := rfl

theorem find?_filter_of {α : Type} {p q : α → Bool} {l : List α} (h : ∀ a ∈ l, p a = true → q a = true) :
    (l.filter q).find? p = l.find? p := by
  induction l with
  | nil => rfl
  | cons a l ih =>
    have ih := ih (fun b hb => h b (.tail _ hb))
    by_cases hq : q a = true
    · rw [List.filter_cons_of_pos hq, List.find?_cons, List.find?_cons, ih]
    · rw [List.filter_cons_of_neg hq, List.find?_cons, ih]
      have : p a = false := by
        cases hp : p a with
        | false => rfl
        | true => exact absurd (h a (.head _) hp) hq
      rw [this]

/-- Leaving out elements does not change which is found first, if the one found stays. -/
theorem find?_filter_first {α : Type} {p q : α → Bool} {l : List α} (h : ∀ a, l.find? p = some a → q a = true) :
    (l.filter q).find? p = l.find? p := by
  induction l with
  | nil => rfl
  | cons a l ih =>
    rw [List.find?_cons] at h ⊢
    by_cases hq : q a = true
    · rw [List.filter_cons_of_pos hq, List.find?_cons]
      cases hp : p a with
      | true => rfl
      | false => rw [hp] at h; exact ih h
    · rw [List.filter_cons_of_neg hq]
      cases hp : p a with
      | true => rw [hp] at h; exact absurd (h a rfl) hq
      | false => rw [hp] at h; exact ih h

theorem strip_attr {nd : Nd} (h : nd.Harmless) {n : Str} (hn : n ∈ knownAttrs) : nd.strip.attr n = nd.attr n := by
  unfold Nd.attr Nd.strip ElemInfo.strip
  simp only
  rw [← List.filter_reverse]
  apply find?_filter_first
  intro a ha
  obtain ⟨hp, as, bs, he, hb⟩ := List.find?_eq_some_iff_append.1 ha
  replace hp := of_decide_eq_true hp
  replace he := congrArg List.reverse he
  simp only [List.reverse_reverse, List.reverse_append, List.reverse_cons, List.append_assoc, List.singleton_append] at he
  apply decide_eq_true
  apply Classical.byContradiction
  intro hns
  refine (h.1 _ a _ he (fun b hbm hl => ?_) hns).1 (hp ▸ hn)
  have := hb b (List.mem_reverse.1 hbm)
  rw [decide_eq_true (hl.trans hp)] at this
  cases this

theorem lastAttrs_strip {as : List XAttr} (h : ∀ l a r, as = l ++ a :: r → (∀ b ∈ r, b.loc ≠ a.loc) → a.ns ≠ none →
    ∀ b ∈ l, b.ns = none → b.loc ≠ a.loc) :
    lastAttrs (as.filter (fun a => a.ns = none)) = (lastAttrs as).filter (fun a => a.ns = none) := by
  induction as with
  | nil => rfl
  | cons a as ih =>
    have ih := ih (fun l c r he hr hn b hb => h (a :: l) c r (by rw [he]; rfl) hr hn b (.tail _ hb))
    by_cases hns : a.ns = none
    · rw [List.filter_cons_of_pos (by simpa using hns)]
      unfold lastAttrs
      have hany : ((as.filter (fun a => a.ns = none)).any (fun b => b.loc = a.loc)) = as.any (fun b => b.loc = a.loc) := by
        rw [Bool.eq_iff_iff, List.any_eq_true, List.any_eq_true]
        constructor
        · rintro ⟨b, hb, hl⟩
          exact ⟨b, (List.mem_filter.1 hb).1, hl⟩
        · rintro ⟨b, hb, hl⟩
          obtain ⟨c, hc⟩ : ∃ c, as.reverse.find? (fun b => b.loc = a.loc) = some c :=
            Option.isSome_iff_exists.1 (List.find?_isSome.2 ⟨b, List.mem_reverse.2 hb, hl⟩)
          obtain ⟨hp, us, vs, he, hu⟩ := List.find?_eq_some_iff_append.1 hc
          have hm := List.mem_reverse.1 (List.mem_of_find?_eq_some hc)
          refine ⟨c, List.mem_filter.2 ⟨hm, decide_eq_true (Classical.byContradiction fun hcn => ?_)⟩, hp⟩
          replace hp := of_decide_eq_true hp
          replace he := congrArg List.reverse he
          simp only [List.reverse_reverse, List.reverse_append, List.reverse_cons, List.append_assoc, List.singleton_append] at he
          refine h (a :: vs.reverse) c us.reverse (by rw [he]; rfl) (fun d hd hl => ?_) hcn a (.head _) hns hp.symm
          have := hu d (List.mem_reverse.1 hd)
          rw [decide_eq_true (hl.trans hp)] at this
          cases this
      rw [hany, ih]
      split
      · rfl
      · rw [List.filter_cons_of_pos (by simpa using hns)]
    · rw [List.filter_cons_of_neg (by simpa using hns), ih]
      conv => rhs; unfold lastAttrs
      split
      · rfl
      · rw [List.filter_cons_of_neg (by simpa using hns)]

theorem strip_prevent {nd : Nd} (h : nd.Harmless) : nd.strip.preventUnvisitedAttributes = nd.preventUnvisitedAttributes := by
  unfold Nd.preventUnvisitedAttributes
  have : (lastAttrs nd.strip.info.attrs).find? (fun a => a.ns = none ∧ a.loc ∉ nd.strip.seen) =
      (lastAttrs nd.info.attrs).find? (fun a => a.ns = none ∧ a.loc ∉ nd.seen) := by
    show (lastAttrs (nd.info.attrs.filter _)).find? _ = _
    rw [lastAttrs_strip (fun l a r he hr hn => (h.1 l a r he hr hn).2)]
    apply find?_filter_of
    intro a _ hp
    exact decide_eq_true (of_decide_eq_true hp).1
  rw [this]
  rfl

theorem stripKids_cons (n : XNode) (ns : List XNode) : stripKids (n :: ns) = n.strip :: stripKids ns := by
  conv => lhs; unfold stripKids

theorem elemKids_strip (cs : List XNode) : elemKids (stripKids cs) = (elemKids cs).map (fun e => (e.1.strip, stripKids e.2)) := by
  induction cs with
  | nil => rfl
  | cons c cs ih =>
    rw [stripKids_cons]
    unfold elemKids at ih ⊢
    cases c with
    | elem i ks => exact congrArg ((i.strip, stripKids ks) :: ·) ih
    | text s => exact ih
    | other => exact ih

theorem strip_xsdKids (nd : Nd) : nd.strip.xsdKids = nd.xsdKids.map Nd.strip := by
  unfold Nd.xsdKids
  show ((elemKids (stripKids nd.kids)).filter _).map _ = _
  rw [elemKids_strip, List.filter_map, List.map_map, List.map_map]
  rfl

theorem strip_child (nd : Nd) (n : Str) : nd.strip.child n = (nd.child n).map Nd.strip := by
  unfold Nd.child
  show ((elemKids (stripKids nd.kids)).find? _).map _ = _
  rw [elemKids_strip, List.find?_map, Option.map_map, Option.map_map]
  rfl

theorem strip_text (nd : Nd) : nd.strip.text = nd.text := by
  unfold Nd.text Nd.strip
  simp only
  cases h : nd.kids with
  | nil => rfl
  | cons c cs => cases c <;> rfl

theorem strip_tryAttr {nd : Nd} (h : nd.Harmless) {n : Str} (hn : n ∈ knownAttrs) : nd.strip.tryAttr n = nd.tryAttr n := by
  unfold Nd.tryAttr
  rw [strip_attr h hn]
  rfl

theorem strip_removeKid (n : Str) (ks : List Nd) :
    removeKid n (ks.map Nd.strip) = ((removeKid n ks).1.map Nd.strip, (removeKid n ks).2.map Nd.strip) := by
  induction ks with
  | nil => rfl
  | cons k ks ih =>
    simp only [List.map_cons, removeKid, ih, strip_infoName]
    split <;> rfl

theorem strip_removeKids (n : Str) (ks : List Nd) :
    removeKids n (ks.map Nd.strip) = ((removeKids n ks).1.map Nd.strip, (removeKids n ks).2.map Nd.strip) := by
  unfold removeKids
  rw [List.filter_map, List.filter_map]
  rfl

theorem strip_preventChildren (nd : Nd) (ks : List Nd) :
    preventUnvisitedChildren nd.strip (ks.map Nd.strip) = preventUnvisitedChildren nd ks := by
  cases ks <;> rfl

theorem harmless_elemKids {cs : List XNode} (h : HarmlessKids cs) : ∀ e ∈ elemKids cs, e.1.Harmless ∧ HarmlessKids e.2 := by
  induction cs with
  | nil => nofun
  | cons c cs ih =>
    unfold HarmlessKids at h
    intro e he
    unfold elemKids at he ih
    cases c with
    | elem i ks =>
      rcases List.mem_cons.1 he with rfl | he
      · have := h.1; unfold XNode.Harmless at this; exact this
      · exact ih h.2 e he
    | text s => exact ih h.2 e he
    | other => exact ih h.2 e he

theorem Nd.Harmless.kids {nd : Nd} (h : nd.Harmless) : ∀ c ∈ nd.xsdKids, c.Harmless := by
  intro c hc
  obtain ⟨e, he, rfl⟩ := List.mem_map.1 hc
  exact harmless_elemKids h.2 e (List.mem_filter.1 he).1

theorem Nd.Harmless.child {nd c : Nd} {n : Str} (h : nd.Harmless) (hc : nd.child n = some c) : c.Harmless := by
  unfold Nd.child at hc
  obtain ⟨e, he, rfl⟩ := Option.map_eq_some_iff.1 hc
  exact harmless_elemKids h.2 e (List.mem_of_find?_eq_some he)

theorem removeKid_harmless {n : Str} {ks : List Nd} (h : ∀ c ∈ ks, c.Harmless) :
    (∀ c, (removeKid n ks).1 = some c → c.Harmless) ∧ ∀ c ∈ (removeKid n ks).2, c.Harmless :=
  ⟨fun c hc => h c (rk_name hc).2, fun c hc => h c (rk_rest hc)⟩

mutual
theorem XNode.strip_depth : ∀ n : XNode, n.strip.depth = n.depth
  | .elem i cs => by
    unfold XNode.strip XNode.depth
    rw [stripKids_depth cs]
  | .text s => rfl
  | .other => rfl
theorem stripKids_depth : ∀ cs : List XNode, kidsDepth (stripKids cs) = kidsDepth cs
  | [] => rfl
  | n :: ns => by
    unfold stripKids kidsDepth
    rw [XNode.strip_depth n, stripKids_depth ns]
end

end Xsd
