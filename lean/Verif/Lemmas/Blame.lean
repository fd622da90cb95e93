import Verif.Lemmas.Terminates
import Verif.Spec.Blame
import Verif.Props.SchemaParts
/-!
# Errors of the parser name a node of the document
-/
namespace Xsd

theorem Inside.trans {a b c : Elem} (h : Inside a b) (h' : Inside b c) : Inside a c := by
  induction h with
  | refl => exact h'
  | kid hk _ ih => exact .kid hk (ih h')

/-- The element of a node. -/
def Nd.elem (nd : Nd) : Elem := (nd.info, nd.kids)

/-- The error is about an element of the document. -/
def BlamesIn (x : Ext) (root : Elem) (err : XErr) : Prop := ∃ e, Inside root e ∧ Blames x root err e

/-- The context has the namespaces that are declared at the root element. -/
structure Declared (root : Elem) (s : PCtx) : Prop where
  mem : ∀ p u, alookup s.docNss p = some u → (some p, u) ∈ root.1.nss
  none : ∀ p, alookup s.docNss p = none → ∀ u, (some p, u) ∉ root.1.nss
  default : ∀ u, s.defaultNs = some u → (Option.none, u) ∈ root.1.nss
  noDefault : s.defaultNs = Option.none → ∀ u, (Option.none, u) ∉ root.1.nss

/-- All errors are about the document, and the declared namespaces are kept. -/
def P.Err {α : Type} (x : Ext) (root : Elem) (m : P α) : Prop :=
  ∀ s, Declared root s → (∀ e, m s = .err e → BlamesIn x root e) ∧ ∀ a s', m s = .ok (a, s') → Declared root s'

/-- All errors are about the document. -/
def Res.Err {α : Type} (x : Ext) (root : Elem) (m : Res XErr α) : Prop := ∀ e, m = .err e → BlamesIn x root e

namespace P.Err
variable {α β : Type} {x : Ext} {root : Elem}

theorem bind {m : P α} {f : α → P β} (hm : m.Err x root) (hf : ∀ s a s', Declared root s → m s = .ok (a, s') → (f a).Err x root) :
    (m >>= f).Err x root := by
  intro s hs
  refine ⟨fun e h => ?_, fun b s'' h => ?_⟩ <;> change P.bnd m f s = _ at h <;> unfold P.bnd at h <;> split at h
  · next hh => exact (hf _ _ _ hs hh _ ((hm s hs).2 _ _ hh)).1 _ h
  · next hh => cases h; exact (hm s hs).1 _ hh
  · cases h
  · cases h
  · next hh => exact (hf _ _ _ hs hh _ ((hm s hs).2 _ _ hh)).2 _ _ h
  · cases h
  · cases h
  · cases h

theorem bind' {m : P α} {f : α → P β} (hm : m.Err x root) (hf : ∀ a, (f a).Err x root) : (m >>= f).Err x root := bind hm fun _ a _ _ _ => hf a

theorem pure (a : α) : (Pure.pure a : P α).Err x root := fun s hs => ⟨fun e h => (by cases h), fun a s' h => (by cases h; exact hs)⟩

theorem fail {e : XErr} (h : BlamesIn x root e) : (P.fail e : P α).Err x root :=
  fun s hs => ⟨fun e h' => (by cases h'; exact h), fun a s' h => (by cases h)⟩

theorem lift {r : Res XErr α} (h : r.Err x root) : (P.lift r).Err x root := by
  intro s hs
  refine ⟨fun e hr => ?_, fun a s' hr => ?_⟩ <;> unfold P.lift at hr <;> split at hr
  · cases hr
  · cases hr; exact h _ rfl
  · cases hr
  · cases hr
  · cases hr; exact hs
  · cases hr
  · cases hr
  · cases hr

theorem modify {f : PCtx → PCtx} (h : ∀ s, (f s).docNss = s.docNss ∧ (f s).defaultNs = s.defaultNs) : (P.modify f).Err x root := by
  intro s hs
  refine ⟨fun e h => (by cases h), fun a s' h' => ?_⟩
  cases h'
  obtain ⟨h1, h2⟩ := h s
  exact ⟨h1 ▸ hs.mem, h1 ▸ hs.none, h2 ▸ hs.default, h2 ▸ hs.noDefault⟩

theorem nodeName (n : Str) : (nodeName n).Err x root := fun s hs => ⟨fun e h => (by cases h), fun a s' h => (by cases h; exact hs)⟩

/-- After a step that does not depend on the context. -/
theorem bindL {r : Res XErr α} {f : α → P β} (hm : r.Err x root) (hf : ∀ a, r = .ok a → (f a).Err x root) : (P.lift r >>= f).Err x root :=
  bind (lift hm) fun _ a _ _ h => hf a (P.lift_ok.1 h).1

end P.Err

namespace Res.Err
variable {α β : Type} {x : Ext} {root : Elem}

theorem bind {m : Res XErr α} {f : α → Res XErr β} (hm : m.Err x root) (hf : ∀ a, m = .ok a → (f a).Err x root) : (m >>= f).Err x root := by
  intro e h
  cases m with
  | ok a => exact hf a rfl e h
  | err e' => cases h; exact hm _ rfl
  | panic => cases h
  | diverge => cases h

theorem pure (a : α) : (Pure.pure a : Res XErr α).Err x root := by intro e h; cases h

end Res.Err

theorem attr_some {nd : Nd} {n : Str} {a : XAttr} (h : nd.attr n = some a) : a ∈ nd.info.attrs ∧ a.loc = n := by
  unfold Nd.attr at h
  exact ⟨List.mem_reverse.1 (List.mem_of_find?_eq_some h), of_decide_eq_true (List.find?_some (p := fun a : XAttr => decide (a.loc = n)) h)⟩

theorem attr_none {nd : Nd} {n : Str} (h : nd.attr n = none) : ∀ a ∈ nd.info.attrs, a.loc ≠ n := by
  unfold Nd.attr at h
  rw [List.find?_eq_none] at h
  intro a ha hn
  exact h a (List.mem_reverse.2 ha) (decide_eq_true hn)

theorem mem_of_lastAttrs {a : XAttr} : ∀ {as : List XAttr}, a ∈ lastAttrs as → a ∈ as
  | b :: as, h => by
    unfold lastAttrs at h
    split at h
    · exact .tail _ (mem_of_lastAttrs h)
    · rcases List.mem_cons.1 h with rfl | h
      · exact .head _
      · exact .tail _ (mem_of_lastAttrs h)

theorem mem_kids_xsd {nd : Nd} {i : ElemInfo} {cs : List XNode} (h : XNode.elem i cs ∈ nd.kids) (hn : i.name.ns = some nsXsd) :
    Nd.of (i, cs) ∈ nd.xsdKids :=
  List.mem_map.2 ⟨(i, cs), List.mem_filter.2 ⟨List.mem_filterMap.2 ⟨_, h, rfl⟩, decide_eq_true hn⟩, rfl⟩

/-- All attributes with a meaning were looked at, but for some. -/
def Heard (r : Elem) (nd : Nd) (extra : List Str) : Prop :=
  ∃ f, ParentOf r f nd.elem ∧ ∀ n, AttrMeaning r.1.nss f nd.elem n → n ∈ nd.seen ∨ n ∈ extra

theorem Heard.inside {r : Elem} {nd : Nd} {l : List Str} (h : Heard r nd l) : Inside r nd.elem := by
  obtain ⟨f, ⟨h1, h2⟩, _⟩ := h
  exact h1.trans (.kid h2 (.refl _))

theorem Heard.see {r : Elem} {nd : Nd} {n : Str} {l : List Str} (h : Heard r nd (n :: l)) : Heard r (nd.see n) l := by
  obtain ⟨f, h1, h2⟩ := h
  refine ⟨f, h1, fun m hm => ?_⟩
  rcases h2 m hm with h | h
  · exact .inl (.tail _ h)
  · rcases List.mem_cons.1 h with rfl | h
    · exact .inl (.head _)
    · exact .inr h

theorem Heard.weaken {r : Elem} {nd : Nd} {l l' : List Str} (h : Heard r nd l) (hl : ∀ n ∈ l, n ∈ l') : Heard r nd l' := by
  obtain ⟨f, h1, h2⟩ := h
  exact ⟨f, h1, fun m hm => (h2 m hm).imp_right (hl m)⟩

theorem parentOf {root : Elem} {nd c : Nd} (hin : Inside root nd.elem) (h : c ∈ nd.xsdKids) : ParentOf root nd.elem c.elem := by
  obtain ⟨e, he, rfl, _⟩ := mem_xsdKids h
  exact ⟨hin, he⟩

theorem heard_kid {root : Elem} {nd c : Nd} {l : List Str} (hin : Inside root nd.elem) (h : c ∈ nd.xsdKids)
    (hm : ∀ n, AttrMeaning root.1.nss nd.elem c.elem n → n ∈ l) : Heard root c l :=
  ⟨nd.elem, parentOf hin h, fun n hn => .inr (hm n hn)⟩

/-- An annotation has no attributes with a meaning. -/
theorem heard_annotation {root : Elem} {nd c : Nd} (hin : Inside root nd.elem) (h : c ∈ nd.xsdKids) (hn : c.name = c!"annotation") :
    Heard root c [] := by
  refine heard_kid hin h fun n hm => ?_
  change c.elem.1.name.loc = _ at hn
  cases hm <;> simp_all [attrMeanings]

/-- The child stays, and is not the first of those with the names. -/
structure Rest (ks rest : List Nd) (ns : List Str) : Prop where
  xsd : ∀ k ∈ ks, k.info.name.ns = some nsXsd
  sub : rest.Sublist ks
  later : ∀ k ∈ rest, k.name ∈ ns → ∃ c, c.name = k.name ∧ [c, k].Sublist ks

theorem Rest.of (nd : Nd) : Rest nd.xsdKids nd.xsdKids [] :=
  ⟨fun k hk => (mem_xsdKids hk).elim fun _ h => h.2.2, .refl _, fun _ _ h => (by cases h)⟩

theorem Rest.mem {ks rest : List Nd} {ns : List Str} (h : Rest ks rest ns) {k : Nd} (hk : k ∈ rest) : k ∈ ks := h.sub.mem hk

theorem Rest.name {ks rest : List Nd} {ns : List Str} (h : Rest ks rest ns) {k : Nd} (hk : k ∈ rest) : k.info.name = ⟨k.name, some nsXsd⟩ := by
  have := h.xsd k (h.mem hk)
  unfold Nd.name
  rw [← this]

theorem Rest.filter {ks rest : List Nd} {ns : List Str} (h : Rest ks rest ns) (p : Nd → Bool) : Rest ks (rest.filter p) ns :=
  ⟨h.xsd, List.filter_sublist.trans h.sub, fun k hk => h.later k (List.mem_filter.1 hk).1⟩

theorem Rest.none {ks rest : List Nd} {ns : List Str} (h : Rest ks rest ns) {n : Str} {r : List Nd} (hr : removeKid n rest = (.none, r)) :
    Rest ks rest (n :: ns) := by
  refine ⟨h.xsd, h.sub, fun k hk hn => ?_⟩
  rcases List.mem_cons.1 hn with rfl | hn
  · exact absurd (h.name hk) ((removeKid_none hr).2 k hk)
  · exact h.later k hk hn

theorem Rest.some {ks rest : List Nd} {ns : List Str} (h : Rest ks rest ns) {n : Str} {c : Nd} {r : List Nd} (hr : removeKid n rest = (.some c, r)) :
    Rest ks r (n :: ns) := by
  obtain ⟨a, b, rfl, rfl, hc, ha⟩ := removeKid_some hr
  have hs : (a ++ b).Sublist (a ++ c :: b) := List.Sublist.append_left (List.sublist_cons_self _ _) _
  refine ⟨h.xsd, hs.trans h.sub, fun k hk hn => ?_⟩
  have hk' := hs.mem hk
  rcases List.mem_cons.1 hn with hn | hn
  · refine ⟨c, (congrArg QName.loc hc).trans hn.symm, .trans ?_ h.sub⟩
    have hkn : k.info.name = ⟨n, Option.some nsXsd⟩ := hn ▸ h.name hk'
    rcases List.mem_append.1 hk with hk | hk
    · exact absurd hkn (ha k hk)
    · exact ((List.singleton_sublist.2 hk).cons_cons c).trans (List.sublist_append_right a (c :: b))
  · exact h.later k hk' hn

theorem Rest.remove {ks rest : List Nd} {ns : List Str} (h : Rest ks rest ns) (n : Str) : Rest ks (removeKid n rest).2 (n :: ns) := by
  obtain ⟨o, r, hr⟩ : ∃ o r, removeKid n rest = (o, r) := ⟨_, _, rfl⟩
  rw [hr]
  cases o with
  | none => exact (removeKid_none hr).1 ▸ h.none hr
  | some c => exact h.some hr

/-- The child has no meaning in the node. -/
def Refused (root : Elem) (nd k : Nd) : Prop :=
  k ∈ nd.xsdKids ∧ ¬ ChildMeaning nd.elem k.name ∧
    ∃ f, ParentOf root f nd.elem ∧ (FirstMeaning f nd.elem k.name → ∃ c, c.name = k.name ∧ [c, k].Sublist nd.xsdKids)

theorem Rest.refused {root f : Elem} {nd : Nd} {ks : List Nd} {ns : List Str} (h : Rest nd.xsdKids ks ns) (hf : ParentOf root f nd.elem)
    (h1 : ∀ n, ChildMeaning nd.elem n → ∀ k ∈ ks, k.name ≠ n) (h2 : ∀ n, FirstMeaning f nd.elem n → n ∈ ns) : ∀ k ∈ ks, Refused root nd k :=
  fun k hk => ⟨h.mem hk, fun hm => h1 _ hm k hk rfl, f, hf, fun hm => h.later k hk (h2 _ hm)⟩

/-- The node of the document. -/
def Nd.node (nd : Nd) : XNode := .elem nd.info nd.kids

theorem xsdKids_sublist (nd : Nd) : (nd.xsdKids.map Nd.node).Sublist nd.kids := by
  unfold Nd.xsdKids elemKids
  rw [List.map_map]
  refine ((List.filter_sublist (l := nd.kids.filterMap _)).map _).trans ?_
  rw [List.map_filterMap]
  induction nd.kids with
  | nil => exact .slnil
  | cons m ms ih =>
    cases m with
    | elem i cs => exact ih.cons_cons _
    | text s => exact ih.cons _
    | other => exact ih.cons _

theorem sublist_pair {α : Type} {a b : α} {l : List α} (h : [a, b].Sublist l) : ∃ u v, l = u ++ b :: v ∧ a ∈ u := by
  induction l with
  | nil => cases h
  | cons c l ih =>
    cases h with
    | cons _ h =>
      obtain ⟨u, v, rfl, hu⟩ := ih h
      exact ⟨c :: u, v, rfl, .tail _ hu⟩
    | cons_cons _ h =>
      obtain ⟨u, v, rfl⟩ := List.append_of_mem (List.singleton_sublist.1 h)
      exact ⟨_ :: u, v, rfl, .head _⟩

theorem hasChild {nd c : Nd} {n : Str} (h : c ∈ nd.xsdKids) (hn : c.name = n) : HasChild nd.elem n := by
  obtain ⟨e, he, rfl, hx⟩ := mem_xsdKids h
  refine ⟨e.1, e.2, he, ?_⟩
  show e.1.name = _
  rw [← hn, ← hx]
  rfl

section
variable {x : Ext} {root : Elem} {nd : Nd} (hin : Inside root nd.elem)
include hin

theorem inside_kid {c : Nd} (h : c ∈ nd.xsdKids) : Inside root c.elem := by
  obtain ⟨e, he, rfl, _⟩ := mem_xsdKids h
  exact hin.trans (.kid he (.refl _))

omit hin in
theorem preventUnvisitedAttributes_err (hh : Heard root nd []) : nd.preventUnvisitedAttributes.Err x root := by
  intro e h
  have hin := hh.inside
  obtain ⟨f, hf, hm⟩ := hh
  unfold Nd.preventUnvisitedAttributes at h
  split at h
  · next a ha =>
    cases h
    have h2 := List.find?_some ha
    simp only [decide_eq_true_eq] at h2
    exact ⟨_, hin, rfl, ⟨a, mem_of_lastAttrs (List.mem_of_find?_eq_some ha), rfl, h2.1, rfl⟩, f, hf, fun h =>
      (hm _ h).elim h2.2 (fun h => by cases h)⟩
  · cases h

theorem preventUnvisitedChildren_err {ks : List Nd} (hk : ∀ k ∈ ks, Refused root nd k) : (preventUnvisitedChildren nd ks).Err x root := by
  intro e h
  cases ks with
  | nil => cases h
  | cons k ks =>
    cases h
    obtain ⟨h1, h2, f, hf, h3⟩ := hk k (.head _)
    have hn := (mem_xsdKids h1).elim fun _ h => h.2.2
    have hname : k.info.name = ⟨k.name, some nsXsd⟩ := by unfold Nd.name; rw [← hn]
    by_cases hfm : FirstMeaning f nd.elem k.name
    · obtain ⟨c, hc, hs⟩ := h3 hfm
      obtain ⟨u, v, hu, hcu⟩ := sublist_pair (a := c.node) (b := k.node) ((hs.map Nd.node).trans (xsdKids_sublist nd))
      have hcn := (mem_xsdKids (hs.mem (.head _))).elim fun _ h => h.2.2
      exact ⟨_, hin, rfl, u, k.info, k.kids, v, hu, hname, rfl, h2, f, hf, fun _ => ⟨_, _, hcu, by rw [← hc, ← hcn]; rfl⟩⟩
    · obtain ⟨u, v, hu⟩ := List.append_of_mem ((xsdKids_sublist nd).mem (List.mem_map_of_mem h1))
      exact ⟨_, hin, rfl, u, k.info, k.kids, v, hu, hname, rfl, h2, f, hf, fun h => absurd h hfm⟩

theorem tryAttr_err (n : Str) : (nd.tryAttr n).Err x root := by
  intro e h
  unfold Nd.tryAttr at h
  split at h
  · cases h
  · next hn => cases h; exact ⟨_, hin, rfl, rfl, attr_none hn⟩

theorem tryRemoveKid_err {n : Str} {ks : List Nd} (hk : ∀ k ∈ nd.xsdKids, k.info.name = ⟨n, some nsXsd⟩ → k ∈ ks) :
    (tryRemoveKid nd n ks).Err x root := by
  intro e h
  unfold tryRemoveKid at h
  split at h
  · cases h
  · next hr =>
    cases h
    refine ⟨_, hin, rfl, fun i cs hi hn => ?_⟩
    have := hk _ (mem_kids_xsd hi (by rw [hn])) hn
    exact (removeKid_none hr).2 _ this hn

theorem tryText_err : nd.tryText.Err x root := by
  intro e h
  unfold Nd.tryText at h
  split at h
  · cases h
  · next hn =>
    cases h
    refine ⟨_, hin, rfl, rfl, fun t rest ht => ?_⟩
    unfold Nd.text at hn
    change nd.kids = _ at ht
    rw [ht] at hn
    cases hn

end

theorem parseAnnotation_err {root : Elem} {o : Option Nd} (x : Ext) (h : ∀ nd, o = some nd → nd.name = c!"annotation" ∧ Heard root nd []) :
    (parseAnnotation x o).Err x root := by
  cases o with
  | none => intro e h; cases h
  | some nd =>
    obtain ⟨hname, hh⟩ := h nd rfl
    have hin := hh.inside
    show (parseAnnotation1 x nd).Err x root
    unfold parseAnnotation1
    obtain ⟨f, hf, _⟩ := id hh
    have hR := (Rest.of nd).remove c!"documentation"
    refine .bind ?_ fun _ _ => .bind (preventUnvisitedChildren_err hin ((hR.filter _).refused hf ?_ ?_)) fun _ _ =>
      .bind (preventUnvisitedAttributes_err hh) fun _ _ => .pure _
    · split
      · next d hd => exact .bind (tryText_err (inside_kid hin (removeKid_mem (Prod.ext hd rfl)))) fun _ _ => .pure _
      · exact .pure _
    · intro n hm k hk hn
      obtain ⟨hk, hne⟩ := List.mem_filter.1 hk
      have hk := hR.name hk
      change nd.elem.1.name.loc = _ at hname
      cases hm <;> simp_all
    · intro n hm
      change nd.elem.1.name.loc = _ at hname
      cases hm <;> simp_all

theorem child_xsd {nd c : Nd} {n : Str} (h : nd.child n = some c) : c ∈ nd.xsdKids ∧ c.name = n := by
  unfold Nd.child at h
  rw [Option.map_eq_some_iff] at h
  obtain ⟨e, he, rfl⟩ := h
  have hn := List.find?_some he
  obtain ⟨m, hm, he'⟩ := List.mem_filterMap.1 (List.mem_of_find?_eq_some he)
  have hn : e.1.name = ⟨n, some nsXsd⟩ := by
    have hn : e.1.name.loc = n ∧ e.1.name.ns = some nsXsd := by simpa [Elem.is] using hn
    rw [← hn.1, ← hn.2]
  cases m with
  | elem i cs => cases he'; exact ⟨mem_kids_xsd hm (by rw [hn]), congrArg QName.loc hn⟩
  | text _ => cases he'
  | other => cases he'

theorem removeKid_named {n : Str} {ks rest : List Nd} {c : Nd} (h : removeKid n ks = (some c, rest)) : c.name = n := by
  obtain ⟨_, _, _, _, hn, _⟩ := removeKid_some h
  exact congrArg QName.loc hn

theorem removed_inside {root : Elem} {nd : Nd} {n : Str} (hin : Inside root nd.elem) : ∀ c, (removeKid n nd.xsdKids).1 = some c → Inside root c.elem :=
  fun _ h => inside_kid hin (removeKid_mem (Prod.ext h rfl))

theorem child_annotation {root : Elem} {nd : Nd} (hin : Inside root nd.elem) :
    ∀ c, nd.child c!"annotation" = some c → c.name = c!"annotation" ∧ Heard root c [] :=
  fun _ h => ⟨(child_xsd h).2, heard_annotation hin (child_xsd h).1 (child_xsd h).2⟩

theorem removed_annotation {root : Elem} {nd : Nd} (hin : Inside root nd.elem) :
    ∀ c, (removeKid c!"annotation" nd.xsdKids).1 = some c → c.name = c!"annotation" ∧ Heard root c [] :=
  fun _ h => ⟨removeKid_named (Prod.ext h rfl), heard_annotation hin (removeKid_mem (Prod.ext h rfl)) (removeKid_named (Prod.ext h rfl))⟩

/-- What remains after the annotation was removed are the other children. -/
theorem removeKid_other {n m : Str} {ks : List Nd} (hne : n ≠ m) {k : Nd} (hk : k ∈ ks) (hn : k.info.name = ⟨m, some nsXsd⟩) : k ∈ (removeKid n ks).2 := by
  obtain ⟨o, rest, hr⟩ : ∃ o r, removeKid n ks = (o, r) := ⟨_, _, rfl⟩
  rw [hr]
  cases o with
  | none => exact (removeKid_none hr).1 ▸ hk
  | some c =>
    obtain ⟨a, b, rfl, rfl, hc, _⟩ := removeKid_some hr
    rcases List.mem_append.1 hk with h | h
    · exact List.mem_append_left _ h
    · rcases List.mem_cons.1 h with rfl | h
      · rw [hc] at hn; cases hn; exact absurd rfl hne
      · exact List.mem_append_right _ h

/-- An attribute of an element of the document. -/
def AttrIn (root : Elem) (a : XAttr) : Prop := ∃ e, Inside root e ∧ a ∈ e.1.attrs

theorem attrIn {root : Elem} {nd : Nd} {n : Str} {a : XAttr} (hin : Inside root nd.elem) (h : nd.attr n = some a) : AttrIn root a :=
  ⟨_, hin, (attr_some h).1⟩

theorem splitn2_some {v p n : Str} (h : splitn2 v = (p, some n)) : v = p ++ ':' :: n := by
  induction v generalizing p with
  | nil => cases h
  | cons c v ih =>
    unfold splitn2 at h
    split at h
    · next hc => cases h; rw [hc]; rfl
    · obtain ⟨h1, h2⟩ := Prod.mk.inj h
      rw [← h1, List.cons_append, ← ih (p := (splitn2 v).1) (Prod.ext rfl h2)]

theorem splitn2_none {v n : Str} (h : splitn2 v = (n, none)) : v = n := by
  induction v generalizing n with
  | nil => cases h; rfl
  | cons c v ih =>
    unfold splitn2 at h
    split at h
    · cases h
    · obtain ⟨h1, h2⟩ := Prod.mk.inj h
      rw [← h1, ← ih (n := (splitn2 v).1) (Prod.ext rfl h2)]

theorem literalOr_err {x : Ext} {root : Elem} {a : XAttr} {n : Str} (h : AttrIn root a) (hv : InXsd root.1.nss a.value n) :
    (literalOr n a).Err x root := by
  intro e he
  unfold literalOr at he
  split at he
  · cases he
  · next hl =>
    cases he
    obtain ⟨el, h1, h2⟩ := h
    refine ⟨el, h1, a, h2, rfl, hv, fun t ht => ?_⟩
    rw [(literalFromStr_builtin n t).2 ht] at hl
    cases hl

theorem splitn2_bare {v n : Str} (h : splitn2 v = (n, none)) : v = n ∧ ':' ∉ v := by
  refine ⟨splitn2_none h, fun hc => splitn2_colon hc _ h⟩

theorem getTypeName_err {x : Ext} {root : Elem} {a : XAttr} (h : AttrIn root a) : (getTypeName a).Err x root := by
  intro s hd
  refine ⟨fun e he => ?_, fun c s' he => ?_⟩
  · unfold getTypeName at he
    split at he
    · next hs =>
      have hv := splitn2_prefixed.1 hs
      split at he
      · next hn =>
        cases he
        obtain ⟨el, h1, h2⟩ := h
        exact ⟨el, h1, a, h2, rfl, ⟨_, hv⟩, hd.none _ hn⟩
      · next hn =>
        split at he
        · next hu => exact (P.Err.lift (literalOr_err h (.inl ⟨_, hv, hu ▸ hd.mem _ _ hn⟩)) _ hd).1 _ he
        · cases he
    · next hs =>
      obtain ⟨rfl, hv⟩ := splitn2_bare hs
      split at he
      · next hu => exact (P.Err.lift (literalOr_err h (.inr ⟨rfl, hv, hd.default _ hu⟩)) _ hd).1 _ he
      · cases he
  · unfold getTypeName at he
    split at he
    · split at he
      · cases he
      · split at he
        · rw [P.lift_ok] at he; exact he.2 ▸ hd
        · cases he; exact ⟨hd.mem, hd.none, hd.default, hd.noDefault⟩
    · split at he
      · rw [P.lift_ok] at he; exact he.2 ▸ hd
      · cases he; exact hd

/-- What the value of the attribute names. -/
theorem getTypeName_names {root : Elem} {a : XAttr} {s s' : PCtx} {c : LeafContent} (hd : Declared root s) (h : getTypeName a s = .ok (c, s')) :
    (∃ t n, c = .literal t ∧ InXsd root.1.nss a.value n) ∨ (∃ n, c = .named n ∧ OutsideXsd root.1.nss a.value) := by
  have lit : ∀ {n}, InXsd root.1.nss a.value n → P.lift (literalOr n a) s = .ok (c, s') → ∃ t n, c = .literal t ∧ InXsd root.1.nss a.value n := by
    intro n hn h
    obtain ⟨h, _⟩ := P.lift_ok.1 h
    unfold literalOr at h
    split at h <;> cases h
    exact ⟨_, _, rfl, hn⟩
  unfold getTypeName at h
  split at h
  · next hs =>
    have hv := splitn2_prefixed.1 hs
    split at h
    · cases h
    · next hn =>
      split at h
      · next hu => exact .inl (lit (.inl ⟨_, hv, hu ▸ hd.mem _ _ hn⟩) h)
      · next hu => cases h; exact .inr ⟨_, rfl, .inl ⟨_, _, _, hv, hd.mem _ _ hn, hu⟩⟩
  · next hs =>
    obtain ⟨rfl, hv⟩ := splitn2_bare hs
    split at h
    · next hu => exact .inl (lit (.inr ⟨rfl, hv, hd.default _ hu⟩) h)
    · next hu =>
      cases h
      refine .inr ⟨_, rfl, .inr ⟨hv, ?_⟩⟩
      cases hdef : s.defaultNs with
      | none => exact .inl (hd.noDefault hdef)
      | some u => exact .inr ⟨u, hd.default _ hdef, fun hu' => hu (by rw [hdef, hu'])⟩

theorem unsupported_kid {root : Elem} {nd c : Nd} {ns : List Str} (hin : Inside root nd.elem) (hc : c ∈ nd.xsdKids)
    (hn : (nd.name, ns) ∈ supportedIn) (hu : c.name ∉ ns) : UnsupportedHere root c.elem := by
  obtain ⟨e, he, rfl, _⟩ := mem_xsdKids hc
  exact .inr ⟨nd.elem, ns, hin, he, hn, hu⟩

theorem not_unsigned {hi : Nat} {s : Str} (h : parseInt false 0 hi s = none) (n : Nat) : ¬ Unsigned hi s n := by
  intro hu
  obtain ⟨i, hi, _⟩ := parseUInt_ok.2 hu
  rw [hi] at h
  cases h

theorem parseMinOccurs_err {x : Ext} {root : Elem} {nd : Nd} (hin : Inside root nd.elem) : (parseMinOccurs (nd.attr c!"minOccurs")).Err x root := by
  intro e h
  cases ha : nd.attr c!"minOccurs" with
  | none => rw [ha] at h; cases h
  | some a =>
    rw [ha] at h
    change parseU32 a = _ at h
    unfold parseU32 at h
    split at h
    · cases h
    · next hp => cases h; exact ⟨_, hin, a, (attr_some ha).1, rfl, .inr ⟨.inl (attr_some ha).2, not_unsigned hp⟩⟩

theorem parseMaxOccurs_err {x : Ext} {root : Elem} {nd : Nd} (hin : Inside root nd.elem) : (parseMaxOccurs (nd.attr c!"maxOccurs")).Err x root := by
  intro e h
  cases ha : nd.attr c!"maxOccurs" with
  | none => rw [ha] at h; cases h
  | some a =>
    rw [ha] at h
    change (if _ then _ else _ : Res XErr MaxOccurs) = _ at h
    split at h
    · cases h
    · next hub =>
      refine Res.Err.bind (x := x) (root := root) ?_ (fun _ _ => .pure _) e h
      intro e h
      unfold parseU32 at h
      split at h
      · cases h
      · next hp => cases h; exact ⟨_, hin, a, (attr_some ha).1, rfl, .inr ⟨.inr ⟨(attr_some ha).2, hub⟩, not_unsigned hp⟩⟩

theorem parseUsize_err {x : Ext} {root : Elem} {nd : Nd} {a : XAttr} (hin : Inside root nd.elem) (ha : nd.attr c!"value" = some a) :
    (parseUsize a).Err x root := by
  intro e h
  unfold parseUsize at h
  split at h
  · cases h
  · next hp => cases h; exact ⟨_, hin, a, (attr_some ha).1, rfl, .inl ⟨(attr_some ha).2, not_unsigned hp⟩⟩

theorem parseDec_err {root : Elem} {nd : Nd} {a : XAttr} (x : Ext) (hin : Inside root nd.elem) (ha : nd.attr c!"value" = some a) :
    (parseDec x a).Err x root := by
  intro e h
  unfold parseDec at h
  split at h
  · cases h
  · next hp => cases h; exact ⟨_, hin, a, (attr_some ha).1, rfl, (attr_some ha).2, hp⟩

theorem parseFacet_err {root : Elem} {c : Nd} (x : Ext) (hin : Inside root c.elem)
    (hu : c.name ∉ [c!"enumeration", c!"length", c!"minLength", c!"maxLength", c!"pattern", c!"minInclusive", c!"maxInclusive",
      c!"fractionDigits", c!"totalDigits"] → UnsupportedHere root c.elem) : (parseFacet x c).Err x root := by
  unfold parseFacet
  repeat' split
  all_goals first
    | (refine .bind (tryAttr_err hin _) fun a ha => ?_
       rw [tryAttr_ok] at ha
       first
         | exact .pure _
         | exact .bind (parseUsize_err hin ha) fun _ _ => .pure _
         | exact .bind (parseDec_err x hin ha) fun _ _ => .pure _)
    | (intro e h; cases h; exact ⟨_, hin, rfl, rfl, hu (by simp_all)⟩)

theorem parseFacets_err {root : Elem} (x : Ext) : ∀ {cs : List Nd}, (∀ c ∈ cs, (parseFacet x c).Err x root) → (parseFacets x cs).Err x root
  | [], _ => by intro e h; cases h
  | c :: _, h => .bind (h c (.head _)) fun _ _ => .bind (parseFacets_err x fun d hd => h d (.tail _ hd)) fun _ _ => .pure _

section
variable (x : Ext) {root : Elem}

theorem deriveVirtualName_err (ns : List Name) (b : Bool) : (deriveVirtualName x ns b).Err x root := by
  intro s hs
  refine ⟨fun e h => ?_, fun a s' h => ?_⟩ <;> unfold deriveVirtualName at h <;> split at h <;> cases h
  exact hs

theorem addRoot_err (n : Name) (r : Root) : (addRoot n r).Err x root := P.Err.modify fun _ => ⟨rfl, rfl⟩

theorem discoverType_err (n p : Name) : (discoverType n p).Err x root := P.Err.modify fun _ => ⟨rfl, rfl⟩

theorem addGroup_err (p : Name) (ms : List Leaf) (sf : List Name) (r : Root) (docs : Option Str) (mn : Nat) (mx : MaxOccurs) :
    (addGroup x p ms sf r docs mn mx).Err x root :=
  .bind' (deriveVirtualName_err x _ _) fun _ => .bind' (deriveVirtualName_err x _ _) fun _ => .bind' (addRoot_err x _ _) fun _ =>
    .bind' (discoverType_err x _ _) fun _ => .pure _

theorem parseSimpleType_err {nd : Nd} (hst : nd.name = c!"simpleType") (hh : Heard root nd []) : (parseSimpleType x nd).Err x root := by
  have hin := hh.inside
  unfold parseSimpleType
  refine .bind' (.lift (preventUnvisitedAttributes_err hh)) fun _ => .bind' (.lift (parseAnnotation_err x (removed_annotation hin))) fun _ =>
    .bindL (tryRemoveKid_err hin fun k hk hn => removeKid_other (by decide) hk hn) fun a ha => ?_
  obtain ⟨r, rest⟩ := a
  rw [tryRemoveKid_ok] at ha
  have hr := inside_kid hin (removeKid_rest_mem (removeKid_mem ha))
  refine .bindL (tryAttr_err hr _) fun b hb => ?_
  rw [tryAttr_ok] at hb
  refine .bind (getTypeName_err (attrIn hr hb)) fun s c s' hd hc => ?_
  have hname : r.name = c!"restriction" := by
    obtain ⟨_, _, _, _, hn, _⟩ := removeKid_some ha
    exact congrArg QName.loc hn
  have hbad : OutsideXsd root.1.nss b.value → BlamesIn x root (.unsupportedAttributeValue c!"base" b.value c!"restriction" b.start) :=
    fun h => ⟨_, hr, hname, b, (attr_some hb).1, (attr_some hb).2, rfl, .inl rfl, .inr (.inr (.inl ⟨rfl, rfl, h⟩))⟩
  have hnames := getTypeName_names hd hc
  cases c with
  | literal t =>
    obtain ⟨f, hf, _⟩ := hh
    change nd.elem.1.name.loc = _ at hst
    refine .bind' (.lift (preventUnvisitedChildren_err hin ((((Rest.of nd).remove c!"annotation").some ha).refused hf ?_ ?_))) fun _ =>
      .bind' (.lift (parseFacets_err x fun c hc => parseFacet_err x (inside_kid hr hc) fun hu =>
        unsupported_kid hr hc (by rw [hname]; simp [supportedIn]) hu)) fun a => .pure _
    · intro n hm; cases hm <;> simp_all
    · intro n hm; cases hm <;> simp_all
  | named n =>
    obtain ⟨_, _, h, _⟩ | ⟨_, _, h⟩ := hnames
    · cases h
    · exact .fail (hbad h)
  | fixed n => obtain ⟨_, _, h, _⟩ | ⟨_, h, _⟩ := hnames <;> cases h

theorem parseTypeAttr_err {nd : Nd} {a : XAttr} (p : Name) (ha : AttrIn root a) : (parseTypeAttr nd a p).Err x root := by
  unfold parseTypeAttr
  refine .bind' (getTypeName_err ha) fun c => ?_
  cases c with
  | literal t => dsimp only; split <;> exact .pure _
  | named n => exact .bind' (discoverType_err x _ _) fun _ => .pure _
  | fixed n => exact .pure _

theorem parseTypeAttr_same {nd nd' : Nd} {a : XAttr} {p : Name} {s s' : PCtx} {c : LeafContent}
    (h : parseTypeAttr nd a p s = .ok ((c, nd'), s')) : nd'.elem = nd.elem := by
  replace h := parseTypeAttr_run h
  cases h <;> rfl

/-- Which attributes were looked at. -/
theorem parseTypeAttr_seen {nd nd' : Nd} {a : XAttr} {p : Name} {s s' : PCtx} {c : LeafContent} (hd : Declared root s) (ha : nd.attr c!"type" = some a)
    (h : parseTypeAttr nd a p s = .ok ((c, nd'), s')) :
    (∀ n ∈ nd.seen, n ∈ nd'.seen) ∧ (TypeInXsd root.1.nss nd.elem → c!"fixed" ∈ nd'.seen) := by
  obtain ⟨t, s1, h1, h⟩ := P.bind_ok.1 h
  rcases getTypeName_names hd h1 with ⟨t, n, rfl, _⟩ | ⟨n, rfl, ho⟩
  · dsimp only at h
    cases hx : nd.attr c!"fixed" <;> rw [hx] at h <;> dsimp only at h <;> rw [P.pure_ok] at h <;> cases h.1 <;>
      exact ⟨fun n hn => .tail _ hn, fun _ => .head _⟩
  · obtain ⟨_, _, _, h⟩ := P.bind_ok.1 h
    rw [P.pure_ok] at h
    cases h.1
    exact ⟨fun n hn => hn, fun ht => absurd ho (ht.2 a (attr_some ha).1 (attr_some ha).2).2⟩

theorem parseAttrContent_err {nd : Nd} (n p : Name) {c : Option Nd} (hin : Inside root nd.elem)
    (hc : ∀ d, c = some d → d.name = c!"simpleType" ∧ Heard root d []) :
    (parseAttrContent x nd n p c).Err x root := by
  cases c with
  | none =>
    refine .bindL (tryAttr_err hin _) fun a ha => parseTypeAttr_err x _ ?_
    rw [tryAttr_ok] at ha
    exact attrIn hin ha
  | some c =>
    refine .bind' (parseSimpleType_err x (hc c rfl).1 (hc c rfl).2) fun r => ?_
    split
    · exact .pure _
    · exact .bind' (.nodeName _) fun _ => .bind' (deriveVirtualName_err x _ _) fun _ => .bind' (addRoot_err x _ _) fun _ =>
        .bind' (discoverType_err x _ _) fun _ => .pure _

theorem parseAttrContent_seen {nd nd' : Nd} {n p : Name} {o : Option Nd} {s s' : PCtx} {c : LeafContent} (hd : Declared root s)
    (h : parseAttrContent x nd n p o s = .ok ((c, nd'), s')) :
    (∀ n ∈ nd.seen, n ∈ nd'.seen) ∧ (o = none → c!"type" ∈ nd'.seen ∧ (TypeInXsd root.1.nss nd.elem → c!"fixed" ∈ nd'.seen)) := by
  cases o with
  | none =>
    obtain ⟨a, s1, h1, h5⟩ := P.bind_ok.1 h
    obtain ⟨h4, rfl⟩ := P.lift_ok.1 h1
    rw [tryAttr_ok] at h4
    obtain ⟨h2, h3⟩ := parseTypeAttr_seen (nd := nd.see c!"type") hd h4 h5
    exact ⟨fun n hn => h2 n (.tail _ hn), fun _ => ⟨h2 _ (.head _), h3⟩⟩
  | some d =>
    refine ⟨?_, fun h => by cases h⟩
    obtain ⟨r, s1, h1, h⟩ := P.bind_ok.1 h
    split at h
    · rw [P.pure_ok] at h; cases h.1; exact fun _ h => h
    · obtain ⟨_, _, _, h⟩ := P.bind_ok.1 h
      obtain ⟨_, _, _, h⟩ := P.bind_ok.1 h
      obtain ⟨_, _, _, h⟩ := P.bind_ok.1 h
      obtain ⟨_, _, _, h⟩ := P.bind_ok.1 h
      rw [P.pure_ok] at h; cases h.1; exact fun _ h => h

theorem parseAttrContent_same {nd nd' : Nd} {n p : Name} {o : Option Nd} {s s' : PCtx} {c : LeafContent}
    (h : parseAttrContent x nd n p o s = .ok ((c, nd'), s')) : nd'.elem = nd.elem := by
  cases o with
  | none =>
    obtain ⟨a, s1, h1, h⟩ := P.bind_ok.1 h
    exact (parseTypeAttr_same h : nd'.elem = (nd.see _).elem)
  | some d =>
    obtain ⟨r, s1, h1, h⟩ := P.bind_ok.1 h
    split at h
    · rw [P.pure_ok] at h; cases h.1; rfl
    · obtain ⟨_, _, _, h⟩ := P.bind_ok.1 h
      obtain ⟨_, _, _, h⟩ := P.bind_ok.1 h
      obtain ⟨_, _, _, h⟩ := P.bind_ok.1 h
      obtain ⟨_, _, _, h⟩ := P.bind_ok.1 h
      rw [P.pure_ok] at h; cases h.1; rfl

theorem parseAttribute_err {nd : Nd} {f : Elem} (p : Name) (hat : nd.name = c!"attribute") (hf : ParentOf root f nd.elem) :
    (parseAttribute x nd p).Err x root := by
  have hin : Inside root nd.elem := hf.1.trans (.kid hf.2 (.refl _))
  have hn : nd.elem.1.name.loc = c!"attribute" := hat
  unfold parseAttribute
  refine .bind' (.lift (tryAttr_err hin _)) fun _ => .bind' (.lift (parseAnnotation_err x (removed_annotation (nd := nd) hin))) fun _ =>
    .bind (parseAttrContent_err x _ _ hin fun d hd => ⟨removeKid_named (Prod.ext hd rfl), ?_⟩) fun s a s' hdc ha => ?_
  · have hdn : d.elem.1.name.loc = c!"simpleType" := removeKid_named (Prod.ext hd rfl)
    refine heard_kid (nd := nd) hin (removeKid_rest_mem (removeKid_mem (Prod.ext hd rfl))) fun n hm => ?_
    cases hm <;> simp_all [attrMeanings]
  obtain ⟨c, nd'⟩ := a
  have he : nd'.elem = (nd.see c!"name").elem := parseAttrContent_same x ha
  have hin' : Inside root nd'.elem := he ▸ hin
  have hx : nd'.xsdKids = nd.xsdKids := by unfold Nd.xsdKids; rw [show nd'.kids = nd.kids from congrArg Prod.snd he]
  have he' : nd'.elem = nd.elem := he
  have hR : Rest nd'.xsdKids (removeKid c!"simpleType" (removeKid c!"annotation" nd.xsdKids).2).2 [c!"simpleType", c!"annotation"] := by
    rw [hx]
    exact ((Rest.of nd).remove c!"annotation").remove c!"simpleType"
  have hseen : Heard root nd' [c!"default", c!"use"] := by
    refine ⟨f, he' ▸ hf, fun n hm => ?_⟩
    rw [he'] at hm
    obtain ⟨h1, h2⟩ := parseAttrContent_seen x hdc ha
    have hs : ¬ HasChild nd.elem c!"simpleType" → (removeKid c!"simpleType" (removeKid c!"annotation" (nd.see c!"name").xsdKids).2).1 = none := by
      intro hs
      cases hq : (removeKid c!"simpleType" (removeKid c!"annotation" (nd.see c!"name").xsdKids).2).1 with
      | none => rfl
      | some c =>
        refine absurd (hasChild (c := c) ?_ (removeKid_named (Prod.ext hq rfl))) hs
        exact removeKid_rest_mem (ks := nd.xsdKids) (removeKid_mem (Prod.ext hq rfl))
    cases hm with
    | listed h hp hm =>
      rw [hn] at h
      have : n ∈ [c!"name", c!"default", c!"use"] := by
        simp [attrMeanings] at h
        simpa [h.2] using hm
      rcases List.mem_cons.1 this with rfl | this
      · exact .inl (h1 _ (.head _))
      · exact .inr this
    | declared h => simp_all
    | fixed h => simp_all
    | attrType _ _ hc hm => exact .inl (hm ▸ (h2 (hs hc)).1)
    | attrFixed _ _ hc ht hm => exact .inl (hm ▸ (h2 (hs hc)).2 ht)
  refine .bind' (.lift (preventUnvisitedChildren_err hin' (hR.refused (he' ▸ hf) ?_ ?_))) fun _ => ?_
  · intro n hm; rw [he'] at hm; cases hm <;> simp_all
  · intro n hm; rw [he'] at hm; cases hm <;> simp_all
  · dsimp only
    split
    · exact .pure _
    · next hu1 =>
      split
      · split
        · next hd =>
          obtain ⟨hd, hreq⟩ := hd
          refine .fail ⟨_, hin', rfl, rfl, rfl, ?_, ?_⟩
          · cases hd' : nd'.attr c!"default" with
            | none => rw [hd'] at hd; cases hd
            | some a => exact ⟨a, attr_some hd'⟩
          · have hreq : (nd'.attr c!"use").map XAttr.value = some c!"required" := by simpa using hreq
            rw [Option.map_eq_some_iff] at hreq
            obtain ⟨a, h1, h2⟩ := hreq
            exact ⟨a, (attr_some h1).1, (attr_some h1).2, h2⟩
        · exact .bind' (.lift (preventUnvisitedAttributes_err (nd := (nd'.see _).see _) hseen.see.see)) fun _ => .pure _
      · next hu2 =>
        cases hu' : nd'.attr c!"use" with
        | none => rw [hu'] at hu2; exact absurd (.inr (.inr rfl)) hu2
        | some a =>
          rw [hu'] at hu1 hu2
          exact .fail ⟨_, hin', rfl, a, (attr_some hu').1, (attr_some hu').2, rfl, .inr rfl, .inr (.inl ⟨rfl, by simp_all⟩)⟩

theorem parseAttributes_err {f : Elem} (p : Name) : ∀ {cs : List Nd}, (∀ c ∈ cs, c.name = c!"attribute" ∧ ParentOf root f c.elem) →
      (parseAttributes x p cs).Err x root
  | [], _ => .pure _
  | c :: _, h => .bind' (parseAttribute_err x p (h c (.head _)).1 (h c (.head _)).2) fun _ =>
    .bind' (parseAttributes_err p fun d hd => h d (.tail _ hd)) fun _ => .pure _

/-- The attribute declarations among the children. -/
theorem attributes_of {nd : Nd} {ks : List Nd} {ns : List Str} (hin : Inside root nd.elem) (h : Rest nd.xsdKids ks ns) :
    ∀ c ∈ (removeKids c!"attribute" ks).1, c.name = c!"attribute" ∧ ParentOf root nd.elem c.elem := by
  intro c hc
  obtain ⟨h1, h2⟩ := List.mem_filter.1 hc
  exact ⟨congrArg QName.loc (of_decide_eq_true h2), parentOf hin (h.mem h1)⟩

omit x in
theorem not_attribute {ks rest : List Nd} {ns : List Str} (h : Rest ks rest ns) {k : Nd} (hk : k ∈ (removeKids c!"attribute" rest).2) :
    k.name ≠ c!"attribute" := by
  intro hn
  obtain ⟨h1, h2⟩ := List.mem_filter.1 hk
  simp only [decide_eq_true_eq] at h2
  exact h2 (hn ▸ h.name h1)

theorem parseSimpleContent_err {nd : Nd} (p : Name) (hnd : nd.name = c!"simpleContent") (hh : Heard root nd []) : (parseSimpleContent x nd p).Err x root := by
  have hin := hh.inside
  have hn : nd.elem.1.name.loc = c!"simpleContent" := hnd
  obtain ⟨f, hf, _⟩ := id hh
  unfold parseSimpleContent
  refine .bind' (.lift (preventUnvisitedAttributes_err hh)) fun _ => .bindL (tryRemoveKid_err hin fun k hk _ => hk) fun a ha => ?_
  obtain ⟨e, rest⟩ := a
  rw [tryRemoveKid_ok] at ha
  have he := inside_kid hin (removeKid_mem ha)
  have hen : e.elem.1.name.loc = c!"extension" := removeKid_named ha
  have hep := parentOf hin (removeKid_mem ha)
  refine .bind' (.lift (preventUnvisitedChildren_err hin (((Rest.of nd).some ha).refused hf ?_ ?_))) fun _ =>
    .bindL (tryAttr_err he _) fun b hb => ?_
  · intro n hm; cases hm <;> simp_all
  · intro n hm; cases hm <;> simp_all
  rw [tryAttr_ok] at hb
  refine .bind' (getTypeName_err (attrIn he hb)) fun c => .bind' ?_ fun _ =>
    .bind' (parseAttributes_err x _ (attributes_of he (.of e))) fun _ =>
    .bind' (.lift (preventUnvisitedChildren_err he (((Rest.of e).filter _).refused hep ?_ ?_))) fun _ => .pure _
  · split
    · exact .bind' (discoverType_err x _ _) fun _ => .pure _
    · exact .pure _
  · intro n hm k hk
    have := not_attribute (.of e) hk
    cases hm <;> simp_all
  · intro n hm; cases hm <;> simp_all

theorem parseLeaves_err {f : Nd → P (Option Leaf)} : ∀ {cs : List Nd}, (∀ c ∈ cs, (f c).Err x root) → (parseLeaves f cs).Err x root
  | [], _ => .pure _
  | c :: _, h => .bind' (h c (.head _)) fun _ => .bind' (parseLeaves_err fun d hd => h d (.tail _ hd)) fun _ => .pure _

/-- The errors of all functions of the parser are about the document. -/
structure AllErr (r : Elem) (k : Nat) : Prop where
  root : ∀ nd p, Inside r nd.elem → (nd.name ∉ [c!"element", c!"complexType", c!"simpleType"] → UnsupportedHere r nd.elem) →
    (nd.name = c!"element" → Heard r nd [c!"type", c!"fixed"]) → (nd.name = c!"complexType" → Heard r nd [c!"mixed"]) →
    (nd.name = c!"simpleType" → Heard r nd []) → (parseRoot x k nd p).Err x r
  elementRoot : ∀ nd p, nd.name = c!"element" → Heard r nd [c!"type", c!"fixed"] → (parseElementRoot x k nd p).Err x r
  complexType : ∀ nd p, nd.name = c!"complexType" → Heard r nd [c!"mixed"] → (parseComplexType x k nd p).Err x r
  particle : ∀ (nd : Nd) kids ns p, nd.name = c!"complexType" → Inside r nd.elem → Rest nd.xsdKids kids ns → (parseParticle x k kids p).Err x r
  complexContent : ∀ nd p, nd.name = c!"complexContent" → Heard r nd [] → (parseComplexContent x k nd p).Err x r
  extension : ∀ o b p, (∀ nd, o = some nd → Heard r nd [c!"minOccurs"] ∧ nd.name = c!"sequence") → (parseExtension x k o b p).Err x r
  sequence : ∀ nd p, nd.name = c!"sequence" ∨ nd.name = c!"all" → Heard r nd [] → (parseSequence x k nd p).Err x r
  choice : ∀ nd p, nd.name = c!"choice" → Heard r nd [] → (parseChoice x k nd p).Err x r
  elementChild : ∀ nd f p, nd.name = c!"element" → ParentOf r f nd.elem → f.1.name.loc ∈ [c!"sequence", c!"all", c!"choice"] →
    (parseElementChild x k nd p).Err x r

/-- A child of a complex type is in one of the named roles, so what remains after the particle was taken has no meaning as one. -/
theorem particle_left {k : Nat} {nd : Nd} {kids rest : List Nd} {ns : List Str} {p : Name} {s s' : PCtx} {c : Option ElementContent}
    (hR : Rest nd.xsdKids kids ns) (h : parseParticle x k kids p s = .ok ((c, rest), s')) :
    (HasChild nd.elem c!"sequence" ∧ Rest nd.xsdKids rest (c!"sequence" :: ns)) ∨
    (HasChild nd.elem c!"all" ∧ Rest nd.xsdKids rest (c!"all" :: c!"sequence" :: ns)) ∨
    Rest nd.xsdKids rest (c!"choice" :: c!"all" :: c!"sequence" :: ns) := by
  cases k with
  | zero => cases h
  | succ k =>
    have hr : ∀ {c rest}, sequenceOrAll kids = (some c, rest) →
        (HasChild nd.elem c!"sequence" ∧ Rest nd.xsdKids rest (c!"sequence" :: ns)) ∨
        (HasChild nd.elem c!"all" ∧ Rest nd.xsdKids rest (c!"all" :: c!"sequence" :: ns)) := by
      intro c rest hc
      unfold sequenceOrAll at hc
      split at hc
      · next h => cases hc; exact .inl ⟨hasChild (hR.mem (removeKid_mem h)) (removeKid_named h), hR.some h⟩
      · next h => exact .inr ⟨hasChild (hR.mem (removeKid_mem hc)) (removeKid_named hc), (hR.none h).some hc⟩
    have hn : ∀ {rest}, sequenceOrAll kids = (none, rest) → Rest nd.xsdKids kids (c!"all" :: c!"sequence" :: ns) := by
      intro rest hc
      unfold sequenceOrAll at hc
      split at hc
      · cases hc
      · next h => exact (hR.none h).none hc
    replace h := parseParticle_run x h
    cases h with
    | group _ _ _ _ _ _ _ _ hk => exact (hr hk).imp_right .inl
    | sequence _ _ _ _ _ _ hk => exact (hr hk).imp_right .inl
    | choice _ _ _ _ _ hs hk => exact .inr (.inr ((hn (Prod.ext hs rfl)).some hk))
    | none hs hk => exact .inr (.inr ((hn (Prod.ext hs rfl)).none (Prod.ext hk rfl)))

theorem fixed_meaning {D : List (Option Str × Str)} {f e : Elem} (he : e.1.name.loc = c!"element") (h : AttrMeaning D f e c!"fixed") : TypeInXsd D e := by
  cases h with
  | fixed _ _ _ ht => exact ht
  | listed h _ hn =>
    simp [attrMeanings, he] at h
    rcases h with ⟨_, rfl⟩ | ⟨_, rfl⟩ <;> simp at hn
  | declared _ _ _ hn => simp at hn
  | attrType h => rw [he] at h; simp at h
  | attrFixed h => rw [he] at h; simp at h

/-- Without a type there is nothing that can be fixed. -/
theorem Heard.untyped {r : Elem} {nd : Nd} (h : Heard r nd [c!"fixed"]) (hn : nd.name = c!"element") (ht : nd.attr c!"type" = none) : Heard r nd [] := by
  obtain ⟨f, h1, h2⟩ := h
  refine ⟨f, h1, fun n hm => ?_⟩
  rcases h2 n hm with h | h
  · exact .inl h
  · rw [List.mem_singleton] at h
    subst h
    obtain ⟨a, h3, h4⟩ := (fixed_meaning (e := nd.elem) hn hm).1
    exact absurd h4 (attr_none ht a h3)

theorem Heard.typed {r : Elem} {nd nd' : Nd} {a : XAttr} {p : Name} {s s' : PCtx} {c : LeafContent} (h : Heard r nd [c!"fixed"])
    (hn : nd.name = c!"element") (hd : Declared r s) (ht : nd.attr c!"type" = some a) (hr : parseTypeAttr nd a p s = .ok ((c, nd'), s')) :
    Heard r nd' [] := by
  obtain ⟨f, h1, h2⟩ := h
  have he := parseTypeAttr_same hr
  obtain ⟨h3, h4⟩ := parseTypeAttr_seen hd ht hr
  refine ⟨f, he ▸ h1, fun n hm => .inl ?_⟩
  rw [he] at hm
  rcases h2 n hm with h | h
  · exact h3 n h
  · rw [List.mem_singleton] at h
    subst h
    exact h4 (fixed_meaning (e := nd.elem) hn hm)

/-- The attributes of the children of an element with a meaning, by the names of the two. -/
theorem heard_named {nd c : Nd} {l : List Str} {p n : Str} (hin : Inside root nd.elem) (hc : c ∈ nd.xsdKids) (hp : nd.name = p) (hn : c.name = n)
    (hne : n ≠ c!"element") (hna : n ≠ c!"attribute")
    (ht : ∀ q ∈ attrMeanings, q.1 = n → p ∈ q.2.1 → ∀ m ∈ q.2.2, m ∈ l) : Heard root c l := by
  change nd.elem.1.name.loc = p at hp
  change c.elem.1.name.loc = n at hn
  refine heard_kid hin hc fun m hm => ?_
  cases hm with
  | listed h hp' hm => exact ht _ h hn (hp ▸ hp') m hm
  | declared h => exact absurd (hn.symm.trans h) hne
  | fixed h => exact absurd (hn.symm.trans h) hne
  | attrType h => exact absurd (hn.symm.trans h) hna
  | attrFixed h => exact absurd (hn.symm.trans h) hna

theorem allErr (k : Nat) : AllErr x root k := by
  induction k with
  | zero =>
    have zero : ∀ {α : Type}, (P.diverge : P α).Err x root := fun s hs => ⟨fun e h => (by cases h), fun a s' h => (by cases h)⟩
    constructor
    case extension => intro o b p _; exact zero
    all_goals (intros; exact zero)
  | succ k ih =>
    constructor
    case root =>
      intro nd p hin hu h1 h2 h3
      unfold parseRoot
      split
      · next hn => exact ih.elementRoot _ _ hn (h1 hn)
      · split
        · next hn => exact ih.complexType _ _ hn (h2 hn)
        · split
          · next hn => exact parseSimpleType_err x hn (h3 hn)
          · exact .fail ⟨_, hin, rfl, rfl, hu (by simp_all)⟩
    case elementRoot =>
      intro nd p hname hh
      have hin := hh.inside
      have hn : nd.elem.1.name.loc = c!"element" := hname
      obtain ⟨f, hf, _⟩ := id hh
      have hR := (Rest.of nd).remove c!"annotation"
      unfold parseElementRoot
      refine .bind' (.lift (parseAnnotation_err x (removed_annotation hin))) fun docs => ?_
      split
      · next a ha =>
        refine .bind (parseTypeAttr_err x _ (attrIn hin ha)) fun s b s' hd hb => ?_
        obtain ⟨c, nd'⟩ := b
        have he : nd'.elem = nd.elem := parseTypeAttr_same (nd := nd.see c!"type") hb
        have hin' : Inside root nd'.elem := he ▸ hin
        have hx : nd'.xsdKids = nd.xsdKids := by unfold Nd.xsdKids; rw [show nd'.kids = nd.kids from congrArg Prod.snd he]
        have hty : HasAttr nd.elem c!"type" := ⟨a, attr_some ha⟩
        refine .bind' (.lift (preventUnvisitedAttributes_err (hh.see.typed hname hd ha hb))) fun _ =>
          .bind' (.lift (preventUnvisitedChildren_err hin' (Rest.refused (ns := [c!"annotation"]) (hx ▸ hR) (he ▸ hf) ?_ ?_))) fun _ => .pure _
        · intro n hm; rw [he] at hm; cases hm <;> simp_all
        · intro n hm; rw [he] at hm; cases hm <;> simp_all
      · next ht =>
        have hin2 : Inside root (nd.see c!"type").elem := hin
        have hf2 : ParentOf root f (nd.see c!"type").elem := hf
        have hn2 : (nd.see c!"type").elem.1.name.loc = c!"element" := hname
        refine .bind' (.lift (preventUnvisitedAttributes_err (hh.see.untyped hname ht))) fun _ => ?_
        split
        · next hr =>
          have hc : HasChild (nd.see c!"type").elem c!"complexType" := hasChild (nd := nd) (hR.mem (removeKid_mem hr)) (removeKid_named hr)
          refine .bind' (ih.complexType _ _ (removeKid_named hr) (heard_named hin (hR.mem (removeKid_mem hr)) hname (removeKid_named hr)
              (by decide) (by decide) (by decide))) fun _ =>
            .bind' (.lift (preventUnvisitedChildren_err hin2 (Rest.refused (nd := nd.see c!"type") (hR.some hr) hf2 ?_ ?_))) fun _ => .pure _
          · intro n hm; cases hm <;> simp_all
          · intro n hm; cases hm <;> simp_all
        · next hn1 =>
          split
          · next hr =>
            refine .bind' (parseSimpleType_err x (removeKid_named hr) (heard_named hin (hR.mem (removeKid_mem hr)) hname (removeKid_named hr)
                (by decide) (by decide) (by decide))) fun _ =>
              .bind' (.lift (preventUnvisitedChildren_err hin2 (Rest.refused (nd := nd.see c!"type") ((hR.none hn1).some hr) hf2 ?_ ?_))) fun _ => .pure _
            · intro n hm; cases hm <;> simp_all
            · intro n hm; cases hm <;> simp_all
          · next hn2 =>
            refine .fail ⟨_, hin2, rfl, rfl, rfl, fun i cs hi => ⟨fun hn => ?_, fun hn => ?_⟩⟩
            · exact (removeKid_none hn2).2 _ (removeKid_other (by decide) (mem_kids_xsd hi (by rw [hn])) hn) hn
            · exact (removeKid_none hn1).2 _ (removeKid_other (by decide) (mem_kids_xsd hi (by rw [hn])) hn) hn
    case complexType =>
      intro nd p hname hh
      have hin := hh.inside
      have hn : nd.elem.1.name.loc = c!"complexType" := hname
      obtain ⟨f, hf, _⟩ := id hh
      have hR := (Rest.of nd).remove c!"annotation"
      unfold parseComplexType
      split
      · next hm =>
        rw [Option.map_eq_some_iff] at hm
        obtain ⟨a, ha, hv⟩ := hm
        exact .fail ⟨_, hin, rfl, a, (attr_some ha).1, (attr_some ha).2, hv, .inr rfl, .inl ⟨rfl, rfl⟩⟩
      · refine .bind' (.lift (preventUnvisitedAttributes_err (nd := nd.see _) hh.see)) fun _ =>
          .bind' (.lift (parseAnnotation_err x (removed_annotation hin))) fun docs => ?_
        split
        · next hr =>
          have hc := hasChild (hR.mem (removeKid_mem hr)) (removeKid_named hr)
          refine .bind' (.lift (preventUnvisitedChildren_err hin ((hR.some hr).refused hf ?_ ?_))) fun _ =>
            .bind' (parseSimpleContent_err x _ (removeKid_named hr) (heard_named hin (hR.mem (removeKid_mem hr)) hname (removeKid_named hr)
              (by decide) (by decide) (by decide))) fun _ => .pure _
          · intro n hm; cases hm <;> simp_all
          · intro n hm; cases hm <;> simp_all
        · next hn1 =>
          split
          · next hr =>
            have hc := hasChild (hR.mem (removeKid_mem hr)) (removeKid_named hr)
            refine .bind' (.lift (preventUnvisitedChildren_err hin (((hR.none hn1).some hr).refused hf ?_ ?_))) fun _ =>
              .bind' (ih.complexContent _ _ (removeKid_named hr) (heard_named hin (hR.mem (removeKid_mem hr)) hname (removeKid_named hr)
                (by decide) (by decide) (by decide))) fun _ => .pure _
            · intro n hm; cases hm <;> simp_all
            · intro n hm; cases hm <;> simp_all
          · next hn2 =>
            have hR2 := (hR.none hn1).none hn2
            refine .bind (ih.particle _ _ _ _ hname hin hR2) fun s a s' _ ha => ?_
            obtain ⟨c, rest⟩ := a
            rcases particle_left x hR2 ha with ⟨hc, hR3⟩ | ⟨hc, hR3⟩ | hR3
            all_goals
              refine .bind' (parseAttributes_err x _ (attributes_of hin hR3)) fun _ =>
                .bind' (.lift (preventUnvisitedChildren_err hin ((hR3.filter _).refused hf ?_ ?_))) fun _ => .pure _
              · intro n hm k hk
                have := not_attribute hR3 hk
                cases hm <;> simp_all
              · intro n hm; cases hm <;> simp_all
    case particle =>
      intro nd kids ns p hname hin hR
      unfold parseParticle
      have hmem : ∀ {c rest}, (match removeKid c!"sequence" kids with
          | (some c, rest) => (some c, rest)
          | (none, _) => removeKid c!"all" kids) = (some c, rest) → c ∈ kids ∧ (c.name = c!"sequence" ∨ c.name = c!"all") := by
        intro c rest hc
        split at hc
        · next hr => cases hc; exact ⟨removeKid_mem hr, .inl (removeKid_named hr)⟩
        · exact ⟨removeKid_mem hc, .inr (removeKid_named hc)⟩
      split
      · next c _ hr =>
        obtain ⟨hm, hnm⟩ := hmem hr
        have hh : Heard root c [c!"minOccurs", c!"maxOccurs"] := by
          rcases hnm with hnm | hnm <;> exact heard_named hin (hR.mem hm) hname hnm (by decide) (by decide) (by decide)
        have hin := hh.inside
        refine .bind' (.lift (parseMinOccurs_err hin)) fun mn => .bind' (.lift (parseMaxOccurs_err hin)) fun mx =>
          .bind' (ih.sequence _ _ hnm hh.see.see) fun ls => ?_
        dsimp only
        split
        · exact .bind' (addGroup_err x _ _ _ _ _ _ _) fun _ => .pure _
        · exact .pure _
      · split
        · next hr =>
          exact .bind' (ih.choice _ _ (removeKid_named hr) (heard_named hin (hR.mem (removeKid_mem hr)) hname (removeKid_named hr)
              (by decide) (by decide) (by decide))) fun _ => .bind' (.nodeName _) fun _ =>
            .bind' (deriveVirtualName_err x _ _) fun _ => .bind' (addRoot_err x _ _) fun _ => .bind' (discoverType_err x _ _) fun _ => .pure _
        · exact .pure _
    case complexContent =>
      intro nd p hname hh
      have hin := hh.inside
      have hn : nd.elem.1.name.loc = c!"complexContent" := hname
      obtain ⟨f, hf, _⟩ := id hh
      unfold parseComplexContent
      refine .bind' (.lift (preventUnvisitedAttributes_err hh)) fun _ => .bindL (tryRemoveKid_err hin fun k hk _ => hk) fun a ha => ?_
      obtain ⟨e, rest⟩ := a
      rw [tryRemoveKid_ok] at ha
      have he := inside_kid hin (removeKid_mem ha)
      have hen : e.elem.1.name.loc = c!"extension" := removeKid_named ha
      have hep := parentOf hin (removeKid_mem ha)
      refine .bind' (.lift (preventUnvisitedChildren_err hin (((Rest.of nd).some ha).refused hf ?_ ?_))) fun _ =>
        .bindL (tryAttr_err he _) fun b hb => ?_
      · intro n hm; cases hm <;> simp_all
      · intro n hm; cases hm <;> simp_all
      rw [tryAttr_ok] at hb
      refine .bind (getTypeName_err (attrIn he hb)) fun s c s' hd hc => ?_
      have hnames := getTypeName_names hd hc
      cases c with
      | literal t =>
        obtain ⟨_, n, _, h⟩ | ⟨_, h, _⟩ := hnames
        · exact .fail ⟨_, he, removeKid_named ha, b, (attr_some hb).1, (attr_some hb).2, rfl, .inl rfl, .inr (.inr (.inr ⟨.inl ⟨rfl, rfl⟩, n, h⟩))⟩
        · cases h
      | fixed t => obtain ⟨_, _, h, _⟩ | ⟨_, h, _⟩ := hnames <;> cases h
      | named n =>
        have hrest : Rest e.xsdKids (if (removeKid c!"sequence" e.xsdKids).1.isSome = true then (removeKid c!"sequence" e.xsdKids).2 else e.xsdKids)
            [c!"sequence"] := by
          split
          · exact (Rest.of e).remove _
          · next h => exact (Rest.of e).none (Prod.ext (by simpa using h) rfl)
        refine .bind' (discoverType_err x _ _) fun _ => .bind' (ih.extension _ _ _ fun c hc => ⟨?_, removeKid_named (Prod.ext hc rfl)⟩) fun vl =>
          .bind' (parseAttributes_err x _ (attributes_of he hrest)) fun _ =>
          .bind' (.lift (preventUnvisitedChildren_err he ((hrest.filter _).refused hep ?_ ?_))) fun _ => ?_
        · exact heard_named he (removeKid_mem (Prod.ext hc rfl)) hen (removeKid_named (Prod.ext hc rfl)) (by decide) (by decide) (by decide)
        · intro n hm k hk
          have := not_attribute hrest hk
          cases hm <;> simp_all
        · intro n hm; cases hm <;> simp_all
        · split
          · exact .pure _
          · exact .bind' (.nodeName _) fun _ => .pure _
    case extension =>
      intro o b p h
      cases o with
      | none => exact .pure _
      | some c =>
        obtain ⟨hh, hnm⟩ := h c rfl
        unfold parseExtension
        exact .bind' (.lift (parseMinOccurs_err hh.inside)) fun mn => .bind' (ih.sequence _ _ (.inl hnm) hh.see) fun ls => .bind' (.nodeName _) fun _ =>
          .bind' (deriveVirtualName_err x _ _) fun _ => .bind' (addRoot_err x _ _) fun _ => .bind' (discoverType_err x _ _) fun _ => .pure _
    case sequence =>
      intro nd p hnm hh
      have hin := hh.inside
      unfold parseSequence
      refine .bind' (.lift (preventUnvisitedAttributes_err hh)) fun _ => parseLeaves_err x fun c hk => ?_
      have hu := fun h => unsupported_kid (ns := [c!"element", c!"choice", c!"sequence", c!"annotation"]) hin hk
        (by rcases hnm with h | h <;> rw [h] <;> simp [supportedIn]) h
      have hc := inside_kid hin hk
      have hpn : nd.elem.1.name.loc ∈ [c!"sequence", c!"all", c!"choice"] := by
        rcases hnm with h | h <;> rw [show nd.elem.1.name.loc = _ from h] <;> decide
      split
      · next hn => exact .bind' (ih.elementChild _ _ _ hn (parentOf hin hk) hpn) fun _ => .pure _
      · split
        · next hn =>
          have hh : Heard root c [c!"minOccurs", c!"maxOccurs"] := by
            rcases hnm with hnm | hnm <;> exact heard_named hin hk hnm hn (by decide) (by decide) (by decide)
          exact .bind' (.lift (parseMinOccurs_err hc)) fun mn => .bind' (.lift (parseMaxOccurs_err hc)) fun mx =>
            .bind' (ih.choice _ _ hn hh.see.see) fun _ => .bind' (addGroup_err x _ _ _ _ _ _ _) fun _ => .pure _
        · split
          · next hn =>
            have hh : Heard root c [c!"minOccurs"] := by
              rcases hnm with hnm | hnm <;> exact heard_named hin hk hnm hn (by decide) (by decide) (by decide)
            exact .bind' (.lift (parseAnnotation_err x (child_annotation hc))) fun _ => .bind' (.lift (parseMinOccurs_err hc)) fun mn =>
              .bind' (ih.sequence _ _ (.inl hn) hh.see) fun _ => .bind' (addGroup_err x _ _ _ _ _ _ _) fun _ => .pure _
          · split
            · exact .pure _
            · exact .fail ⟨_, hc, rfl, rfl, hu (by simp_all)⟩
    case choice =>
      intro nd p hnm hh
      have hin := hh.inside
      unfold parseChoice
      refine .bind' (.lift (preventUnvisitedAttributes_err hh)) fun _ => parseLeaves_err x fun c hk => ?_
      have hu := fun h => unsupported_kid (ns := [c!"element", c!"sequence", c!"annotation"]) hin hk (by rw [hnm]; simp [supportedIn]) h
      have hc := inside_kid hin hk
      split
      · next hn => exact .bind' (ih.elementChild _ _ _ hn (parentOf hin hk) (by rw [show nd.elem.1.name.loc = _ from hnm]; decide)) fun _ => .pure _
      · split
        · next hn =>
          have hh : Heard root c [c!"minOccurs", c!"maxOccurs"] := heard_named hin hk hnm hn (by decide) (by decide) (by decide)
          exact .bind' (.lift (parseAnnotation_err x (child_annotation hc))) fun _ => .bind' (.lift (parseMinOccurs_err hc)) fun mn =>
            .bind' (.lift (parseMaxOccurs_err hc)) fun mx => .bind' (ih.sequence _ _ (.inl hn) hh.see.see) fun _ => .bind' (.nodeName _) fun _ =>
            .bind' (addGroup_err x _ _ _ _ _ _ _) fun _ => .pure _
        · split
          · exact .pure _
          · exact .fail ⟨_, hc, rfl, rfl, hu (by simp_all)⟩
    case elementChild =>
      intro nd f p hname hf hfn
      have hin : Inside root nd.elem := hf.1.trans (.kid hf.2 (.refl _))
      have hn : nd.elem.1.name.loc = c!"element" := hname
      unfold parseElementChild
      refine .bind' (.lift (parseMinOccurs_err hin)) fun mn => .bind' (.lift (parseMaxOccurs_err hin)) fun mx => ?_
      have sees : ∀ l, Inside root ({ nd with seen := l } : Nd).elem := fun _ => hin
      have listed : ∀ {n ps ns}, (nd.elem.1.name.loc, ps, ns) ∈ attrMeanings → f.1.name.loc ∈ ps → n ∈ ns →
          n ∈ [c!"ref", c!"maxOccurs", c!"minOccurs"] := by
        intro n ps ns h1 h2 h3
        rw [hn] at h1
        simp [attrMeanings] at h1
        rcases h1 with ⟨rfl, rfl⟩ | ⟨rfl, rfl⟩
        · simp_all
        · simp at h3 ⊢
          rcases h3 with h | h | h <;> simp [h]
      dsimp only
      split
      · next a ha =>
        have href : HasAttr nd.elem c!"ref" := ⟨a, attr_some (nd := nd) ha⟩
        refine .bind' (.lift (preventUnvisitedAttributes_err ⟨f, hf, fun n hm => .inl ?_⟩)) fun _ =>
          .bind (getTypeName_err (attrIn (sees _) ha)) fun s c s' hd hc => ?_
        · cases hm with
          | listed h1 h2 h3 => exact List.mem_append_left nd.seen (listed h1 h2 h3)
          | declared _ _ h => exact absurd href h
          | fixed _ _ h =>
            rcases h with h | h
            · rw [h] at hfn; simp at hfn
            · exact absurd href h
          | attrType h => exact absurd (hn.symm.trans h) (by decide)
          | attrFixed h => exact absurd (hn.symm.trans h) (by decide)
        have hnames := getTypeName_names hd hc
        cases c with
        | named n => exact .bind' (discoverType_err x _ _) fun _ => .pure _
        | literal t =>
          obtain ⟨_, n, _, h⟩ | ⟨_, h, _⟩ := hnames
          · exact .fail ⟨_, hin, hname, a, (attr_some ha).1, (attr_some ha).2, rfl, .inl rfl, .inr (.inr (.inr ⟨.inr ⟨rfl, rfl⟩, n, h⟩))⟩
          · cases h
        | fixed t => obtain ⟨_, _, h, _⟩ | ⟨_, h, _⟩ := hnames <;> cases h
      · refine .bind' (.lift (tryAttr_err (sees _) _)) fun _ => .bind' (.nodeName _) fun _ =>
          .bind' (.lift (parseAnnotation_err x (child_annotation (sees _)))) fun docs => ?_
        have hh : Heard root (((((((nd.see c!"minOccurs").see c!"maxOccurs").see c!"ref").see c!"name").see c!"default").see c!"form").see c!"type")
            [c!"fixed"] := by
          refine ⟨f, hf, fun n hm => ?_⟩
          cases hm with
          | listed h1 h2 h3 =>
            refine .inl (List.mem_append_left nd.seen (as := [c!"type", c!"form", c!"default", c!"name", c!"ref", c!"maxOccurs", c!"minOccurs"]) ?_)
            exact List.mem_append_right [c!"type", c!"form", c!"default", c!"name"] (listed h1 h2 h3)
          | declared _ _ _ h =>
            refine .inl (List.mem_append_left nd.seen (as := [c!"type", c!"form", c!"default", c!"name", c!"ref", c!"maxOccurs", c!"minOccurs"]) ?_)
            simp at h ⊢
            rcases h with h | h | h | h <;> simp [h]
          | fixed _ _ _ _ h => exact .inr (List.mem_singleton.2 h)
          | attrType h => exact absurd (hn.symm.trans h) (by decide)
          | attrFixed h => exact absurd (hn.symm.trans h) (by decide)
        split
        · next a ha =>
          refine .bind (parseTypeAttr_err x _ (attrIn (sees _) ha)) fun s b s' hd hb => ?_
          obtain ⟨c, nd'⟩ := b
          exact .bind' (.lift (preventUnvisitedAttributes_err (hh.typed hname hd ha hb))) fun _ => .pure _
        · next ht =>
          split
          · exact .bind' (.lift (preventUnvisitedAttributes_err (hh.untyped hname ht))) fun _ => .pure _
          · refine .bind' (.lift (preventUnvisitedAttributes_err (hh.untyped hname ht))) fun _ => .bind' (.nodeName _) fun _ =>
              .bind' (deriveVirtualName_err x _ _) fun _ => .bind' (ih.root _ _ (sees _) (fun hu => absurd (List.mem_cons.2 (.inl hname)) hu)
                (fun _ => hh.weaken fun n hn => .tail _ hn) (fun h => absurd (hname.symm.trans h) (by decide))
                (fun h => absurd (hname.symm.trans h) (by decide))) fun _ => .bind' (addRoot_err x _ _) fun _ =>
              .bind' (discoverType_err x _ _) fun _ => .pure _

end

end Xsd
