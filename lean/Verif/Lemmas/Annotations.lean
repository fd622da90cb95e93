import Verif.Spec.Annotations
import Verif.Lemmas.Parse
import Verif.Props.Terminates
/-!
# The parser on schemas without their annotations
-/
namespace Xsd
namespace Ann

/-! ## Nodes -/

/-- The name of annotations. -/
def annName : QName := ⟨c!"annotation", some nsXsd⟩

/-- A node without the annotations in it, and without places. -/
def bareNd (nd : Nd) : Nd := { nd with info := placeless nd.info, kids := bareKids nd.kids }

/-- Nodes without the annotations among and in them. -/
def bareNds (ks : List Nd) : List Nd := (ks.filter (fun k => !decide (k.info.name = annName))).map bareNd

theorem bareKids_elems : ∀ cs : List XNode, elemKids (bareKids cs) =
    ((elemKids cs).filter (fun e => !decide (e.1.name = annName))).map (fun e => (placeless e.1, bareKids e.2))
  | [] => by rw [bareKids]; rfl
  | n :: ns => by
    have ih := bareKids_elems ns
    cases n with
    | elem i cs =>
      have h : elemKids (.elem i cs :: ns) = (i, cs) :: elemKids ns := rfl
      rw [bareKids, h, List.filter_cons]
      by_cases hi : i.name = annName
      · rw [if_pos (show i.name = ⟨c!"annotation", some nsXsd⟩ from hi), ih]
        simp [hi]
      · rw [if_neg (show ¬ i.name = ⟨c!"annotation", some nsXsd⟩ from hi)]
        have h' : elemKids (.elem (placeless i) (bareKids cs) :: bareKids ns) = (placeless i, bareKids cs) :: elemKids (bareKids ns) := rfl
        rw [h', ih]
        simp [hi]
    | text s => rw [bareKids]; exact ih
    | other => rw [bareKids]; exact ih

theorem xsdKids_bare (nd : Nd) : (bareNd nd).xsdKids = bareNds nd.xsdKids := by
  unfold Nd.xsdKids bareNds
  show ((elemKids (bareKids nd.kids)).filter _).map _ = _
  rw [bareKids_elems]
  induction elemKids nd.kids with
  | nil => rfl
  | cons e es ih =>
    by_cases h1 : e.1.name = annName
    · have h2 : e.1.name.ns = some nsXsd := by rw [h1]; rfl
      have h3 : (Nd.of e).info.name = annName := h1
      rw [List.filter_cons, if_neg (by simp [h1]), List.filter_cons, if_pos (by simp [h2]), List.map_cons, List.filter_cons, if_neg (by simp [h3])]
      exact ih
    · have h3 : ¬ (Nd.of e).info.name = annName := h1
      rw [List.filter_cons, if_pos (by simp [h1]), List.map_cons, List.filter_cons]
      by_cases h2 : e.1.name.ns = some nsXsd
      · have h4 : (placeless e.1).name.ns = some nsXsd := h2
        rw [if_pos (by simp [h4]), List.map_cons, ih]
        simp only [List.filter_cons, h2, decide_true, if_true, List.map_cons, h3, decide_false, Bool.not_false]
        rfl
      · have h4 : ¬ (placeless e.1).name.ns = some nsXsd := h2
        rw [if_neg (by simp [h4]), ih]
        simp only [List.filter_cons, h2, decide_false, Bool.false_eq_true, if_false]

theorem child_bare (nd : Nd) {n : Str} (hn : n ≠ c!"annotation") : (bareNd nd).child n = (nd.child n).map bareNd := by
  unfold Nd.child
  show ((elemKids (bareKids nd.kids)).find? _).map _ = _
  rw [bareKids_elems]
  induction elemKids nd.kids with
  | nil => rfl
  | cons e es ih =>
    by_cases h1 : e.1.name = annName
    · have h2 : ¬ e.is ⟨n, some nsXsd⟩ = true := by
        rw [Elem.is_iff, h1]
        intro h
        exact hn (congrArg QName.loc h).symm
      rw [List.filter_cons, if_neg (by simp [h1]), List.find?_cons_of_neg (p := fun e : Elem => e.is ⟨n, some nsXsd⟩) h2]
      exact ih
    · rw [List.filter_cons, if_pos (by simp [h1]), List.map_cons]
      by_cases h2 : e.is ⟨n, some nsXsd⟩ = true
      · rw [List.find?_cons_of_pos (p := fun e : Elem => e.is ⟨n, some nsXsd⟩) h2, List.find?_cons_of_pos (p := fun e : Elem => e.is ⟨n, some nsXsd⟩) (by exact h2)]
        rfl
      · rw [List.find?_cons_of_neg (p := fun e : Elem => e.is ⟨n, some nsXsd⟩) h2, List.find?_cons_of_neg (p := fun e : Elem => e.is ⟨n, some nsXsd⟩) (by exact h2)]
        exact ih

theorem child_none (nd : Nd) : (bareNd nd).child c!"annotation" = none := by
  unfold Nd.child
  rw [Option.map_eq_none_iff, List.find?_eq_none]
  intro e he h
  have he : e ∈ elemKids (bareKids nd.kids) := he
  rw [bareKids_elems] at he
  obtain ⟨e', he', rfl⟩ := List.mem_map.1 he
  have := (List.mem_filter.1 he').2
  rw [Elem.is_iff] at h
  simp only [Bool.not_eq_true', decide_eq_false_iff_not] at this
  exact this h

theorem removeKid_ann (ks : List Nd) : removeKid c!"annotation" (bareNds ks) = (none, bareNds ks) := by
  unfold bareNds
  induction ks with
  | nil => rfl
  | cons k ks ih =>
    by_cases h : k.info.name = annName
    · rw [List.filter_cons, if_neg (by simp [h])]
      exact ih
    · rw [List.filter_cons, if_pos (by simp [h]), List.map_cons, removeKid, if_neg (show ¬ (bareNd k).info.name = ⟨c!"annotation", some nsXsd⟩ from h), ih]

theorem bare_removeKid_ann (ks : List Nd) : bareNds (removeKid c!"annotation" ks).2 = bareNds ks := by
  induction ks with
  | nil => rfl
  | cons k ks ih =>
    rw [removeKid]
    split
    · next h =>
      unfold bareNds
      rw [List.filter_cons, if_neg (by simp [show k.info.name = annName from h])]
    · unfold bareNds at ih ⊢
      simp only [List.filter_cons]
      split
      · rw [List.map_cons, List.map_cons, ih]
      · exact ih

theorem removeKid_bare {n : Str} (hn : n ≠ c!"annotation") (ks : List Nd) :
    removeKid n (bareNds ks) = ((removeKid n ks).1.map bareNd, bareNds (removeKid n ks).2) := by
  unfold bareNds
  induction ks with
  | nil => rfl
  | cons k ks ih =>
    by_cases h : k.info.name = annName
    · have h' : ¬ k.info.name = ⟨n, some nsXsd⟩ := by
        rw [h]
        intro h
        exact hn (congrArg QName.loc h).symm
      rw [List.filter_cons, if_neg (by simp [h]), ih, removeKid, if_neg h', List.filter_cons, if_neg (by simp [h])]
    · rw [List.filter_cons, if_pos (by simp [h]), List.map_cons, removeKid, removeKid]
      by_cases h' : k.info.name = ⟨n, some nsXsd⟩
      · rw [if_pos h', if_pos (show (bareNd k).info.name = _ from h')]
        rfl
      · rw [if_neg h', if_neg (show ¬ (bareNd k).info.name = _ from h'), ih, List.filter_cons, if_pos (by simp [h])]
        rfl

theorem removeKids_bare {n : Str} (hn : n ≠ c!"annotation") (ks : List Nd) :
    removeKids n (bareNds ks) = (bareNds (removeKids n ks).1, bareNds (removeKids n ks).2) := by
  unfold removeKids bareNds
  induction ks with
  | nil => rfl
  | cons k ks ih =>
    have ih1 := congrArg Prod.fst ih
    have ih2 := congrArg Prod.snd ih
    simp only at ih1 ih2
    by_cases h : k.info.name = annName
    · have h' : ¬ k.info.name = ⟨n, some nsXsd⟩ := by
        rw [h]
        intro h
        exact hn (congrArg QName.loc h).symm
      have h3 : ¬ annName = ⟨n, some nsXsd⟩ := h ▸ h'
      simp only [List.filter_cons, h, h3, decide_true, Bool.not_true, decide_false, not_false_eq_true, Bool.false_eq_true, if_false, if_true]
      exact Prod.ext ih1 ih2
    · by_cases h' : k.info.name = ⟨n, some nsXsd⟩
      · have h2 : (bareNd k).info.name = ⟨n, some nsXsd⟩ := h'
        have h3 : ¬ (⟨n, some nsXsd⟩ : QName) = annName := h' ▸ h
        simp only [List.filter_cons, h', h2, h3, List.map_cons, decide_true, Bool.not_false, decide_false, not_true_eq_false, Bool.false_eq_true, if_false, if_true]
        exact Prod.ext (by rw [ih1]) ih2
      · have h2 : ¬ (bareNd k).info.name = ⟨n, some nsXsd⟩ := h'
        simp only [List.filter_cons, h, h', h2, List.map_cons, decide_true, Bool.not_false, decide_false, not_false_eq_true, Bool.false_eq_true, if_false, if_true]
        exact Prod.ext ih1 (by rw [ih2])

/-! ## Attributes -/

theorem attr_bare (nd : Nd) (n : Str) : (bareNd nd).attr n = (nd.attr n).map placelessAttr := by
  unfold Nd.attr
  show (nd.info.attrs.map placelessAttr).reverse.find? _ = _
  rw [← List.map_reverse, List.find?_map]
  rfl

theorem attrVal_bare (nd : Nd) (n : Str) : ((bareNd nd).attr n).map XAttr.value = (nd.attr n).map XAttr.value := by
  rw [attr_bare, Option.map_map]
  rfl

theorem tryAttr_bare {nd : Nd} {n : Str} {a : XAttr} (h : nd.tryAttr n = .ok a) : (bareNd nd).tryAttr n = .ok (placelessAttr a) := by
  unfold Nd.tryAttr at h ⊢
  rw [attr_bare]
  cases ha : nd.attr n with
  | none => rw [ha] at h; cases h
  | some b => rw [ha] at h; cases h; rfl

theorem lastAttrs_bare (as : List XAttr) : lastAttrs (as.map placelessAttr) = (lastAttrs as).map placelessAttr := by
  induction as with
  | nil => rfl
  | cons a as ih =>
    rw [List.map_cons, lastAttrs, lastAttrs, ih]
    have h : (as.map placelessAttr).any (fun b => decide (b.loc = (placelessAttr a).loc)) = as.any (fun b => decide (b.loc = a.loc)) := by
      rw [List.any_map]
      rfl
    rw [h]
    split <;> rfl

theorem prevent_bare {nd : Nd} {u : Unit} (h : nd.preventUnvisitedAttributes = .ok u) : (bareNd nd).preventUnvisitedAttributes = .ok u := by
  unfold Nd.preventUnvisitedAttributes at h ⊢
  show (match (lastAttrs (nd.info.attrs.map placelessAttr)).find? _ with | some a => _ | none => _) = _
  rw [lastAttrs_bare, List.find?_map]
  split at h
  · cases h
  · next hn =>
    cases h
    have : ((lastAttrs nd.info.attrs).find? ((fun a : XAttr => decide (a.ns = none ∧ a.loc ∉ (bareNd nd).seen)) ∘ placelessAttr)) = none := hn
    rw [this]
    rfl

/-! ## Steps of the parser -/

/-- The context without documentation. -/
def plainCtx (s : PCtx) : PCtx := { s with roots := plainRoots s.roots }

/-- If the first step succeeds, then the second has the same result, up to `f`, on the context without documentation, or it has not
enough fuel. -/
def Und {α β : Type} (f : α → β) (m : P α) (m' : P β) : Prop :=
  ∀ s a s', m s = .ok (a, s') → m' (plainCtx s) = .ok (f a, plainCtx s') ∨ m' (plainCtx s) = .diverge

section
variable {α β γ δ : Type}

theorem Und.bind {f : α → β} {g : γ → δ} {m : P α} {m' : P β} {h : α → P γ} {h' : β → P δ} (hm : Und f m m')
    (hh : ∀ a, Und g (h a) (h' (f a))) : Und g (m >>= h) (m' >>= h') := by
  intro s c s' hs
  obtain ⟨a, s1, h1, h2⟩ := P.bind_ok.1 hs
  rcases hm s a s1 h1 with h3 | h3
  · rcases hh a s1 c s' h2 with h4 | h4
    · exact .inl (P.bind_ok.2 ⟨_, _, h3, h4⟩)
    · refine .inr ?_
      show P.bnd m' h' _ = _
      unfold P.bnd
      rw [h3]
      exact h4
  · refine .inr ?_
    show P.bnd m' h' _ = _
    unfold P.bnd
    rw [h3]

theorem Und.pure {f : α → β} {a : α} {b : β} (h : f a = b) : Und f (Pure.pure a) (Pure.pure b) := by
  intro s c s' hs
  obtain ⟨rfl, rfl⟩ := P.pure_ok.1 hs
  exact .inl (by rw [h]; rfl)

theorem Und.lift {f : α → β} {r : Res XErr α} {r' : Res XErr β} (h : ∀ a, r = .ok a → r' = .ok (f a)) : Und f (P.lift r) (P.lift r') := by
  intro s c s' hs
  cases r with
  | ok a => cases hs; rw [h _ rfl]; exact .inl rfl
  | err e => cases hs
  | panic => cases hs
  | diverge => cases hs

theorem Und.lift_eq {r : Res XErr α} : Und (fun a => a) (P.lift r) (P.lift r) := .lift fun _ h => h

theorem Und.fail {f : α → β} {e : XErr} {m' : P β} : Und f (P.fail e) m' := by
  intro s c s' hs
  cases hs

theorem Und.left {f : α → β} {m' : P β} : Und f P.diverge m' := by
  intro s c s' hs
  cases hs

theorem Und.right {f : α → β} {m : P α} : Und f m P.diverge := fun _ _ _ _ => .inr rfl

theorem Und.ite {f : α → β} {c : Prop} [Decidable c] {a b : P α} {a' b' : P β} (h : c → Und f a a') (h' : ¬ c → Und f b b') :
    Und f (if c then a else b) (if c then a' else b') := by
  split
  · exact h ‹_›
  · exact h' ‹_›

end

theorem literalOr_bare {n : Str} {a : XAttr} {c : LeafContent} (h : literalOr n a = .ok c) : literalOr n (placelessAttr a) = .ok c := by
  unfold literalOr at h ⊢
  split at h
  · exact h
  · cases h

theorem Und.typeName (a : XAttr) : Und (fun c => c) (getTypeName a) (getTypeName (placelessAttr a)) := by
  intro s c s' hs
  refine .inl ?_
  unfold getTypeName at hs ⊢
  show (match splitn2 a.value with | (pfx, some n) => _ | (n, none) => _) = _
  cases hv : splitn2 a.value with
  | mk pfx o =>
    rw [hv] at hs
    cases o with
    | some n =>
      simp only at hs ⊢
      show (match alookup s.docNss pfx with | none => _ | some uri => _) = _
      cases hl : alookup s.docNss pfx with
      | none => rw [hl] at hs; cases hs
      | some uri =>
        rw [hl] at hs
        simp only at hs ⊢
        split at hs
        · next h =>
          rw [if_pos h]
          cases hr : literalOr n a with
          | ok t => rw [hr] at hs; cases hs; rw [literalOr_bare hr]; rfl
          | err e => rw [hr] at hs; cases hs
          | panic => rw [hr] at hs; cases hs
          | diverge => rw [hr] at hs; cases hs
        · next h =>
          rw [if_neg h]
          cases hs
          rfl
    | none =>
      simp only at hs ⊢
      show (if s.defaultNs = some nsXsd then _ else _) = _
      split at hs
      · next h =>
        rw [if_pos h]
        cases hr : literalOr pfx a with
        | ok t => rw [hr] at hs; cases hs; rw [literalOr_bare hr]; rfl
        | err e => rw [hr] at hs; cases hs
        | panic => rw [hr] at hs; cases hs
        | diverge => rw [hr] at hs; cases hs
      · next h =>
        rw [if_neg h]
        cases hs
        rfl

theorem Und.node (n : Str) : Und (fun c => c) (nodeName n) (nodeName n) := by
  intro s c s' hs
  cases hs
  exact .inl rfl

theorem Und.virtual (x : Ext) (ns : List Name) (b : Bool) : Und (fun c => c) (deriveVirtualName x ns b) (deriveVirtualName x ns b) := by
  intro s c s' hs
  unfold deriveVirtualName at hs ⊢
  cases h : virtualName x (ns.map Name.name) b with
  | ok n => rw [h] at hs; cases hs; exact .inl rfl
  | err e => rw [h] at hs; cases hs
  | panic => rw [h] at hs; cases hs
  | diverge => rw [h] at hs; cases hs

theorem plainRoots_insert (rs : List (Name × Root)) (n : Name) (r : Root) : plainRoots (ainsert rs n r) = ainsert (plainRoots rs) n (plainRoot r) := by
  unfold plainRoots
  induction rs with
  | nil => rfl
  | cons p rs ih =>
    obtain ⟨m, q⟩ := p
    simp only [ainsert, List.map_cons]
    split
    · rfl
    · rw [List.map_cons, ih]

theorem Und.root (n : Name) (r : Root) : Und (fun c => c) (addRoot n r) (addRoot n (plainRoot r)) := by
  intro s c s' hs
  cases hs
  refine .inl ?_
  show Res.ok ((), (plainCtx s).addRoot n (plainRoot r)) = .ok ((), plainCtx (s.addRoot n r))
  unfold plainCtx PCtx.addRoot
  rw [plainRoots_insert]

theorem Und.discover (n p : Name) : Und (fun c => c) (discoverType n p) (discoverType n p) := by
  intro s c s' hs
  cases hs
  exact .inl rfl

theorem Und.annotation (x : Ext) (o : Option Nd) : Und (fun _ => none) (P.lift (parseAnnotation x o)) (P.lift (parseAnnotation x none)) :=
  .lift fun _ _ => rfl

theorem Und.noChildren {nd nd' : Nd} {ks : List Nd} : Und (fun a => a) (P.lift (preventUnvisitedChildren nd ks)) (P.lift (preventUnvisitedChildren nd' (bareNds ks))) := by
  refine .lift fun a h => ?_
  cases ks with
  | nil => exact h
  | cons k ks => cases h

theorem Und.tryKid {nd : Nd} {n : Str} (hn : n ≠ c!"annotation") {ks : List Nd} :
    Und (fun p => (bareNd p.1, bareNds p.2)) (P.lift (tryRemoveKid nd n ks)) (P.lift (tryRemoveKid (bareNd nd) n (bareNds ks))) := by
  refine .lift fun a h => ?_
  unfold tryRemoveKid at h ⊢
  rw [removeKid_bare hn]
  rcases hr : removeKid n ks with ⟨_ | k, rest⟩
  · rw [hr] at h; cases h
  · rw [hr] at h; cases h; rfl

theorem Und.attrOf (nd : Nd) (n : Str) : Und placelessAttr (P.lift (nd.tryAttr n)) (P.lift ((bareNd nd).tryAttr n)) := .lift fun _ h => tryAttr_bare h

theorem Und.prevent (nd : Nd) : Und (fun a => a) (P.lift nd.preventUnvisitedAttributes) (P.lift (bareNd nd).preventUnvisitedAttributes) :=
  .lift fun _ h => prevent_bare h

theorem parseU32_bare {a : XAttr} {n : Nat} (h : parseU32 a = .ok n) : parseU32 (placelessAttr a) = .ok n := by
  unfold parseU32 at h ⊢
  rw [show (placelessAttr a).value = a.value from rfl]
  cases hv : parseInt false 0 u32Max a.value with
  | some i => rw [hv] at h; exact h
  | none => rw [hv] at h; cases h

theorem parseUsize_bare {a : XAttr} {n : Nat} (h : parseUsize a = .ok n) : parseUsize (placelessAttr a) = .ok n := by
  unfold parseUsize at h ⊢
  rw [show (placelessAttr a).value = a.value from rfl]
  cases hv : parseInt false 0 u64Max a.value with
  | some i => rw [hv] at h; exact h
  | none => rw [hv] at h; cases h

theorem parseDec_bare {x : Ext} {a : XAttr} {n : Nat} (h : parseDec x a = .ok n) : parseDec x (placelessAttr a) = .ok n := by
  unfold parseDec at h ⊢
  rw [show (placelessAttr a).value = a.value from rfl]
  cases hv : x.parseDecimal a.value with
  | some i => rw [hv] at h; exact h
  | none => rw [hv] at h; cases h

theorem Und.minOccurs (nd : Nd) (n : Str) : Und (fun a => a) (P.lift (parseMinOccurs (nd.attr n))) (P.lift (parseMinOccurs ((bareNd nd).attr n))) := by
  refine .lift fun a h => ?_
  rw [attr_bare]
  cases ha : nd.attr n with
  | none => rw [ha] at h; exact h
  | some b => rw [ha] at h; exact parseU32_bare h

theorem Und.maxOccurs (nd : Nd) (n : Str) : Und (fun a => a) (P.lift (parseMaxOccurs (nd.attr n))) (P.lift (parseMaxOccurs ((bareNd nd).attr n))) := by
  refine .lift fun a h => ?_
  rw [attr_bare]
  cases ha : nd.attr n with
  | none => rw [ha] at h; exact h
  | some b =>
    rw [ha] at h
    simp only [Option.map_some, parseMaxOccurs] at h ⊢
    rw [show (placelessAttr b).value = b.value from rfl]
    split at h
    · next hu => rw [if_pos hu]; exact h
    · next hu =>
      rw [if_neg hu]
      obtain ⟨m, h1, h2⟩ := Res.bind_eq_ok.1 h
      exact Res.bind_eq_ok.2 ⟨m, parseU32_bare h1, h2⟩

end Ann
end Xsd
