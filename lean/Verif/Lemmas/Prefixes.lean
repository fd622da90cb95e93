import Verif.Spec.Prefixes
import Verif.Lemmas.Parse
import Verif.Lemmas.Blame
/-!
# The parser on schemas with other prefixes: nodes and steps
-/
namespace Xsd
namespace Pre

/-- Both results are successes, related by `f`, or both are failures of the same kind. -/
inductive Alike {ε ε' α β : Type} (f : α → β) : Res ε α → Res ε' β → Prop
  | ok (a : α) : Alike f (.ok a) (.ok (f a))
  | err (e : ε) (e' : ε') : Alike f (.err e) (.err e')
  | panic : Alike f .panic .panic
  | diverge : Alike f .diverge .diverge

theorem Alike.ok' {ε ε' α β : Type} {f : α → β} {a : α} {b : β} (h : f a = b) : Alike f (.ok a : Res ε α) (.ok b : Res ε' β) := h ▸ .ok a

theorem Alike.bind {ε ε' α β γ δ : Type} {f : α → β} {g : γ → δ} {r : Res ε α} {r' : Res ε' β} {h : α → Res ε γ} {h' : β → Res ε' δ}
    (hr : Alike f r r') (hh : ∀ a, Alike g (h a) (h' (f a))) : Alike g (r >>= h) (r' >>= h') := by
  cases hr with
  | ok a => exact hh a
  | err e e' => exact .err e e'
  | panic => exact .panic
  | diverge => exact .diverge

theorem Alike.ite {ε ε' α β : Type} {f : α → β} {c : Prop} [Decidable c] {a b : Res ε α} {a' b' : Res ε' β} (h : c → Alike f a a')
    (h' : ¬ c → Alike f b b') : Alike f (if c then a else b) (if c then a' else b') := by
  split
  · exact h ‹_›
  · exact h' ‹_›

variable (R : Rewriting)

/-! ## Nodes -/

/-- A node with the new prefixes. -/
def reNd (nd : Nd) : Nd := { nd with info := reInfo R nd.info, kids := reKids R nd.kids }

theorem reKids_elems : ∀ cs : List XNode, elemKids (reKids R cs) = (elemKids cs).map (fun e => (reInfo R e.1, reKids R e.2))
  | [] => by rw [reKids]; rfl
  | n :: ns => by
    have ih := reKids_elems ns
    rw [reKids]
    cases n with
    | elem i cs =>
      have h : elemKids (.elem i cs :: ns) = (i, cs) :: elemKids ns := rfl
      rw [reNode, h, List.map_cons, ← ih]
      rfl
    | text s => rw [reNode]; exact ih
    | other => rw [reNode]; exact ih

theorem xsdKids_re (nd : Nd) : (reNd R nd).xsdKids = nd.xsdKids.map (reNd R) := by
  unfold Nd.xsdKids
  show ((elemKids (reKids R nd.kids)).filter _).map _ = _
  rw [reKids_elems, List.filter_map, List.map_map, List.map_map]
  rfl

theorem child_re (nd : Nd) (n : Str) : (reNd R nd).child n = (nd.child n).map (reNd R) := by
  unfold Nd.child
  show ((elemKids (reKids R nd.kids)).find? _).map _ = _
  rw [reKids_elems, List.find?_map, Option.map_map, Option.map_map]
  rfl

theorem removeKid_re (n : Str) (ks : List Nd) :
    removeKid n (ks.map (reNd R)) = ((removeKid n ks).1.map (reNd R), (removeKid n ks).2.map (reNd R)) := by
  induction ks with
  | nil => rfl
  | cons k ks ih =>
    rw [List.map_cons, removeKid, removeKid]
    by_cases h : k.info.name = ⟨n, some nsXsd⟩
    · rw [if_pos h, if_pos (show (reNd R k).info.name = _ from h)]
      rfl
    · rw [if_neg h, if_neg (show ¬ (reNd R k).info.name = _ from h), ih]
      rfl

theorem removeKids_re (n : Str) (ks : List Nd) :
    removeKids n (ks.map (reNd R)) = ((removeKids n ks).1.map (reNd R), (removeKids n ks).2.map (reNd R)) := by
  unfold removeKids
  rw [List.filter_map, List.filter_map]
  rfl

theorem depth_re (cs : List XNode) : kidsDepth (reKids R cs) = kidsDepth cs := by
  induction cs using kidsDepth.induct (motive_1 := fun n => (reNode R n).depth = n.depth) with
  | case1 i cs ih => rw [reNode, XNode.depth, XNode.depth, ih]
  | case2 s => rw [reNode]
  | case3 => rw [reNode]
  | case4 => rw [reKids]
  | case5 n ns h1 h2 => rw [reKids, kidsDepth, kidsDepth, h1, h2]

theorem fuel_re (nd : Nd) : (reNd R nd).fuel = nd.fuel := by
  unfold Nd.fuel
  show 3 * kidsDepth (reKids R nd.kids) + 3 = _
  rw [depth_re]

theorem text_re (nd : Nd) : (reNd R nd).text = nd.text := by
  unfold Nd.text
  show (match reKids R nd.kids with | .text s :: _ => _ | _ => _) = _
  cases nd.kids with
  | nil => rw [reKids]
  | cons n ns =>
    rw [reKids]
    cases n <;> rw [reNode]

/-! ## Attributes -/

theorem attr_re (nd : Nd) (n : Str) : (reNd R nd).attr n = (nd.attr n).map (reAttr R) := by
  unfold Nd.attr
  show (nd.info.attrs.map (reAttr R)).reverse.find? _ = _
  rw [← List.map_reverse, List.find?_map]
  rfl

theorem attr_loc {nd : Nd} {n : Str} {a : XAttr} (h : nd.attr n = some a) : a.loc = n := by
  have := List.find?_some h
  exact of_decide_eq_true this

theorem value_re {a : XAttr} (h : a.loc ∉ qualified) : (reAttr R a).value = a.value := if_neg h

theorem attrVal_re (nd : Nd) {n : Str} (hn : n ∉ qualified) : ((reNd R nd).attr n).map XAttr.value = (nd.attr n).map XAttr.value := by
  rw [attr_re]
  cases h : nd.attr n with
  | none => rfl
  | some a => exact congrArg some (value_re R (attr_loc h ▸ hn))

theorem lastAttrs_re (as : List XAttr) : lastAttrs (as.map (reAttr R)) = (lastAttrs as).map (reAttr R) := by
  induction as with
  | nil => rfl
  | cons a as ih =>
    rw [List.map_cons, lastAttrs, lastAttrs, ih]
    have h : (as.map (reAttr R)).any (fun b => decide (b.loc = (reAttr R a).loc)) = as.any (fun b => decide (b.loc = a.loc)) := by
      rw [List.any_map]
      rfl
    rw [h]
    split <;> rfl

theorem prevent_re (nd : Nd) : Alike (fun a => a) nd.preventUnvisitedAttributes (reNd R nd).preventUnvisitedAttributes := by
  unfold Nd.preventUnvisitedAttributes
  have h : (lastAttrs (reNd R nd).info.attrs).find? (fun a => a.ns = none ∧ a.loc ∉ (reNd R nd).seen) =
      ((lastAttrs nd.info.attrs).find? (fun a => a.ns = none ∧ a.loc ∉ nd.seen)).map (reAttr R) := by
    show (lastAttrs (nd.info.attrs.map (reAttr R))).find? _ = _
    rw [lastAttrs_re, List.find?_map]
    rfl
  rw [h]
  cases (lastAttrs nd.info.attrs).find? (fun a => a.ns = none ∧ a.loc ∉ nd.seen) with
  | none => exact .ok ()
  | some a => exact .err _ _

theorem tryAttr_re (nd : Nd) (n : Str) : Alike (reAttr R) (nd.tryAttr n) ((reNd R nd).tryAttr n) := by
  unfold Nd.tryAttr
  rw [attr_re]
  cases nd.attr n with
  | none => exact .err _ _
  | some a => exact .ok a

/-- The rest only uses the value of an attribute that is not a qualified name. -/
theorem Alike.attr {γ δ : Type} {g : γ → δ} {nd : Nd} {n : Str} (hn : n ∉ qualified) {h : XAttr → Res XErr γ} {h' : XAttr → Res XErr δ}
    (hh : ∀ a : XAttr, (reAttr R a).value = a.value → Alike g (h a) (h' (reAttr R a))) :
    Alike g (nd.tryAttr n >>= h) ((reNd R nd).tryAttr n >>= h') := by
  unfold Nd.tryAttr
  rw [attr_re]
  cases ha : nd.attr n with
  | none => exact .err _ _
  | some a => exact hh a (value_re R (attr_loc ha ▸ hn))

theorem noChildren_re (nd nd' : Nd) (ks : List Nd) :
    Alike (fun a => a) (preventUnvisitedChildren nd ks) (preventUnvisitedChildren nd' (ks.map (reNd R))) := by
  cases ks with
  | nil => exact .ok ()
  | cons k ks => exact .err _ _

theorem tryText_re (nd : Nd) : Alike (fun t => t) nd.tryText (reNd R nd).tryText := by
  unfold Nd.tryText
  rw [text_re]
  cases nd.text with
  | none => exact .err _ _
  | some t => exact .ok t

theorem annotation_re (x : Ext) (o : Option Nd) : Alike (fun a => a) (parseAnnotation x o) (parseAnnotation x (o.map (reNd R))) := by
  cases o with
  | none => exact .ok none
  | some nd =>
    show Alike _ (parseAnnotation1 x nd) (parseAnnotation1 x (reNd R nd))
    unfold parseAnnotation1
    simp only
    rw [xsdKids_re, removeKid_re, removeKids_re]
    refine .bind (f := fun a => a) ?_ fun docs => .bind (noChildren_re R _ _ _) fun _ => .bind (prevent_re R nd) fun _ => .ok docs
    cases (removeKid c!"documentation" nd.xsdKids).1 with
    | none => exact .ok none
    | some d => exact .bind (tryText_re R d) fun t => .ok _

/-! ## Nodes whose names mean the same -/

/-- A way to rewrite a document, and the namespace declarations before and after. -/
structure Setting where
  R : Rewriting
  decls : List (Option Str × Str)
  decls' : List (Option Str × Str)
  nodup : (decls.map Prod.fst).Nodup
  nodup' : (decls'.map Prod.fst).Nodup

/-- The value of the attribute means the same. -/
def GoodAttr (E : Setting) (a : XAttr) : Prop := a.loc ∈ qualified → SameMeaning E.decls a.value E.decls' (E.R.value a)

/-- All attributes in the node mean the same. -/
def Good (E : Setting) (nd : Nd) : Prop := ∀ a ∈ nd.info.attrs ++ attrsInAll nd.kids, GoodAttr E a

theorem attrsInAll_elem {cs : List XNode} {e : Elem} (h : e ∈ elemKids cs) : ∀ a ∈ e.1.attrs ++ attrsInAll e.2, a ∈ attrsInAll cs := by
  induction cs with
  | nil => cases h
  | cons n ns ih =>
    intro a ha
    rw [attrsInAll]
    cases n with
    | elem i cs =>
      rcases List.mem_cons.1 (show e ∈ (i, cs) :: elemKids ns from h) with rfl | h
      · exact List.mem_append_left _ (by rw [attrsIn]; exact ha)
      · exact List.mem_append_right _ (ih h a ha)
    | text s => exact List.mem_append_right _ (ih h a ha)
    | other => exact List.mem_append_right _ (ih h a ha)

section
variable {E : Setting}

theorem good_of {nd : Nd} (h : Good E nd) {e : Elem} (he : e ∈ elemKids nd.kids) : Good E (Nd.of e) :=
  fun a ha => h a (List.mem_append_right _ (attrsInAll_elem he a ha))

theorem good_xsdKids {nd : Nd} (h : Good E nd) : ∀ k ∈ nd.xsdKids, Good E k := by
  intro k hk
  obtain ⟨e, he, rfl⟩ := List.mem_map.1 hk
  exact good_of h (List.mem_filter.1 he).1

theorem removeKid_sub (n : Str) (ks : List Nd) : (∀ c, (removeKid n ks).1 = some c → c ∈ ks) ∧ ∀ k ∈ (removeKid n ks).2, k ∈ ks := by
  induction ks with
  | nil => exact ⟨fun c h => (nomatch h), fun k h => (nomatch h)⟩
  | cons k ks ih =>
    rw [removeKid]
    split
    · exact ⟨fun c h => by cases h; exact List.mem_cons_self, fun k h => List.mem_cons_of_mem _ h⟩
    · refine ⟨fun c h => List.mem_cons_of_mem _ (ih.1 c h), fun q h => ?_⟩
      rcases List.mem_cons.1 h with rfl | h
      · exact List.mem_cons_self
      · exact List.mem_cons_of_mem _ (ih.2 q h)

theorem good_kid {n : Str} {ks rest : List Nd} {c : Nd} (h : ∀ k ∈ ks, Good E k) (hr : removeKid n ks = (some c, rest)) : Good E c :=
  h c ((removeKid_sub n ks).1 c (by rw [hr]))

theorem good_rest {n : Str} {ks : List Nd} (h : ∀ k ∈ ks, Good E k) : ∀ k ∈ (removeKid n ks).2, Good E k :=
  fun k hk => h k ((removeKid_sub n ks).2 k hk)

theorem good_all {n : Str} {ks : List Nd} (h : ∀ k ∈ ks, Good E k) : ∀ k ∈ (removeKids n ks).1, Good E k :=
  fun k hk => h k (List.mem_filter.1 hk).1

theorem good_attr {nd : Nd} (h : Good E nd) {n : Str} {a : XAttr} (ha : nd.attr n = some a) : GoodAttr E a :=
  h a (List.mem_append_left _ (List.mem_reverse.1 (List.mem_of_find?_eq_some ha)))

end

/-! ## Steps of the parser -/

/-- The prefixes of namespace declarations, as the parser keeps them. -/
def prefixesOf (decls : List (Option Str × Str)) : List (Str × Str) :=
  decls.foldl (fun m p => match p.1 with | some pfx => ainsert m pfx p.2 | none => m) []

/-- The default namespace. -/
def defaultOf (decls : List (Option Str × Str)) : Option Str := (decls.find? (fun p => p.1 = none)).map Prod.snd

/-- The context of a document with the old declarations. -/
def InDoc (E : Setting) (s : PCtx) : Prop := s.docNss = prefixesOf E.decls ∧ s.defaultNs = defaultOf E.decls

/-- The context with the new prefixes. -/
def reCtx (E : Setting) (s : PCtx) : PCtx := { s with docNss := prefixesOf E.decls', defaultNs := defaultOf E.decls' }

/-- The second step does on the context with the new prefixes what the first does, up to `f`. -/
def Ren (E : Setting) {α β : Type} (f : α → β) (m : P α) (m' : P β) : Prop := ∀ s, InDoc E s →
  Alike (fun q => (f q.1, reCtx E q.2)) (m s) (m' (reCtx E s)) ∧ ∀ a s', m s = .ok (a, s') → InDoc E s'

section
variable {E : Setting}
variable {α β γ δ : Type}

theorem Ren.bindPost {f : α → β} {g : γ → δ} {m : P α} {m' : P β} {h : α → P γ} {h' : β → P δ} {Q : α → Prop} (hm : Ren E f m m')
    (hq : ∀ s a s', m s = .ok (a, s') → Q a) (hh : ∀ a, Q a → Ren E g (h a) (h' (f a))) : Ren E g (m >>= h) (m' >>= h') := by
  intro s hs
  refine ⟨?_, fun c s' hc => ?_⟩
  · show Alike _ (P.bnd m h s) (P.bnd m' h' (reCtx E s))
    unfold P.bnd
    have h1 := (hm s hs).1
    have h2 := (hm s hs).2
    have h3 := hq s
    revert h1 h2 h3
    generalize m s = r
    generalize m' (reCtx E s) = r'
    intro h1 h2 h3
    cases h1 with
    | ok a => exact (hh a.1 (h3 _ _ rfl) a.2 (h2 _ _ rfl)).1
    | err e e' => exact .err e e'
    | panic => exact .panic
    | diverge => exact .diverge
  · obtain ⟨a, s1, h1, h2⟩ := P.bind_ok.1 hc
    exact (hh a (hq _ _ _ h1) s1 ((hm s hs).2 a s1 h1)).2 c s' h2

theorem Ren.bind {f : α → β} {g : γ → δ} {m : P α} {m' : P β} {h : α → P γ} {h' : β → P δ} (hm : Ren E f m m')
    (hh : ∀ a, Ren E g (h a) (h' (f a))) : Ren E g (m >>= h) (m' >>= h') :=
  .bindPost (Q := fun _ => True) hm (fun _ _ _ _ => trivial) fun a _ => hh a

/-- A step that does not change the declarations. -/
theorem Ren.step {f : α → β} {m : P α} {m' : P β} (h : ∀ s, Alike (fun q => (f q.1, reCtx E q.2)) (m s) (m' (reCtx E s)))
    (hs : ∀ s a s', m s = .ok (a, s') → s'.docNss = s.docNss ∧ s'.defaultNs = s.defaultNs) : Ren E f m m' :=
  fun s hd => ⟨h s, fun a s' h' => ⟨(hs s a s' h').1.trans hd.1, (hs s a s' h').2.trans hd.2⟩⟩

theorem Ren.pure {f : α → β} {a : α} {b : β} (h : f a = b) : Ren E f (Pure.pure a) (Pure.pure b) := by
  refine .step (fun s => .ok' (by rw [h])) fun s c s' hs => ?_
  obtain ⟨rfl, rfl⟩ := P.pure_ok.1 hs
  exact ⟨rfl, rfl⟩

theorem Ren.lift {f : α → β} {r : Res XErr α} {r' : Res XErr β} (h : Alike f r r') : Ren E f (P.lift r) (P.lift r') := by
  cases h with
  | ok a => exact .step (fun s => .ok (a, s)) fun s c s' hs => by cases hs; exact ⟨rfl, rfl⟩
  | err e e' => exact .step (fun s => .err e e') fun s c s' hs => nomatch hs
  | panic => exact .step (fun s => .panic) fun s c s' hs => nomatch hs
  | diverge => exact .step (fun s => .diverge) fun s c s' hs => nomatch hs

theorem Ren.fail {f : α → β} {e e' : XErr} : Ren E f (P.fail e) (P.fail e') := .step (fun _ => .err _ _) fun _ _ _ hs => nomatch hs

theorem Ren.diverge {f : α → β} : Ren E f P.diverge P.diverge := .step (fun _ => .diverge) fun _ _ _ hs => nomatch hs

theorem Ren.ite {f : α → β} {c : Prop} [Decidable c] {a b : P α} {a' b' : P β} (h : c → Ren E f a a') (h' : ¬ c → Ren E f b b') :
    Ren E f (if c then a else b) (if c then a' else b') := by
  split
  · exact h ‹_›
  · exact h' ‹_›

end

/-! ## Looking up prefixes -/

theorem fold_lookup (decls : List (Option Str × Str)) (m : List (Str × Str)) (p : Str) (h : (decls.map Prod.fst).Nodup) :
    (∀ u, (some p, u) ∈ decls → alookup (decls.foldl (fun m p => match p.1 with | some pfx => ainsert m pfx p.2 | none => m) m) p = some u) ∧
    ((∀ u, (some p, u) ∉ decls) → alookup (decls.foldl (fun m p => match p.1 with | some pfx => ainsert m pfx p.2 | none => m) m) p = alookup m p) := by
  induction decls generalizing m with
  | nil => exact ⟨fun u h => (nomatch h), fun _ => rfl⟩
  | cons d ds ih =>
    obtain ⟨o, w⟩ := d
    rw [List.map_cons, List.nodup_cons] at h
    rw [List.foldl_cons]
    cases o with
    | none =>
      obtain ⟨h1, h2⟩ := ih m h.2
      refine ⟨fun u hu => h1 u ?_, fun hu => h2 fun u h' => hu u (List.mem_cons_of_mem _ h')⟩
      rcases List.mem_cons.1 hu with hu | hu
      · cases hu
      · exact hu
    | some q =>
      obtain ⟨h1, h2⟩ := ih (ainsert m q w) h.2
      refine ⟨fun u hu => ?_, fun hu => ?_⟩
      · rcases List.mem_cons.1 hu with hu | hu
        · cases hu
          refine (h2 fun u' h' => h.1 (List.mem_map.2 ⟨_, h', rfl⟩)).trans ?_
          rw [alookup_ainsert, if_pos rfl]
        · exact h1 u hu
      · refine (h2 fun u h' => hu u (List.mem_cons_of_mem _ h')).trans ?_
        rw [alookup_ainsert, if_neg]
        rintro rfl
        exact hu w List.mem_cons_self

theorem default_some {decls : List (Option Str × Str)} (h : (decls.map Prod.fst).Nodup) {u : Str} (hu : (none, u) ∈ decls) : defaultOf decls = some u := by
  unfold defaultOf
  induction decls with
  | nil => cases hu
  | cons d ds ih =>
    obtain ⟨o, w⟩ := d
    rw [List.map_cons, List.nodup_cons] at h
    cases o with
    | none =>
      rcases List.mem_cons.1 hu with hu | hu
      · cases hu; rfl
      · exact absurd (List.mem_map.2 ⟨_, hu, rfl⟩) h.1
    | some q =>
      rcases List.mem_cons.1 hu with hu | hu
      · cases hu
      · rw [List.find?_cons_of_neg (by simp)]
        exact ih h.2 hu

theorem default_none {decls : List (Option Str × Str)} (h : ∀ u, (none, u) ∉ decls) : defaultOf decls = none := by
  unfold defaultOf
  rw [Option.map_eq_none_iff, List.find?_eq_none]
  intro d hd hn
  obtain ⟨o, w⟩ := d
  have : o = none := of_decide_eq_true hn
  subst this
  exact h w hd

theorem splitn2_colonless : ∀ v : Str, ':' ∉ v → splitn2 v = (v, none)
  | [], _ => rfl
  | c :: cs, h => by
    unfold splitn2
    rw [if_neg (show ¬ c = ':' from fun hc => h (hc ▸ List.mem_cons_self)), splitn2_colonless cs fun hm => h (List.mem_cons_of_mem _ hm)]

theorem splitn2_append : ∀ p n : Str, ':' ∉ p → splitn2 (p ++ ':' :: n) = (p, some n)
  | [], n, _ => by simp [splitn2]
  | c :: cs, n, h => by
    rw [List.cons_append, splitn2, if_neg (show ¬ c = ':' from fun hc => h (hc ▸ List.mem_cons_self)), splitn2_append cs n fun hm => h (List.mem_cons_of_mem _ hm)]

theorem literalOr_re (n : Str) (a b : XAttr) : Alike (fun c => c) (literalOr n a) (literalOr n b) := by
  unfold literalOr
  cases literalFromStr n with
  | some t => exact .ok _
  | none => exact .err _ _

/-- The content for a name in a namespace. -/
def named (a : XAttr) (n : Str) : Option Str → P LeafContent
  | none => fun s => .ok (.named ⟨n, .none⟩, s)
  | some u => if u = nsXsd then P.lift (literalOr n a) else fun s => .ok (.named ⟨n, (s.nss.getOrInsert u).1⟩, { s with nss := (s.nss.getOrInsert u).2 })

theorem typeName_means {decls : List (Option Str × Str)} (hd : (decls.map Prod.fst).Nodup) {a : XAttr} {n : Str} {u : Option Str}
    (h : Means decls a.value n u) {s : PCtx} (h1 : s.docNss = prefixesOf decls) (h2 : s.defaultNs = defaultOf decls) :
    getTypeName a s = named a n u s := by
  unfold getTypeName
  generalize a.value = v at h
  cases h with
  | @prefixed p n u hp hu =>
    rw [splitn2_append p n hp]
    have hl : alookup s.docNss p = some u := by
      rw [h1]
      exact (fold_lookup decls [] p hd).1 u hu
    simp only [hl]
    by_cases hu : u = nsXsd
    · have hn : named a n (some u) = P.lift (literalOr n a) := if_pos hu
      rw [if_pos hu, hn]
    · have hn : named a n (some u) = fun s => .ok (.named ⟨n, (s.nss.getOrInsert u).1⟩, { s with nss := (s.nss.getOrInsert u).2 }) := if_neg hu
      rw [if_neg hu, hn]
  | builtin hn hu =>
    rw [splitn2_colonless _ hn]
    simp only
    rw [if_pos (by rw [h2, default_some hd hu])]
    have hn : named a n (some nsXsd) = P.lift (literalOr n a) := by unfold named; exact if_pos rfl
    rw [hn]
  | bare hn hu =>
    rw [splitn2_colonless _ hn]
    simp only
    rw [if_neg (by rw [h2, default_none hu]; nofun)]
    rfl

theorem typeName_undeclared {decls : List (Option Str × Str)} (hd : (decls.map Prod.fst).Nodup) {a : XAttr}
    (h : Undeclared decls a.value) {s : PCtx} (h1 : s.docNss = prefixesOf decls) : ∃ e, getTypeName a s = .err e := by
  obtain ⟨p, n, hv, hp, hu⟩ := h
  unfold getTypeName
  rw [hv, splitn2_append p n hp]
  have hl : alookup s.docNss p = none := by
    rw [h1]
    exact (fold_lookup decls [] p hd).2 hu
  simp only [hl]
  exact ⟨_, rfl⟩

section
variable {E : Setting}

theorem Ren.named (a b : XAttr) (n : Str) (u : Option Str) : Ren E (fun c => c) (named a n u) (named b n u) := by
  cases u with
  | none => exact .step (fun s => .ok' rfl) fun s c s' hs => by cases hs; exact ⟨rfl, rfl⟩
  | some u =>
    exact .ite (fun _ => .lift (literalOr_re n a b)) fun _ => .step (fun s => .ok' rfl) fun s c s' hs => by cases hs; exact ⟨rfl, rfl⟩

theorem typeName_re {a : XAttr} (hq : a.loc ∈ qualified) (h : GoodAttr E a) : Ren E (fun c => c) (getTypeName a) (getTypeName (reAttr E.R a)) := by
  intro s hs
  have hv : (reAttr E.R a).value = E.R.value a := if_pos hq
  rcases h hq with ⟨n, u, h1, h2⟩ | ⟨h1, h2⟩
  · rw [typeName_means E.nodup h1 hs.1 hs.2, typeName_means E.nodup' (hv ▸ h2) (s := reCtx E s) rfl rfl]
    exact Ren.named a _ n u s hs
  · obtain ⟨e, he⟩ := typeName_undeclared E.nodup h1 hs.1
    obtain ⟨e', he'⟩ := typeName_undeclared E.nodup' (hv ▸ h2) (s := reCtx E s) rfl
    rw [he, he']
    exact ⟨.err _ _, fun a s' h => nomatch h⟩

end

section
variable {E : Setting}

theorem Ren.failed {α β γ δ : Type} {g : γ → δ} {e e' : XErr} {h : α → P γ} {h' : β → P δ} :
    Ren E g (P.lift (.err e) >>= h) (P.lift (.err e') >>= h') := .step (fun _ => .err _ _) fun _ _ _ hs => nomatch hs

/-- Reading the type from an attribute. -/
theorem Ren.typeOf {γ δ : Type} {g : γ → δ} {nd : Nd} (hg : Good E nd) {n : Str} (hn : n ∈ qualified) {h : XAttr → P γ} {h' : XAttr → P δ}
    (hh : ∀ a : XAttr, a.loc ∈ qualified → GoodAttr E a → Ren E g (h a) (h' (reAttr E.R a))) :
    Ren E g (P.lift (nd.tryAttr n) >>= h) (P.lift ((reNd E.R nd).tryAttr n) >>= h') := by
  unfold Nd.tryAttr
  rw [attr_re]
  cases ha : nd.attr n with
  | none => exact .failed
  | some a => exact hh a (attr_loc ha ▸ hn) (good_attr hg ha)

/-- Reading the value of an attribute that is not a qualified name. -/
theorem Ren.valueOf {γ δ : Type} {g : γ → δ} {nd : Nd} {n : Str} (hn : n ∉ qualified) {h : XAttr → P γ} {h' : XAttr → P δ}
    (hh : ∀ a : XAttr, (reAttr E.R a).value = a.value → Ren E g (h a) (h' (reAttr E.R a))) :
    Ren E g (P.lift (nd.tryAttr n) >>= h) (P.lift ((reNd E.R nd).tryAttr n) >>= h') := by
  unfold Nd.tryAttr
  rw [attr_re]
  cases ha : nd.attr n with
  | none => exact .failed
  | some a => exact hh a (value_re E.R (attr_loc ha ▸ hn))

theorem Ren.node (n : Str) : Ren E (fun c => c) (nodeName n) (nodeName n) :=
  .step (fun _ => .ok' rfl) fun s c s' hs => by cases hs; exact ⟨rfl, rfl⟩

theorem Ren.virtual (x : Ext) (ns : List Name) (b : Bool) : Ren E (fun c => c) (deriveVirtualName x ns b) (deriveVirtualName x ns b) := by
  unfold deriveVirtualName
  cases virtualName x (ns.map Name.name) b with
  | ok n => exact .step (fun _ => .ok' rfl) fun s c s' hs => by cases hs; exact ⟨rfl, rfl⟩
  | err e => exact .step (fun _ => .panic) fun s c s' hs => nomatch hs
  | panic => exact .step (fun _ => .panic) fun s c s' hs => nomatch hs
  | diverge => exact .step (fun _ => .diverge) fun s c s' hs => nomatch hs

theorem Ren.root (n : Name) (r : Root) : Ren E (fun c => c) (addRoot n r) (addRoot n r) :=
  .step (fun _ => .ok' rfl) fun s c s' hs => by cases hs; exact ⟨rfl, rfl⟩

theorem Ren.discover (n p : Name) : Ren E (fun c => c) (discoverType n p) (discoverType n p) :=
  .step (fun _ => .ok' rfl) fun s c s' hs => by cases hs; exact ⟨rfl, rfl⟩

theorem Ren.annotation (x : Ext) (o : Option Nd) :
    Ren E (fun a => a) (P.lift (parseAnnotation x o)) (P.lift (parseAnnotation x (o.map (reNd E.R)))) := .lift (annotation_re E.R x o)

theorem Ren.noChildren {nd nd' : Nd} {ks : List Nd} :
    Ren E (fun a => a) (P.lift (preventUnvisitedChildren nd ks)) (P.lift (preventUnvisitedChildren nd' (ks.map (reNd E.R)))) :=
  .lift (noChildren_re E.R nd nd' ks)

theorem Ren.tryKid {γ δ : Type} {g : γ → δ} {nd : Nd} {n : Str} {ks : List Nd} (hg : ∀ k ∈ ks, Good E k) {h : Nd × List Nd → P γ} {h' : Nd × List Nd → P δ}
    (hh : ∀ c rest, Good E c → Ren E g (h (c, rest)) (h' (reNd E.R c, rest.map (reNd E.R)))) :
    Ren E g (P.lift (tryRemoveKid nd n ks) >>= h) (P.lift (tryRemoveKid (reNd E.R nd) n (ks.map (reNd E.R))) >>= h') := by
  unfold tryRemoveKid
  rw [removeKid_re]
  rcases hr : removeKid n ks with ⟨_ | k, rest⟩
  · exact .failed
  · exact hh k rest (good_kid hg hr)

theorem Ren.prevent (nd : Nd) : Ren E (fun a => a) (P.lift nd.preventUnvisitedAttributes) (P.lift (reNd E.R nd).preventUnvisitedAttributes) :=
  .lift (prevent_re E.R nd)

theorem u32_re {a b : XAttr} (h : b.value = a.value) : Alike (fun n => n) (parseU32 a) (parseU32 b) := by
  unfold parseU32
  rw [h]
  cases parseInt false 0 u32Max a.value with
  | some i => exact .ok _
  | none => exact .err _ _

theorem usize_re {a b : XAttr} (h : b.value = a.value) : Alike (fun n => n) (parseUsize a) (parseUsize b) := by
  unfold parseUsize
  rw [h]
  cases parseInt false 0 u64Max a.value with
  | some i => exact .ok _
  | none => exact .err _ _

theorem dec_re (x : Ext) {a b : XAttr} (h : b.value = a.value) : Alike (fun n => n) (parseDec x a) (parseDec x b) := by
  unfold parseDec
  rw [h]
  cases x.parseDecimal a.value with
  | some i => exact .ok _
  | none => exact .err _ _

theorem Ren.minOccurs (nd : Nd) : Ren E (fun a => a) (P.lift (parseMinOccurs (nd.attr c!"minOccurs"))) (P.lift (parseMinOccurs ((reNd E.R nd).attr c!"minOccurs"))) := by
  refine .lift ?_
  rw [attr_re]
  cases ha : nd.attr c!"minOccurs" with
  | none => exact .ok 1
  | some a => exact u32_re (value_re E.R (by rw [attr_loc ha]; decide))

theorem Ren.maxOccurs (nd : Nd) : Ren E (fun a => a) (P.lift (parseMaxOccurs (nd.attr c!"maxOccurs"))) (P.lift (parseMaxOccurs ((reNd E.R nd).attr c!"maxOccurs"))) := by
  refine .lift ?_
  rw [attr_re]
  cases ha : nd.attr c!"maxOccurs" with
  | none => exact .ok (MaxOccurs.number 1)
  | some a =>
    have hv := value_re E.R (a := a) (by rw [attr_loc ha]; decide)
    simp only [Option.map_some, parseMaxOccurs]
    rw [hv]
    exact .ite (fun _ => .ok _) fun _ => .bind (u32_re hv) fun n => .ok _

end

end Pre
end Xsd
