import Verif.Spec.Tidy
import Verif.Lemmas.Parse
/-!
# The parser on tidied schemas: nodes and steps
-/
namespace Xsd
namespace Tidy

/-- Both results are successes, related by `f`, or both are failures of the same kind, or one of the two has not enough fuel. -/
inductive Near {ε ε' α β : Type} (f : α → β) : Res ε α → Res ε' β → Prop
  | ok (a : α) : Near f (.ok a) (.ok (f a))
  | err (e : ε) (e' : ε') : Near f (.err e) (.err e')
  | panic : Near f .panic .panic
  | left (r : Res ε' β) : Near f .diverge r
  | right (r : Res ε α) : Near f r .diverge

theorem Near.ok' {ε ε' α β : Type} {f : α → β} {a : α} {b : β} (h : f a = b) : Near f (.ok a : Res ε α) (.ok b : Res ε' β) := h ▸ .ok a

theorem Near.bind {ε ε' α β γ δ : Type} {f : α → β} {g : γ → δ} {r : Res ε α} {r' : Res ε' β} {h : α → Res ε γ} {h' : β → Res ε' δ}
    (hr : Near f r r') (hh : ∀ a, Near g (h a) (h' (f a))) : Near g (r >>= h) (r' >>= h') := by
  cases hr with
  | ok a => exact hh a
  | err e e' => exact .err e e'
  | panic => exact .panic
  | left r => exact .left _
  | right r => exact .right _

theorem Near.ite {ε ε' α β : Type} {f : α → β} {c : Prop} [Decidable c] {a b : Res ε α} {a' b' : Res ε' β} (h : c → Near f a a')
    (h' : ¬ c → Near f b b') : Near f (if c then a else b) (if c then a' else b') := by
  split
  · exact h ‹_›
  · exact h' ‹_›

variable (O : Order)

/-! ## Nodes -/

/-- A tidied node. -/
def tidyNd (nd : Nd) : Nd := { nd with info := tidyInfo O nd.info, kids := leading nd.info nd.kids ++ tidyKids O nd.kids }

theorem leading_elems (i : ElemInfo) (cs ds : List XNode) : elemKids (leading i cs ++ ds) = elemKids ds := by
  unfold leading
  split
  · split
    · rfl
    · rfl
  · rfl

theorem tidyKids_elems : ∀ cs : List XNode, elemKids (tidyKids O cs) =
    ((elemKids cs).filter (fun e => e.1.name.ns = some nsXsd)).map (fun e => (tidyInfo O e.1, leading e.1 e.2 ++ tidyKids O e.2))
  | [] => by rw [tidyKids]; rfl
  | n :: ns => by
    have ih := tidyKids_elems ns
    cases n with
    | elem i cs =>
      have h : elemKids (.elem i cs :: ns) = (i, cs) :: elemKids ns := rfl
      rw [tidyKids, h, List.filter_cons]
      by_cases hi : i.name.ns = some nsXsd
      · rw [if_pos hi, if_pos (by simp [hi]), List.map_cons, ← ih]
        rfl
      · rw [if_neg hi, if_neg (by simp [hi]), ih]
    | text s => rw [tidyKids]; exact ih
    | other => rw [tidyKids]; exact ih

theorem xsdKids_ti (nd : Nd) : (tidyNd O nd).xsdKids = nd.xsdKids.map (tidyNd O) := by
  unfold Nd.xsdKids
  show ((elemKids (leading nd.info nd.kids ++ tidyKids O nd.kids)).filter _).map _ = _
  rw [leading_elems, tidyKids_elems, List.filter_map, List.map_map, List.map_map, List.filter_filter]
  have : (fun e : Elem => (((fun e : Elem => decide (e.1.name.ns = some nsXsd)) ∘ fun e : Elem => (tidyInfo O e.1, leading e.1 e.2 ++ tidyKids O e.2)) e) &&
      decide (e.1.name.ns = some nsXsd)) = fun e : Elem => decide (e.1.name.ns = some nsXsd) := by
    funext e
    exact Bool.and_self _
  rw [this]
  rfl

theorem child_ti (nd : Nd) (n : Str) : (tidyNd O nd).child n = (nd.child n).map (tidyNd O) := by
  unfold Nd.child
  show ((elemKids (leading nd.info nd.kids ++ tidyKids O nd.kids)).find? _).map _ = _
  rw [leading_elems, tidyKids_elems]
  induction elemKids nd.kids with
  | nil => rfl
  | cons e es ih =>
    by_cases h : e.is ⟨n, some nsXsd⟩ = true
    · have hn : e.1.name.ns = some nsXsd := by rw [(Elem.is_iff _ _).1 h]
      rw [List.filter_cons, if_pos (by simp [hn]), List.map_cons, List.find?_cons_of_pos (p := fun e : Elem => e.is ⟨n, some nsXsd⟩) h,
        List.find?_cons_of_pos (p := fun e : Elem => e.is ⟨n, some nsXsd⟩) (by exact h)]
      rfl
    · rw [List.find?_cons_of_neg (p := fun e : Elem => e.is ⟨n, some nsXsd⟩) h, List.filter_cons]
      split
      · rw [List.map_cons, List.find?_cons_of_neg (p := fun e : Elem => e.is ⟨n, some nsXsd⟩) (by exact h)]
        exact ih
      · exact ih

theorem removeKid_ti (n : Str) (ks : List Nd) :
    removeKid n (ks.map (tidyNd O)) = ((removeKid n ks).1.map (tidyNd O), (removeKid n ks).2.map (tidyNd O)) := by
  induction ks with
  | nil => rfl
  | cons k ks ih =>
    rw [List.map_cons, removeKid, removeKid]
    by_cases h : k.info.name = ⟨n, some nsXsd⟩
    · rw [if_pos h, if_pos (show (tidyNd O k).info.name = _ from h)]
      rfl
    · rw [if_neg h, if_neg (show ¬ (tidyNd O k).info.name = _ from h), ih]
      rfl

theorem removeKids_ti (n : Str) (ks : List Nd) :
    removeKids n (ks.map (tidyNd O)) = ((removeKids n ks).1.map (tidyNd O), (removeKids n ks).2.map (tidyNd O)) := by
  unfold removeKids
  rw [List.filter_map, List.filter_map]
  rfl

theorem tidyKids_text (cs : List XNode) (s : Str) (ns : List XNode) : tidyKids O cs ≠ .text s :: ns := by
  induction cs with
  | nil => rw [tidyKids]; nofun
  | cons n cs ih =>
    cases n with
    | elem i ds =>
      rw [tidyKids]
      split
      · nofun
      · exact ih
    | text t => rw [tidyKids]; exact ih
    | other => rw [tidyKids]; exact ih

theorem text_ti {nd : Nd} (h : nd.info.name.loc = c!"documentation") : (tidyNd O nd).text = nd.text := by
  have key : ∀ cs : List XNode, (match tidyKids O cs with | .text s :: _ => some s | _ => none) = (none : Option Str) := by
    intro cs
    split
    · next s ns hs => exact absurd hs (tidyKids_text O cs s ns)
    · rfl
  unfold Nd.text
  show (match leading nd.info nd.kids ++ tidyKids O nd.kids with | .text s :: _ => some s | _ => none) = _
  unfold leading
  rw [if_pos h]
  cases hk : nd.kids with
  | nil => exact key []
  | cons n ns =>
    cases n with
    | text s => rfl
    | elem i cs => exact key (.elem i cs :: ns)
    | other => exact key (.other :: ns)

/-! ## Clear nodes -/

/-- All elements of XML Schema in the node are clear, and itself. -/
def Good (nd : Nd) : Prop := Clear nd.info ∧ ∀ i ∈ schemaInfos nd.kids, Clear i

theorem schemaInfos_elem {cs : List XNode} {e : Elem} (h : e ∈ elemKids cs) (hn : e.1.name.ns = some nsXsd) :
    e.1 ∈ schemaInfos cs ∧ ∀ i ∈ schemaInfos e.2, i ∈ schemaInfos cs := by
  induction cs with
  | nil => cases h
  | cons n ns ih =>
    cases n with
    | elem i cs =>
      rw [schemaInfos]
      rcases List.mem_cons.1 (show e ∈ (i, cs) :: elemKids ns from h) with rfl | h
      · rw [if_pos hn]
        exact ⟨List.mem_cons_self, fun j hj => List.mem_cons_of_mem _ (List.mem_append_left _ hj)⟩
      · obtain ⟨h1, h2⟩ := ih h
        split
        · exact ⟨List.mem_cons_of_mem _ (List.mem_append_right _ h1), fun j hj => List.mem_cons_of_mem _ (List.mem_append_right _ (h2 j hj))⟩
        · exact ⟨h1, h2⟩
    | text s => rw [schemaInfos]; exact ih h
    | other => rw [schemaInfos]; exact ih h

theorem good_xsdKids {nd : Nd} (h : Good nd) : ∀ k ∈ nd.xsdKids, Good k := by
  intro k hk
  obtain ⟨e, he, rfl⟩ := List.mem_map.1 hk
  obtain ⟨he, hn⟩ := List.mem_filter.1 he
  obtain ⟨h1, h2⟩ := schemaInfos_elem he (of_decide_eq_true hn)
  exact ⟨h.2 _ h1, fun i hi => h.2 _ (h2 i hi)⟩

theorem good_child {nd : Nd} (h : Good nd) {n : Str} : ∀ c, nd.child n = some c → Good c := by
  intro c hc
  unfold Nd.child at hc
  obtain ⟨e, he, rfl⟩ := Option.map_eq_some_iff.1 hc
  have hn : e.1.name.ns = some nsXsd := by
    have := List.find?_some he
    rw [(Elem.is_iff e ⟨n, some nsXsd⟩).1 this]
  obtain ⟨h1, h2⟩ := schemaInfos_elem (List.mem_of_find?_eq_some he) hn
  exact ⟨h.2 _ h1, fun i hi => h.2 _ (h2 i hi)⟩

theorem removeKid_sub (n : Str) (ks : List Nd) : (∀ c, (removeKid n ks).1 = some c → c ∈ ks ∧ c.info.name = ⟨n, some nsXsd⟩) ∧ ∀ k ∈ (removeKid n ks).2, k ∈ ks := by
  induction ks with
  | nil => exact ⟨fun c h => (nomatch h), fun k h => (nomatch h)⟩
  | cons k ks ih =>
    rw [removeKid]
    split
    · exact ⟨fun c h => by cases h; exact ⟨List.mem_cons_self, ‹_›⟩, fun k h => List.mem_cons_of_mem _ h⟩
    · refine ⟨fun c h => ⟨List.mem_cons_of_mem _ (ih.1 c h).1, (ih.1 c h).2⟩, fun q h => ?_⟩
      rcases List.mem_cons.1 h with rfl | h
      · exact List.mem_cons_self
      · exact List.mem_cons_of_mem _ (ih.2 q h)

theorem good_opt {n : Str} {ks : List Nd} (h : ∀ k ∈ ks, Good k) : ∀ c, (removeKid n ks).1 = some c → Good c :=
  fun c hc => h c ((removeKid_sub n ks).1 c hc).1

theorem good_kid {n : Str} {ks rest : List Nd} {c : Nd} (h : ∀ k ∈ ks, Good k) (hr : removeKid n ks = (some c, rest)) : Good c :=
  good_opt h c (by rw [hr])

theorem good_rest {n : Str} {ks : List Nd} (h : ∀ k ∈ ks, Good k) : ∀ k ∈ (removeKid n ks).2, Good k :=
  fun k hk => h k ((removeKid_sub n ks).2 k hk)

theorem good_all {n : Str} {ks : List Nd} (h : ∀ k ∈ ks, Good k) : ∀ k ∈ (removeKids n ks).1, Good k :=
  fun k hk => h k (List.mem_filter.1 hk).1

/-! ## Attributes -/

theorem plain_mem {i : ElemInfo} {a : XAttr} : a ∈ plainAttrs i ↔ a ∈ i.attrs ∧ a.ns = none := by
  unfold plainAttrs
  rw [List.mem_filter, decide_eq_true_eq]

theorem plain_unique {i : ElemInfo} (h : Clear i) {a b : XAttr} (ha : a ∈ plainAttrs i) (hb : b ∈ plainAttrs i) (hl : a.loc = b.loc) : a = b := by
  have := h.once
  revert this ha hb
  generalize plainAttrs i = l
  intro ha hb hn
  induction l with
  | nil => cases ha
  | cons c l ih =>
    rw [List.map_cons, List.nodup_cons] at hn
    rcases List.mem_cons.1 ha with ha' | ha' <;> rcases List.mem_cons.1 hb with hb' | hb'
    · rw [ha', hb']
    · exact absurd (List.mem_map.2 ⟨b, hb', by rw [← hl, ha']⟩) hn.1
    · exact absurd (List.mem_map.2 ⟨a, ha', by rw [hl, hb']⟩) hn.1
    · exact ih ha' hb' hn.2

theorem tidy_mem {i : ElemInfo} {a : XAttr} : a ∈ (tidyInfo O i).attrs ↔ ∃ b ∈ plainAttrs i, unplaced b = a := by
  show a ∈ (O.ord i).map unplaced ↔ _
  rw [List.mem_map]
  exact ⟨fun ⟨b, hb, h⟩ => ⟨b, (O.perm i).mem_iff.1 hb, h⟩, fun ⟨b, hb, h⟩ => ⟨b, (O.perm i).mem_iff.2 hb, h⟩⟩

/-- Looking up the only one of its kind. -/
theorem find_only {l : List XAttr} {p : XAttr → Bool} (h : ∀ a ∈ l, ∀ b ∈ l, p a = true → p b = true → a = b) (a : XAttr) :
    l.find? p = some a ↔ a ∈ l ∧ p a = true := by
  constructor
  · exact fun hf => ⟨List.mem_of_find?_eq_some hf, List.find?_some hf⟩
  · rintro ⟨ha, hp⟩
    cases hf : l.find? p with
    | none => exact absurd hp (List.find?_eq_none.1 hf a ha)
    | some b => rw [h b (List.mem_of_find?_eq_some hf) a ha (List.find?_some hf) hp]

/-- Looking up an attribute in both. -/
theorem find_ti {i : ElemInfo} (h : Clear i) {l l' : List XAttr} {p : XAttr → Bool} (n : Str) (hp : ∀ a, p a = true → a.loc = n)
    (hu : ∀ a, p (unplaced a) = p a) (hl : ∀ a, p a = true → (a ∈ l ↔ a ∈ plainAttrs i)) (hl' : ∀ a, a ∈ l' ↔ ∃ b ∈ plainAttrs i, unplaced b = a) :
    l'.find? p = (l.find? p).map unplaced := by
  have h1 : ∀ a ∈ l, ∀ b ∈ l, p a = true → p b = true → a = b := fun a ha b hb pa pb =>
    plain_unique h ((hl a pa).1 ha) ((hl b pb).1 hb) ((hp a pa).trans (hp b pb).symm)
  have h2 : ∀ a ∈ l', ∀ b ∈ l', p a = true → p b = true → a = b := by
    intro a ha b hb pa pb
    obtain ⟨a', ha', rfl⟩ := (hl' a).1 ha
    obtain ⟨b', hb', rfl⟩ := (hl' b).1 hb
    rw [plain_unique h ha' hb' ((hp _ pa).trans (hp _ pb).symm)]
  cases hf : l.find? p with
  | none =>
    rw [Option.map_none, List.find?_eq_none]
    intro a ha pa
    obtain ⟨b, hb, rfl⟩ := (hl' a).1 ha
    rw [hu] at pa
    exact List.find?_eq_none.1 hf b ((hl b pa).2 hb) pa
  | some a =>
    obtain ⟨ha, pa⟩ := (find_only h1 a).1 hf
    exact (find_only h2 _).2 ⟨(hl' _).2 ⟨a, (hl a pa).1 ha, rfl⟩, (hu a).trans pa⟩

section
variable {O}

theorem attr_ti {nd : Nd} (h : Clear nd.info) {n : Str} (hn : n ∈ known) : (tidyNd O nd).attr n = (nd.attr n).map unplaced := by
  unfold Nd.attr
  refine find_ti h n (fun a ha => of_decide_eq_true ha) (fun a => rfl) (fun a ha => ?_) fun a => ?_
  · rw [List.mem_reverse, plain_mem]
    refine ⟨fun hm => ⟨hm, ?_⟩, fun hm => hm.1⟩
    refine Decidable.byContradiction fun hns => (h.foreign a hm hns).1 ?_
    rw [of_decide_eq_true (p := a.loc = n) ha]
    exact hn
  · rw [List.mem_reverse]
    exact tidy_mem O

theorem attrVal_ti {nd : Nd} (h : Clear nd.info) {n : Str} (hn : n ∈ known) : ((tidyNd O nd).attr n).map XAttr.value = (nd.attr n).map XAttr.value := by
  rw [attr_ti h hn, Option.map_map]
  rfl

theorem attrOf_ti {i : ElemInfo} (h : Clear i) (n : Str) : attrOf (tidyInfo O i) n = attrOf i n := by
  unfold attrOf
  rw [find_ti h (l := i.attrs) n (fun a ha => (of_decide_eq_true (p := a.ns = none ∧ a.loc = n) ha).2) (fun a => rfl) (fun a ha => ?_) fun a => tidy_mem O, Option.map_map]
  · rfl
  · rw [plain_mem]
    exact ⟨fun hm => ⟨hm, (of_decide_eq_true (p := a.ns = none ∧ a.loc = n) ha).1⟩, fun hm => hm.1⟩

theorem lastAttrs_sub : ∀ (as : List XAttr), (∀ a ∈ lastAttrs as, a ∈ as) ∧ ∀ a ∈ as, ∃ b ∈ lastAttrs as, b.loc = a.loc
  | [] => ⟨fun a h => (nomatch h), fun a h => (nomatch h)⟩
  | c :: cs => by
    obtain ⟨h1, h2⟩ := lastAttrs_sub cs
    rw [lastAttrs]
    split
    · next hc =>
      refine ⟨fun a ha => List.mem_cons_of_mem _ (h1 a ha), fun a ha => ?_⟩
      rcases List.mem_cons.1 ha with rfl | ha
      · obtain ⟨b, hb, hl⟩ := List.any_eq_true.1 hc
        obtain ⟨d, hd, hl'⟩ := h2 b hb
        exact ⟨d, hd, hl'.trans (of_decide_eq_true hl)⟩
      · exact h2 a ha
    · refine ⟨fun a ha => ?_, fun a ha => ?_⟩
      · rcases List.mem_cons.1 ha with rfl | ha
        · exact List.mem_cons_self
        · exact List.mem_cons_of_mem _ (h1 a ha)
      · rcases List.mem_cons.1 ha with rfl | ha
        · exact ⟨_, List.mem_cons_self, rfl⟩
        · obtain ⟨b, hb, hl⟩ := h2 a ha
          exact ⟨b, List.mem_cons_of_mem _ hb, hl⟩

/-- Whether all attributes are visited. -/
theorem prevent_iff {nd : Nd} (hc : ∀ a ∈ nd.info.attrs, a.ns ≠ none → ∀ b ∈ plainAttrs nd.info, b.loc ≠ a.loc) :
    ((∃ e, nd.preventUnvisitedAttributes = .err e) ∧ ∃ a ∈ plainAttrs nd.info, a.loc ∉ nd.seen) ∨
      (nd.preventUnvisitedAttributes = .ok () ∧ ∀ a ∈ plainAttrs nd.info, a.loc ∈ nd.seen) := by
  unfold Nd.preventUnvisitedAttributes
  cases hf : (lastAttrs nd.info.attrs).find? (fun a => a.ns = none ∧ a.loc ∉ nd.seen) with
  | some a =>
    have := List.find?_some hf
    simp only [decide_eq_true_eq] at this
    exact .inl ⟨⟨_, rfl⟩, a, plain_mem.2 ⟨(lastAttrs_sub _).1 a (List.mem_of_find?_eq_some hf), this.1⟩, this.2⟩
  | none =>
    refine .inr ⟨rfl, fun a ha => ?_⟩
    obtain ⟨b, hb, hl⟩ := (lastAttrs_sub nd.info.attrs).2 a (plain_mem.1 ha).1
    have hbn : b.ns = none := Decidable.byContradiction fun hn => hc b ((lastAttrs_sub _).1 b hb) hn a ha hl.symm
    have := List.find?_eq_none.1 hf b hb
    simp only [decide_eq_true_eq, not_and, Decidable.not_not] at this
    rw [← hl]
    exact this hbn

theorem prevent_ti {nd : Nd} (h : Clear nd.info) : Near (fun a => a) nd.preventUnvisitedAttributes (tidyNd O nd).preventUnvisitedAttributes := by
  have hp : ∀ a, a ∈ plainAttrs (tidyNd O nd).info ↔ ∃ b ∈ plainAttrs nd.info, unplaced b = a := by
    intro a
    rw [plain_mem]
    refine ⟨fun ha => (tidy_mem O).1 ha.1, fun ha => ⟨(tidy_mem O).2 ha, ?_⟩⟩
    obtain ⟨b, hb, rfl⟩ := ha
    exact (plain_mem.1 hb).2
  have hc : ∀ a ∈ (tidyNd O nd).info.attrs, a.ns ≠ none → ∀ b ∈ plainAttrs (tidyNd O nd).info, b.loc ≠ a.loc := by
    intro a ha hn
    obtain ⟨b, hb, rfl⟩ := (tidy_mem O).1 ha
    exact absurd (plain_mem.1 hb).2 hn
  rcases prevent_iff (fun a ha hn => (h.foreign a ha hn).2) with ⟨⟨e, he⟩, a, ha, hs⟩ | ⟨he, hs⟩
  · rcases prevent_iff hc with ⟨⟨e', he'⟩, _⟩ | ⟨he', hs'⟩
    · rw [he, he']
      exact .err _ _
    · exact absurd (hs' (unplaced a) ((hp _).2 ⟨a, ha, rfl⟩)) hs
  · rcases prevent_iff hc with ⟨_, a, ha, hs'⟩ | ⟨he', hs'⟩
    · obtain ⟨b, hb, rfl⟩ := (hp a).1 ha
      exact absurd (hs b hb) hs'
    · rw [he, he']
      exact .ok ()

theorem Near.attr {γ δ : Type} {g : γ → δ} {nd : Nd} (hg : Clear nd.info) {n : Str} (hn : n ∈ known) {h : XAttr → Res XErr γ} {h' : XAttr → Res XErr δ}
    (hh : ∀ a : XAttr, Near g (h a) (h' (unplaced a))) : Near g (nd.tryAttr n >>= h) ((tidyNd O nd).tryAttr n >>= h') := by
  unfold Nd.tryAttr
  rw [attr_ti hg hn]
  cases nd.attr n with
  | none => exact .err _ _
  | some a => exact hh a

theorem noChildren_ti (nd nd' : Nd) (ks : List Nd) :
    Near (fun a => a) (preventUnvisitedChildren nd ks) (preventUnvisitedChildren nd' (ks.map (tidyNd O))) := by
  cases ks with
  | nil => exact .ok ()
  | cons k ks => exact .err _ _

theorem annotation_ti (x : Ext) {o : Option Nd} (ho : ∀ c, o = some c → Good c) : Near (fun a => a) (parseAnnotation x o) (parseAnnotation x (o.map (tidyNd O))) := by
  cases o with
  | none => exact .ok none
  | some nd =>
    show Near _ (parseAnnotation1 x nd) (parseAnnotation1 x (tidyNd O nd))
    unfold parseAnnotation1
    simp only
    rw [xsdKids_ti, removeKid_ti, removeKids_ti]
    refine .bind (f := fun a => a) ?_ fun docs => .bind (noChildren_ti _ _ _) fun _ => .bind (prevent_ti (ho nd rfl).1) fun _ => .ok docs
    cases hr : (removeKid c!"documentation" nd.xsdKids).1 with
    | none => exact .ok none
    | some d =>
      have hd : d.info.name.loc = c!"documentation" := by rw [((removeKid_sub _ _).1 d hr).2]
      refine .bind (f := fun a => a) ?_ fun t => .ok _
      unfold Nd.tryText
      rw [text_ti O hd]
      cases d.text with
      | none => exact .err _ _
      | some t => exact .ok t

end

/-! ## Steps of the parser -/

/-- The second step does what the first does, up to `f`. -/
def Ren {α β : Type} (f : α → β) (m : P α) (m' : P β) : Prop := ∀ s, Near (fun q => (f q.1, q.2)) (m s) (m' s)

section
variable {O} {α β γ δ : Type}

theorem Ren.bindPost {f : α → β} {g : γ → δ} {m : P α} {m' : P β} {h : α → P γ} {h' : β → P δ} {Q : α → Prop} (hm : Ren f m m')
    (hq : ∀ s a s', m s = .ok (a, s') → Q a) (hh : ∀ a, Q a → Ren g (h a) (h' (f a))) : Ren g (m >>= h) (m' >>= h') := by
  intro s
  show Near _ (P.bnd m h s) (P.bnd m' h' s)
  unfold P.bnd
  have h1 := hm s
  have h3 := hq s
  revert h1 h3
  generalize m s = r
  generalize m' s = r'
  intro h1 h3
  cases h1 with
  | ok a => exact hh a.1 (h3 _ _ rfl) a.2
  | err e e' => exact .err e e'
  | panic => exact .panic
  | left r => exact .left _
  | right r => exact .right _

theorem Ren.bind {f : α → β} {g : γ → δ} {m : P α} {m' : P β} {h : α → P γ} {h' : β → P δ} (hm : Ren f m m')
    (hh : ∀ a, Ren g (h a) (h' (f a))) : Ren g (m >>= h) (m' >>= h') :=
  .bindPost (Q := fun _ => True) hm (fun _ _ _ _ => trivial) fun a _ => hh a

theorem Ren.pure {f : α → β} {a : α} {b : β} (h : f a = b) : Ren f (Pure.pure a) (Pure.pure b) := fun _ => .ok' (by rw [h])

theorem Ren.lift {f : α → β} {r : Res XErr α} {r' : Res XErr β} (h : Near f r r') : Ren f (P.lift r) (P.lift r') := by
  intro s
  cases h with
  | ok a => exact .ok (a, s)
  | err e e' => exact .err e e'
  | panic => exact .panic
  | left r => exact .left _
  | right r => exact .right _

theorem Ren.fail {f : α → β} {e e' : XErr} : Ren f (P.fail e) (P.fail e') := fun _ => .err _ _

theorem Ren.left {f : α → β} {m : P β} : Ren f P.diverge m := fun _ => .left _

theorem Ren.right {f : α → β} {m : P α} : Ren f m P.diverge := fun _ => .right _

theorem Ren.ite {f : α → β} {c : Prop} [Decidable c] {a b : P α} {a' b' : P β} (h : c → Ren f a a') (h' : ¬ c → Ren f b b') :
    Ren f (if c then a else b) (if c then a' else b') := by
  split
  · exact h ‹_›
  · exact h' ‹_›

/-- The same step on both sides. -/
theorem Ren.same {m : P α} : Ren (fun a => a) m m := by
  intro s
  cases m s with
  | ok a => exact .ok' rfl
  | err e => exact .err _ _
  | panic => exact .panic
  | diverge => exact .left _

theorem typeName_ti (a : XAttr) : Ren (fun c => c) (getTypeName a) (getTypeName (unplaced a)) := by
  have hl : ∀ n, Near (fun c => c) (literalOr n a) (literalOr n (unplaced a)) := by
    intro n
    unfold literalOr
    cases literalFromStr n with
    | some t => exact .ok _
    | none => exact .err _ _
  intro s
  unfold getTypeName
  rw [show (unplaced a).value = a.value from rfl]
  cases splitn2 a.value with
  | mk p o =>
    cases o with
    | some n =>
      simp only
      cases alookup s.docNss p with
      | none => exact .err _ _
      | some uri =>
        simp only
        by_cases hu : uri = nsXsd
        · rw [if_pos hu, if_pos hu]
          exact Ren.lift (hl n) s
        · rw [if_neg hu, if_neg hu]
          exact .ok' rfl
    | none =>
      simp only
      by_cases hu : s.defaultNs = some nsXsd
      · rw [if_pos hu, if_pos hu]
        exact Ren.lift (hl p) s
      · rw [if_neg hu, if_neg hu]
        exact .ok' rfl

theorem Ren.attrOf {g : γ → δ} {nd : Nd} (hg : Good nd) {n : Str} (hn : n ∈ known) {h : XAttr → P γ} {h' : XAttr → P δ}
    (hh : ∀ a : XAttr, Ren g (h a) (h' (unplaced a))) : Ren g (P.lift (nd.tryAttr n) >>= h) (P.lift ((tidyNd O nd).tryAttr n) >>= h') := by
  unfold Nd.tryAttr
  rw [attr_ti hg.1 hn]
  cases nd.attr n with
  | none => exact fun _ => .err _ _
  | some a => exact hh a

theorem Ren.annotation (x : Ext) {o : Option Nd} (ho : ∀ c, o = some c → Good c) :
    Ren (fun a => a) (P.lift (parseAnnotation x o)) (P.lift (parseAnnotation x (o.map (tidyNd O)))) := .lift (annotation_ti x ho)

theorem Ren.noChildren {nd nd' : Nd} {ks : List Nd} :
    Ren (fun a => a) (P.lift (preventUnvisitedChildren nd ks)) (P.lift (preventUnvisitedChildren nd' (ks.map (tidyNd O)))) :=
  .lift (noChildren_ti nd nd' ks)

theorem Ren.tryKid {g : γ → δ} {nd : Nd} {n : Str} {ks : List Nd} (hg : ∀ k ∈ ks, Good k) {h : Nd × List Nd → P γ} {h' : Nd × List Nd → P δ}
    (hh : ∀ c rest, Good c → Ren g (h (c, rest)) (h' (tidyNd O c, rest.map (tidyNd O)))) :
    Ren g (P.lift (tryRemoveKid nd n ks) >>= h) (P.lift (tryRemoveKid (tidyNd O nd) n (ks.map (tidyNd O))) >>= h') := by
  unfold tryRemoveKid
  rw [removeKid_ti]
  rcases hr : removeKid n ks with ⟨_ | k, rest⟩
  · exact fun _ => .err _ _
  · exact hh k rest (good_kid hg hr)

theorem Ren.prevent {nd : Nd} (hg : Good nd) : Ren (fun a => a) (P.lift nd.preventUnvisitedAttributes) (P.lift (tidyNd O nd).preventUnvisitedAttributes) :=
  .lift (prevent_ti hg.1)

theorem u32_ti (a : XAttr) : Near (fun n => n) (parseU32 a) (parseU32 (unplaced a)) := by
  unfold parseU32
  rw [show (unplaced a).value = a.value from rfl]
  cases parseInt false 0 u32Max a.value with
  | some i => exact .ok _
  | none => exact .err _ _

theorem usize_ti (a : XAttr) : Near (fun n => n) (parseUsize a) (parseUsize (unplaced a)) := by
  unfold parseUsize
  rw [show (unplaced a).value = a.value from rfl]
  cases parseInt false 0 u64Max a.value with
  | some i => exact .ok _
  | none => exact .err _ _

theorem dec_ti (x : Ext) (a : XAttr) : Near (fun n => n) (parseDec x a) (parseDec x (unplaced a)) := by
  unfold parseDec
  rw [show (unplaced a).value = a.value from rfl]
  cases x.parseDecimal a.value with
  | some i => exact .ok _
  | none => exact .err _ _

theorem Ren.minOccurs {nd : Nd} (hg : Good nd) :
    Ren (fun a => a) (P.lift (parseMinOccurs (nd.attr c!"minOccurs"))) (P.lift (parseMinOccurs ((tidyNd O nd).attr c!"minOccurs"))) := by
  refine .lift ?_
  rw [attr_ti hg.1 (by decide)]
  cases nd.attr c!"minOccurs" with
  | none => exact .ok 1
  | some a => exact u32_ti a

theorem Ren.maxOccurs {nd : Nd} (hg : Good nd) :
    Ren (fun a => a) (P.lift (parseMaxOccurs (nd.attr c!"maxOccurs"))) (P.lift (parseMaxOccurs ((tidyNd O nd).attr c!"maxOccurs"))) := by
  refine .lift ?_
  rw [attr_ti hg.1 (by decide)]
  cases nd.attr c!"maxOccurs" with
  | none => exact .ok (MaxOccurs.number 1)
  | some a => exact .ite (fun _ => .ok _) fun _ => .bind (u32_ti a) fun n => .ok _

end

end Tidy
end Xsd
