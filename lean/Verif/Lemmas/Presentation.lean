import Verif.Spec.Presentation
import Verif.Props.SchemaParts
import Verif.Lemmas.Strip
/-!
# Documents that say the same look the same to the parser
-/
namespace Xsd
namespace Pres

/-! ## References -/

/-- `Means`, computed. -/
def meaning (nss : List (Option Str × Str)) (v : Str) : Option QName :=
  match splitn2 v with
  | (p, some n) => (alookup nss (some p)).map (fun u => ⟨n, some u⟩)
  | (n, none) => some ⟨n, alookup nss none⟩

theorem means_iff {nss : List (Option Str × Str)} (hn : (nss.map Prod.fst).Nodup) (v : Str) (q : QName) :
    Means nss v q ↔ meaning nss v = some q := by
  unfold meaning
  constructor
  · intro h
    cases h with
    | @pfx p n u hp h =>
      rw [splitn2_prefixed.2 ⟨rfl, hp⟩]
      simp only [alookup_of_mem hn h, Option.map_some]
    | dflt hv h =>
      rw [splitn2_unprefixed hv]
      simp only [alookup_of_mem hn h]
    | bare hv h =>
      rw [splitn2_unprefixed hv]
      simp only
      cases hl : alookup nss none with
      | none => rfl
      | some u => exact absurd (alookup_mem hl) (h u)
  · intro h
    by_cases hv : ':' ∈ v
    · obtain ⟨p, n, rfl, hp⟩ := firstColon hv
      rw [splitn2_prefixed.2 ⟨rfl, hp⟩] at h
      obtain ⟨u, hu, rfl⟩ := Option.map_eq_some_iff.1 h
      exact .pfx hp (alookup_mem hu)
    · rw [splitn2_unprefixed hv] at h
      cases h
      cases hl : alookup nss none with
      | none => exact .bare hv fun u hm => by rw [alookup_of_mem hn hm] at hl; cases hl
      | some u => exact .dflt hv (alookup_mem hl)

theorem meaning_eq {nss nss' : List (Option Str × Str)} (hn : (nss.map Prod.fst).Nodup) (hn' : (nss'.map Prod.fst).Nodup) {v v' : Str}
    (h : SameRef nss nss' v v') : meaning nss v = meaning nss' v' := by
  cases hm : meaning nss v with
  | some q => exact ((means_iff hn' v' q).1 ((h q).1 ((means_iff hn v q).2 hm))).symm
  | none =>
    cases hm' : meaning nss' v' with
    | none => rfl
    | some q =>
      rw [(means_iff hn v q).1 ((h q).2 ((means_iff hn' v' q).2 hm'))] at hm
      cases hm

/-! ## Attributes -/

theorem attr_value {nd : Nd} (h : PlainTag nd.info) {n : Str} (hn : n ∈ schemaAttrs) : (nd.attr n).map XAttr.value = attrOf nd.info n := by
  unfold Nd.attr attrOf
  cases h1 : nd.info.attrs.reverse.find? (fun a => a.loc = n) with
  | none =>
    rw [List.find?_eq_none] at h1
    have : nd.info.attrs.find? (fun a => a.ns = none ∧ a.loc = n) = none := by
      rw [List.find?_eq_none]
      intro a ha hp
      exact h1 a (List.mem_reverse.2 ha) (decide_eq_true (of_decide_eq_true hp).2)
    rw [this]
  | some a =>
    have ha := List.mem_reverse.1 (List.mem_of_find?_eq_some h1)
    have hl : a.loc = n := of_decide_eq_true (List.find?_some (p := fun a : XAttr => decide (a.loc = n)) h1)
    have hns : a.ns = none := Classical.byContradiction fun hne => (h.foreign a ha hne).1 (hl ▸ hn)
    cases h2 : nd.info.attrs.find? (fun a => a.ns = none ∧ a.loc = n) with
    | none =>
      rw [List.find?_eq_none] at h2
      exact absurd (decide_eq_true ⟨hns, hl⟩) (h2 a ha)
    | some b =>
      have hb := List.mem_of_find?_eq_some h2
      have hp : b.ns = none ∧ b.loc = n := of_decide_eq_true (List.find?_some (p := fun a : XAttr => decide (a.ns = none ∧ a.loc = n)) h2)
      rw [h.unique a ha b hb (hl.trans hp.2.symm) (hns.trans hp.1.symm)]

theorem lastAttrs_loc (n : Str) : ∀ as : List XAttr, (∃ a ∈ as, a.loc = n) → ∃ a ∈ lastAttrs as, a.loc = n
  | [], h => by obtain ⟨a, ha, _⟩ := h; cases ha
  | a :: as, h => by
    by_cases ht : ∃ b ∈ as, b.loc = n
    · have ih := lastAttrs_loc n as ht
      unfold lastAttrs
      split
      · exact ih
      · obtain ⟨b, hb, hl⟩ := ih
        exact ⟨b, .tail _ hb, hl⟩
    · obtain ⟨b, hb, hl⟩ := h
      rcases List.mem_cons.1 hb with rfl | hb
      · unfold lastAttrs
        rw [if_neg]
        · exact ⟨b, .head _, hl⟩
        · intro hany
          obtain ⟨c, hc, hcl⟩ := List.any_eq_true.1 hany
          exact ht ⟨c, hc, (of_decide_eq_true hcl).trans hl⟩
      · exact absurd ⟨b, hb, hl⟩ ht

theorem lastAttrs_sub : ∀ {as : List XAttr} {a : XAttr}, a ∈ lastAttrs as → a ∈ as
  | b :: as, a, h => by
    unfold lastAttrs at h
    split at h
    · exact .tail _ (lastAttrs_sub h)
    · rcases List.mem_cons.1 h with rfl | h
      · exact .head _
      · exact .tail _ (lastAttrs_sub h)

theorem prevent_ok_iff {nd : Nd} (h : PlainTag nd.info) :
    nd.preventUnvisitedAttributes = .ok () ↔ ∀ n, n ∉ nd.seen → attrOf nd.info n = none := by
  unfold Nd.preventUnvisitedAttributes
  constructor
  · intro hp n hn
    cases hf : (lastAttrs nd.info.attrs).find? (fun a => a.ns = none ∧ a.loc ∉ nd.seen) with
    | some a => rw [hf] at hp; cases hp
    | none =>
      rw [List.find?_eq_none] at hf
      unfold attrOf
      cases h2 : nd.info.attrs.find? (fun a => a.ns = none ∧ a.loc = n) with
      | none => rfl
      | some b =>
        exfalso
        have hb := List.mem_of_find?_eq_some h2
        have hpb : b.ns = none ∧ b.loc = n := of_decide_eq_true (List.find?_some (p := fun a : XAttr => decide (a.ns = none ∧ a.loc = n)) h2)
        obtain ⟨c, hc, hcl⟩ := lastAttrs_loc n _ ⟨b, hb, hpb.2⟩
        have hcn : c.ns = none := Classical.byContradiction fun hne =>
          (h.foreign c (lastAttrs_sub hc) hne).2 b hb hpb.1 (hpb.2.trans hcl.symm)
        exact hf c hc (decide_eq_true ⟨hcn, hcl ▸ hn⟩)
  · intro hp
    cases hf : (lastAttrs nd.info.attrs).find? (fun a => a.ns = none ∧ a.loc ∉ nd.seen) with
    | none => rfl
    | some a =>
      exfalso
      have ha := lastAttrs_sub (List.mem_of_find?_eq_some hf)
      have hpa : a.ns = none ∧ a.loc ∉ nd.seen :=
        of_decide_eq_true (List.find?_some (p := fun a : XAttr => decide (a.ns = none ∧ a.loc ∉ nd.seen)) hf)
      have := hp a.loc hpa.2
      unfold attrOf at this
      rw [Option.map_eq_none_iff, List.find?_eq_none] at this
      exact this a ha (decide_eq_true ⟨hpa.1, rfl⟩)

theorem prevent_cases (nd : Nd) : nd.preventUnvisitedAttributes = .ok () ∨
    ∃ n s, nd.preventUnvisitedAttributes = .err (.unsupportedAttribute n nd.name s) := by
  unfold Nd.preventUnvisitedAttributes
  split
  · exact .inr ⟨_, _, rfl⟩
  · exact .inl rfl

/-! ## Nodes -/

/-- Two nodes say the same, with the prefixes `D` and `D'` declared at the roots. -/
structure NdSim (D D' : List (Option Str × Str)) (nd nd' : Nd) : Prop where
  same : SameElem (nd.info, nd.kids) (nd'.info, nd'.kids)
  plain : PlainElem D (nd.info, nd.kids)
  plain' : PlainElem D' (nd'.info, nd'.kids)
  seen : nd.seen = nd'.seen

variable {D D' : List (Option Str × Str)} {nd nd' : Nd}

namespace NdSim

theorem tag (h : NdSim D D' nd nd') : SameTag nd.info nd'.info := by cases h.same; assumption

theorem ptag (h : NdSim D D' nd nd') : PlainTag nd.info := by cases h.plain; assumption

theorem ptag' (h : NdSim D D' nd nd') : PlainTag nd'.info := by cases h.plain'; assumption

theorem decls (h : NdSim D D' nd nd') : nd.info.nss = D := by cases h.plain; assumption

theorem decls' (h : NdSim D D' nd nd') : nd'.info.nss = D' := by cases h.plain'; assumption

theorem infoName (h : NdSim D D' nd nd') : nd.info.name = nd'.info.name := h.tag.name

theorem name (h : NdSim D D' nd nd') : nd.name = nd'.name := congrArg QName.loc h.infoName

theorem see (h : NdSim D D' nd nd') (n : Str) : NdSim D D' (nd.see n) (nd'.see n) :=
  ⟨h.same, h.plain, h.plain', congrArg (n :: ·) h.seen⟩

end NdSim

/-- Two attributes with the name `n` say the same. -/
def AttrSim (D D' : List (Option Str × Str)) (n : Str) (a a' : XAttr) : Prop :=
  (n ∈ refAttrs → SameRef D D' a.value a'.value) ∧ (n ∉ refAttrs → a.value = a'.value)

/-- Optional things that are related. -/
inductive OptSim {α β : Type} (R : α → β → Prop) : Option α → Option β → Prop
  | none : OptSim R none none
  | some {a : α} {b : β} (h : R a b) : OptSim R (some a) (some b)

theorem NdSim.attr (h : NdSim D D' nd nd') {n : Str} (hn : n ∈ schemaAttrs) : OptSim (AttrSim D D' n) (nd.attr n) (nd'.attr n) := by
  have h1 := attr_value h.ptag hn
  have h2 := attr_value h.ptag' hn
  have h3 := h.tag.attrs n
  rw [← h1, ← h2, h.decls, h.decls'] at h3
  cases ha : nd.attr n with
  | none =>
    cases hb : nd'.attr n with
    | none => exact .none
    | some b => rw [ha, hb] at h3; exact h3.elim
  | some a =>
    cases hb : nd'.attr n with
    | none => rw [ha, hb] at h3; exact h3.elim
    | some b => rw [ha, hb] at h3; exact .some h3

theorem all2_map {α β γ δ : Type} {R : α → β → Prop} {S : γ → δ → Prop} {f : α → γ} {g : β → δ} {as : List α} {bs : List β}
    (h : All2 R as bs) (hf : ∀ a ∈ as, ∀ b ∈ bs, R a b → S (f a) (g b)) : All2 S (as.map f) (bs.map g) := by
  induction h with
  | nil => exact .nil
  | cons h t ih => exact .cons (hf _ (.head _) _ (.head _) h) (ih fun a ha b hb => hf a (.tail _ ha) b (.tail _ hb))

theorem NdSim.kids (h : NdSim D D' nd nd') : All2 (NdSim D D') nd.xsdKids nd'.xsdKids := by
  obtain ⟨hs, hp, hp', _⟩ := h
  cases hs with
  | mk _ _ hk =>
    cases hp with
    | mk _ _ hpk =>
      cases hp' with
      | mk _ _ hpk' =>
        unfold Nd.xsdKids
        exact all2_map hk fun a ha b hb hab => ⟨hab, hpk a ha, hpk' b hb, rfl⟩

theorem removeKid_sim {ks ks' : List Nd} (h : All2 (NdSim D D') ks ks') (n : Str) :
    OptSim (NdSim D D') (removeKid n ks).1 (removeKid n ks').1 ∧ All2 (NdSim D D') (removeKid n ks).2 (removeKid n ks').2 := by
  induction h with
  | nil => exact ⟨.none, .nil⟩
  | @cons a b as bs hab t ih =>
    unfold removeKid
    by_cases hn : a.info.name = ⟨n, some nsXsd⟩
    · rw [if_pos hn, if_pos (hab.infoName ▸ hn)]
      exact ⟨.some hab, t⟩
    · rw [if_neg hn, if_neg (hab.infoName ▸ hn)]
      exact ⟨ih.1, .cons hab ih.2⟩

theorem filter_sim {ks ks' : List Nd} (h : All2 (NdSim D D') ks ks') {p : QName → Bool} :
    All2 (NdSim D D') (ks.filter (fun k => p k.info.name)) (ks'.filter (fun k => p k.info.name)) := by
  induction h with
  | nil => exact .nil
  | @cons a b as bs hab t ih =>
    rw [List.filter_cons, List.filter_cons, ← hab.infoName]
    split
    · exact .cons hab ih
    · exact ih

theorem removeKids_sim {ks ks' : List Nd} (h : All2 (NdSim D D') ks ks') (n : Str) :
    All2 (NdSim D D') (removeKids n ks).1 (removeKids n ks').1 ∧ All2 (NdSim D D') (removeKids n ks).2 (removeKids n ks').2 :=
  ⟨filter_sim (p := fun q => decide (q = ⟨n, some nsXsd⟩)) h, filter_sim (p := fun q => decide (¬ q = ⟨n, some nsXsd⟩)) h⟩

theorem child_find (nd : Nd) (n : Str) : nd.child n = nd.xsdKids.find? (fun k => k.info.name = ⟨n, some nsXsd⟩) := by
  unfold Nd.child Nd.xsdKids
  rw [List.find?_map, List.find?_filter]
  congr 2
  funext e
  rw [Bool.eq_iff_iff, Elem.is_iff, decide_eq_true_iff, decide_eq_true_iff]
  show _ ↔ _ ∧ decide (e.1.name = _) = true
  rw [decide_eq_true_iff]
  exact ⟨fun h => ⟨by rw [h], h⟩, fun h => h.2⟩

theorem find_sim {ks ks' : List Nd} (h : All2 (NdSim D D') ks ks') (n : Str) :
    OptSim (NdSim D D') (ks.find? (fun k => k.info.name = ⟨n, some nsXsd⟩)) (ks'.find? (fun k => k.info.name = ⟨n, some nsXsd⟩)) := by
  induction h with
  | nil => exact .none
  | @cons a b as bs hab t ih =>
    rw [List.find?_cons, List.find?_cons, hab.infoName]
    split
    · exact .some hab
    · exact ih

theorem NdSim.child (h : NdSim D D' nd nd') (n : Str) : OptSim (NdSim D D') (nd.child n) (nd'.child n) := by
  rw [child_find, child_find]
  exact find_sim h.kids n

theorem NdSim.text (h : NdSim D D' nd nd') (hn : nd.info.name = ⟨c!"documentation", some nsXsd⟩) : nd.text = nd'.text := by
  have := h.same
  obtain ⟨i, cs, s⟩ := nd
  obtain ⟨i', cs', s'⟩ := nd'
  cases this with
  | mk _ hd _ =>
    have := hd hn
    unfold leadingText at this
    unfold Nd.text
    simp only
    cases cs with
    | nil =>
      cases cs' with
      | nil => rfl
      | cons c' r' => cases c' <;> first | rfl | exact this
    | cons c r =>
      cases cs' with
      | nil => cases c <;> first | rfl | exact this
      | cons c' r' => cases c <;> cases c' <;> first | rfl | exact this

end Pres
end Xsd
