import Verif.Props.Grammar
import Verif.Props.GrammarSample
/-!
# Declared fixed values become fixed contents (C24)

`C24_accepted_partial` and the theorems beside it are about leaves with a fixed content. These are the declarations with an attribute `fixed`.
-/
namespace Xsd

theorem effective_value {nd : Nd} {a : XAttr} (h : Effective nd a) : nd.attr a.loc = some a := by
  obtain ⟨l, r, h1, h2⟩ := h
  unfold Nd.attr
  rw [h1, List.reverse_append, List.reverse_cons, List.append_assoc, List.find?_append]
  have : r.reverse.find? (fun b => decide (b.loc = a.loc)) = none := by
    rw [List.find?_eq_none]
    intro b hb
    simpa using h2 b (List.mem_reverse.1 hb)
  rw [this]
  simp

/-- The node has the attribute `fixed` (without a namespace) with this value. -/
def DeclaredFixed (nd : Nd) (f : Str) : Prop := ∃ a, Effective nd a ∧ a.loc = c!"fixed" ∧ a.ns = none ∧ a.value = f

theorem DeclaredFixed.seen {nd nd' : Nd} {f : Str} (h : DeclaredFixed nd f) (hi : nd'.info = nd.info)
    (hp : nd'.preventUnvisitedAttributes = .ok ()) : c!"fixed" ∈ nd'.seen := by
  obtain ⟨a, ha, hl, hns, _⟩ := h
  exact hl ▸ prevent_seen hp hi ha hns

theorem DeclaredFixed.value {nd nd' : Nd} {f : Str} (h : DeclaredFixed nd f) (hi : nd'.info = nd.info) :
    ∃ a, nd'.attr c!"fixed" = some a ∧ a.value = f := by
  obtain ⟨a, ha, hl, _, hv⟩ := h
  have := effective_value ha
  rw [hl] at this
  exact ⟨a, by unfold Nd.attr at this ⊢; rw [hi]; exact this, hv⟩

theorem typeAttr_fixed {nd nd0 nd' : Nd} {a : XAttr} {parent : Name} {s s' : PCtx} {c : LeafContent} {f : Str}
    (h : TypeAttrRun nd a parent s c nd' s') (hi : nd.info = nd0.info) (hs : c!"fixed" ∉ nd.seen) (hd : DeclaredFixed nd0 f)
    (hp : ∀ nd'', nd' = nd'' → c!"fixed" ∈ nd''.seen) : c = .fixed f := by
  obtain ⟨b, hb, rfl⟩ := hd.value hi
  cases h with
  | named n s1 h => exact absurd (hp _ rfl) hs
  | fixed t s1 g h hf => rw [hb] at hf; cases hf; rfl
  | literal t s1 h hf => rw [hb] at hf; cases hf

theorem typeAttr_fixed_only {nd nd' : Nd} {a : XAttr} {parent : Name} {s s' : PCtx} {f : Str}
    (h : TypeAttrRun nd a parent s (.fixed f) nd' s') : nd.value c!"fixed" = some f := by
  generalize hc : LeafContent.fixed f = c at h
  cases h with
  | named n s1 h => cases hc
  | fixed t s1 g h hf => cases hc; exact value_some hf
  | literal t s1 h hf => cases hc

theorem typeAttr_info {nd nd' : Nd} {a : XAttr} {parent : Name} {s s' : PCtx} {c : LeafContent} (h : TypeAttrRun nd a parent s c nd' s') :
    nd'.info = nd.info := by
  cases h <;> rfl

/-- **C24, declaring elements.** The content of a parsed element in a group is the value of its attribute `fixed`, if it has one: -/
theorem C24_declared_element (x : Ext) {k : Nat} {nd : Nd} {parent : Name} {s s' : PCtx} {l : Leaf} {f : Str}
    (h : parseElementChild x k nd parent s = .ok (l, s')) (hs : nd.seen = []) (hf : DeclaredFixed nd f) : l.definition.content = .fixed f := by
  cases k with
  | zero => cases h
  | succ k =>
    replace h := parseElementChild_run x h
    have no : ∀ ns : List Str, c!"fixed" ∉ ns → (nd.sees ns).preventUnvisitedAttributes ≠ .ok () := by
      intro ns hns hp
      have := hf.seen (nd' := nd.sees ns) rfl hp
      simp only [Nd.sees, hs, List.append_nil] at this
      exact hns this
    cases h with
    | ref mn mx at_ n s1 hmn hmx hr' hp ht => exact absurd hp (no _ (by decide))
    | typed mn mx na docs at_ c nd' s' hmn hmx hr hn hd ht' hc hp =>
      refine typeAttr_fixed (nd0 := nd) hc rfl ?_ hf ?_
      · simp only [Nd.sees, hs, List.append_nil]
        decide
      · rintro _ rfl
        have hi := typeAttr_info hc
        exact hf.seen hi hp
    | any mn mx na docs hmn hmx hr hn hd' ht hsn hc hp => exact absurd hp (no _ (by decide))
    | inline mn mx na docs v root s1 hmn hmx hr hn hd' ht hsc hp hv hroot => exact absurd hp (no _ (by decide))

/-- and nothing else makes the content fixed. -/
theorem C24_declared_element_only (x : Ext) {k : Nat} {nd : Nd} {parent : Name} {s s' : PCtx} {l : Leaf} {f : Str}
    (h : parseElementChild x k nd parent s = .ok (l, s')) (hc : l.definition.content = .fixed f) : nd.value c!"fixed" = some f := by
  cases k with
  | zero => cases h
  | succ k =>
    replace h := parseElementChild_run x h
    cases h with
    | ref mn mx at_ n s1 hmn hmx hr' hp ht => cases hc
    | typed mn mx na docs at_ c nd' s' hmn hmx hr hn hd ht' hct hp =>
      have hc : c = .fixed f := hc
      subst hc
      have := typeAttr_fixed_only hct
      exact this
    | any mn mx na docs hmn hmx hr hn hd' ht hsn hcn hp => cases hc
    | inline mn mx na docs v root s1 hmn hmx hr hn hd' ht hsc hp hv hroot => cases hc

/-- **C24, declaring attributes.** -/
theorem C24_declared_attribute (x : Ext) {nd : Nd} {parent : Name} {s s' : PCtx} {a : Attribute} {f : Str}
    (h : parseAttribute x nd parent s = .ok (some a, s')) (hs : nd.seen = []) (hf : DeclaredFixed nd f) : a.content = .fixed f := by
  replace h := parseAttribute_run x h
  cases h with
  | some na docs content nd' s' hn hd hc hk hu hx hp =>
    have hseen : nd'.info = nd.info → c!"fixed" ∈ nd'.seen := by
      intro hi
      have := hf.seen (nd' := (nd'.see c!"default").see c!"use") hi hp
      simp only [Nd.see, List.mem_cons] at this
      rcases this with h | h | h
      · exact absurd h (by decide)
      · exact absurd h (by decide)
      · exact h
    generalize ho : (removeKid c!"simpleType" (removeKid c!"annotation" nd.xsdKids).2).1 = o at hc
    have hno : c!"fixed" ∉ (nd.see c!"name").seen := by
      simp only [Nd.see, hs]
      decide
    cases hc with
    | plain c t rs docs s' h => exact absurd (hseen rfl) hno
    | inline c root s1 v h hv hne => exact absurd (hseen rfl) hno
    | typed ta c nd' s' ha hc =>
      refine typeAttr_fixed (nd0 := nd) hc rfl ?_ hf ?_
      · simp only [Nd.see, hs]
        decide
      · rintro _ rfl
        have hi := typeAttr_info hc
        exact hseen hi

theorem C24_declared_attribute_only (x : Ext) {nd : Nd} {parent : Name} {s s' : PCtx} {a : Attribute} {f : Str}
    (h : parseAttribute x nd parent s = .ok (some a, s')) (hc : a.content = .fixed f) : nd.value c!"fixed" = some f := by
  replace h := parseAttribute_run x h
  cases h with
  | some na docs content nd' s' hn hd hct hk hu hx hp =>
    generalize ho : (removeKid c!"simpleType" (removeKid c!"annotation" nd.xsdKids).2).1 = o at hct
    have hc : content = .fixed f := hc
    cases hct with
    | plain c t rs docs s' h => cases hc
    | inline c root s1 v h hv hne => cases hc
    | typed ta c nd' s' ha hct =>
      subst hc
      have := typeAttr_fixed_only hct
      exact this

/-- **C24, declaring top-level elements.** -/
theorem C24_declared_root (x : Ext) {k : Nat} {nd : Nd} {parent : Name} {s s' : PCtx} {r : Root} {f : Str} (hn : nd.name = c!"element")
    (h : parseRoot x k nd parent s = .ok (r, s')) (hs : nd.seen = [c!"name"]) (hf : DeclaredFixed nd f) :
    ∃ d, r = .leaf d ∧ d.content = .fixed f := by
  have no : (nd.see c!"type").preventUnvisitedAttributes ≠ .ok () := by
    intro hp
    have := hf.seen (nd' := nd.see c!"type") rfl hp
    simp only [Nd.see, hs] at this
    exact absurd this (by decide)
  cases k with
  | zero => cases h
  | succ k =>
    replace h := parseRoot_run x h
    cases h with
    | complexType hn' h => exact absurd (hn.symm.trans hn') (by decide)
    | simpleType hn' h => exact absurd (hn.symm.trans hn') (by decide)
    | element _ h =>
      cases k with
      | zero => cases h
      | succ k =>
        replace h := parseElementRoot_run x h
        cases h with
        | typed docs a c nd' s' hd ht hc hp hk =>
          refine ⟨_, rfl, typeAttr_fixed (nd0 := nd) hc rfl ?_ hf ?_⟩
          · simp only [Nd.see, hs]
            decide
          · rintro _ rfl
            have hi := typeAttr_info hc
            exact hf.seen hi hp
        | complexType docs child root s' hd ht hp hk h => exact absurd hp no
        | simpleType docs child root s' hd ht hp hn hk h => exact absurd hp no

open SchemaSample in
example : (match parseElementChild sampleExt 5 (xn c!"element" [(c!"name", c!"b"), (c!"type", c!"xs:int"), (c!"fixed", c!"7")] [])
      ⟨c!"A", .none⟩ ctx with
    | .ok (l, _) => some l.definition.content
    | _ => none) = some (.fixed c!"7") := by decide +kernel

open SchemaSample in
example : DeclaredFixed (xn c!"element" [(c!"name", c!"b"), (c!"type", c!"xs:int"), (c!"fixed", c!"7")] []) c!"7" :=
  ⟨⟨c!"fixed", none, c!"7", 0⟩, ⟨[⟨c!"name", none, c!"b", 0⟩, ⟨c!"type", none, c!"xs:int", 0⟩], [], rfl, nofun⟩, rfl, rfl, rfl⟩

open SchemaSample in
example : (match parseAttribute sampleExt (xn c!"attribute" [(c!"name", c!"b"), (c!"type", c!"xs:int"), (c!"fixed", c!"7")] [])
      ⟨c!"A", .none⟩ ctx with
    | .ok (some a, _) => some a.content
    | _ => none) = some (.fixed c!"7") := by decide +kernel

/-- With a type of the schema, `fixed` is not supported. -/
example : (match parseElementChild sampleExt 5 (SchemaSample.xn c!"element" [(c!"name", c!"b"), (c!"type", c!"t:B"), (c!"fixed", c!"7")] [])
      ⟨c!"A", .none⟩ SchemaSample.ctx with
    | .ok _ => none
    | .err e => some e
    | _ => none) = some (.unsupportedAttribute c!"fixed" c!"element" 0) := by decide +kernel

end Xsd
