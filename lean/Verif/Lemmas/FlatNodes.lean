import Verif.Lemmas.Components
/-!
# Files of records have no anonymous types of their own
-/
namespace Xsd.Flat

theorem countP_one {α : Type} {p : α → Bool} {l : List α} (h : l.countP p ≤ 1) {a b : α} (ha : a ∈ l) (hb : b ∈ l) (pa : p a = true)
    (pb : p b = true) : a = b := by
  induction l with
  | nil => cases ha
  | cons c l ih =>
    have none : ∀ {d}, l.countP p = 0 → d ∈ l → p d = true → False := fun h0 hd pd => by
      have := List.countP_eq_zero.1 h0 _ hd
      exact this pd
    rcases List.mem_cons.1 ha with rfl | ha'
    · rcases List.mem_cons.1 hb with rfl | hb'
      · rfl
      · rw [List.countP_cons, if_pos pa] at h
        exact (none (by omega) hb' pb).elim
    · rcases List.mem_cons.1 hb with rfl | hb'
      · rw [List.countP_cons, if_pos pb] at h
        exact (none (by omega) ha' pa).elim
      · rw [List.countP_cons] at h
        exact ih (by omega) ha' hb'

theorem count_one {nd c c' : Nd} {n : Str} (h : nd.count n ≤ 1) (hc : c ∈ nd.xsdKids) (hn : c.name = n) (hc' : c' ∈ nd.xsdKids)
    (hn' : c'.name = n) : c = c' :=
  countP_one h hc hc' (by simpa using hn) (by simpa using hn')

theorem count_pos {nd c : Nd} {n : Str} (hc : c ∈ nd.xsdKids) (hn : c.name = n) : 0 < nd.count n :=
  List.countP_pos_iff.2 ⟨c, hc, by simpa using hn⟩

theorem _root_.Xsd.Legal.step {x : Ext} {e : Env} {k k' : Kind} {nd c : Nd} (h : Legal x e k nd) (hs : Step k nd k' c) : Legal x e k' c :=
  fun k'' c' hw => h k'' c' (.step hs hw)

theorem _root_.Xsd.Legal.filled {x : Ext} {e : Env} {k : Kind} {nd : Nd} (h : Legal x e k nd) : Filled x e k nd := (h _ _ (.refl ..)).2.2

section
variable {x : Ext} {d : XDoc} {e : Env}

theorem attribute_none {nd a : Nd} {A : AttributeDecl} (hl : Legal x e .attribute nd) (h : AttributeNode d nd A) :
    ¬ AnonymousWithin .attribute nd a := by
  rw [aw_attribute]
  intro ha
  cases ha with
  | enumeration hc hn hr hrn hv hvn =>
    cases h with
    | typed _ hs => exact hs _ hc hn
    | simple _ hc' hcn' hS =>
      cases count_one hl.filled.2.2.1 hc hn hc' hcn'
      have hl' := hl.step (.attrSimpleType hc hn)
      cases hS with
      | text hr' hrn' _ _ he =>
        cases count_one (Nat.le_of_eq hl'.filled.2.1) hr hrn hr' hrn'
        exact he _ hv hvn

theorem each_mem_left {α β : Type} {R : α → β → Prop} {as : List α} {bs : List β} (h : Each R as bs) {a : α} (ha : a ∈ as) :
    ∃ b ∈ bs, R a b := by
  induction h with
  | nil => cases ha
  | cons h hs ih =>
    rcases List.mem_cons.1 ha with rfl | ha
    · exact ⟨_, .head _, h⟩
    · obtain ⟨b, hb, h⟩ := ih ha
      exact ⟨b, .tail _ hb, h⟩

theorem attributes_none {nd c a : Nd} {k : Kind} {As : List AttributeDecl} (hl : Legal x e k nd)
    (hs : ∀ c ∈ nd.xsdKids, c.name = c!"attribute" → Step k nd .attribute c) (h : Each (AttributeNode d) (attributeNodes nd) As)
    (hc : c ∈ nd.xsdKids) (hn : c.name = c!"attribute") : ¬ AnonymousWithin .attribute c a := by
  obtain ⟨A, _, hA⟩ := each_mem_left h (List.mem_filter.2 ⟨hc, by simpa using hn⟩)
  exact attribute_none (hl.step (hs c hc hn)) hA

theorem local_none {nd a : Nd} {L : ElementDecl} (h : LocalElement d nd L) : ¬ AnonymousWithin .localElement nd a := by
  rw [aw_localElement]
  rintro ⟨h1, h2, h3⟩
  have hr : nd.value c!"ref" = none := Option.map_eq_none_iff.2 h1
  have ht : nd.value c!"type" = none := Option.map_eq_none_iff.2 h2
  have hk : ∃ c ∈ nd.xsdKids, c.name = c!"complexType" ∨ c.name = c!"simpleType" := by
    rcases h3 with h3 | ⟨c, hc, hn, _⟩
    · rw [aw_topElement] at h3
      obtain ⟨_, c, hc, hn, _⟩ := h3
      exact ⟨c, hc, .inl hn⟩
    · exact ⟨c, hc, hn⟩
  obtain ⟨c, hc, hn⟩ := hk
  cases h with
  | ref hr' => rw [hr] at hr'; cases hr'
  | typed _ _ _ ht' => cases ht' <;> (rename_i hv _ _; rw [ht] at hv; cases hv)
  | any _ _ _ _ hk =>
    rcases hn with hn | hn
    · exact (hk c hc).2 hn
    · exact (hk c hc).1 hn

theorem complexType_none {nd a : Nd} {D : Def} {t : Bool} (hl : Legal x e (.complexType t) nd) (h : ComplexType d nd D) :
    ¬ AnonymousWithin (.complexType t) nd a := by
  rw [aw_complexType]
  rintro ⟨c, hc, h1⟩
  obtain ⟨_, _, hcnt, _, _⟩ := hl.filled
  cases h with
  | empty hp ha =>
    unfold ComplexSub at h1
    rcases hp c hc with hn | hn <;> simp only [hn] at h1 <;> simp (decide := true) at h1
    exact attributes_none hl (fun c hc hn => .complexAttribute hc hn) ha hc hn h1
  | @elements q ls as hq hqn hmn hmx he hL ha =>
    have p1 := count_pos hq hqn
    rcases h1 with ⟨hn, h1⟩ | ⟨hn, h1⟩ | ⟨hn, h1⟩ | ⟨hn, h1⟩ | ⟨hn, h1⟩
    · have := count_pos hc hn; omega
    · have := count_pos hc hn; omega
    · rcases hn with hn | hn
      · cases count_one (by omega) hc hn hq hqn
        rcases h1 with h1 | ⟨h1, rfl⟩
        · rw [aw_sequence] at h1
          obtain ⟨p, hp, h1⟩ := h1
          have hpart : p.name ≠ c!"annotation" → p ∈ c.particles := fun hne =>
            List.mem_filter.2 ⟨hp, by simpa using hne⟩
          rcases h1 with ⟨hn, h1⟩ | ⟨hn, h1⟩ | ⟨hn, h1⟩
          · obtain ⟨L, _, hL⟩ := each_mem_left hL (hpart (by rw [hn]; decide))
            exact local_none hL h1
          · have := he p (hpart (by rw [hn]; decide))
            rw [hn] at this
            cases this
          · have := he p (hpart (by rw [hn]; decide))
            rw [hn] at this
            cases this
        · refine h1 ⟨fun v hv => ?_, fun v hv => ?_⟩
          · rcases hmn with ⟨h, _⟩ | ⟨w, hw, hu⟩
            · rw [h] at hv; cases hv
            · rw [hw] at hv; cases hv; exact hu
          · rcases hmx with ⟨h, _⟩ | ⟨w, hw, hu⟩
            · rw [h] at hv; cases hv
            · rw [hw] at hv
              cases hv
              rcases hu with ⟨_, hu⟩ | ⟨n, hn, hu⟩
              · cases hu
              · cases hn; exact ⟨1, hu, Nat.le_refl _⟩
      · have := count_pos hc hn; omega
    · have := count_pos hc hn; omega
    · exact attributes_none hl (fun c hc hn => .complexAttribute hc hn) ha hc hn h1
  | @text q r v l as hq hqn hr hrn hv hb ha =>
    have p1 := count_pos hq hqn
    rcases h1 with ⟨hn, h1⟩ | ⟨hn, h1⟩ | ⟨hn, h1⟩ | ⟨hn, h1⟩ | ⟨hn, h1⟩
    · cases count_one (by omega) hc hn hq hqn
      have hl' := hl.step (.complexSimpleContent hc hn)
      rw [aw_simpleContent] at h1
      obtain ⟨r', hr', hrn', h1⟩ := h1
      cases count_one (Nat.le_of_eq hl'.filled.1) hr hrn hr' hrn'
      rw [aw_simpleExtension] at h1
      obtain ⟨b, hb, hbn, h1⟩ := h1
      exact attributes_none (hl'.step (.simpleExtension hr hrn)) (fun c hc hn => .simpleExtAttribute hc hn) ha hb hbn h1
    · have := count_pos hc hn; omega
    · rcases hn with hn | hn <;> (have := count_pos hc hn; omega)
    · have := count_pos hc hn; omega
    · have h4 := hl.filled.2.2.2.1 (by omega)
      have := count_pos hc hn
      omega

/-- Nothing below a top-level node of such a file is a type of its own. -/
theorem topLevel_none {nd a : Nd} {D : Def} {k : Kind} (hl : Legal x e k nd) (hk : topKind nd.name = some k) (h : TopLevel d nd D) :
    ¬ AnonymousWithin k nd a := by
  cases h with
  | complexType hn h =>
    rw [hn] at hk
    cases hk
    exact complexType_none hl h
  | simpleType hn h =>
    rw [hn] at hk
    cases hk
    exact aw_simpleType
  | typed hn h =>
    rw [hn] at hk
    cases hk
    rw [aw_topElement]
    rintro ⟨h1, _⟩
    have ht : nd.value c!"type" = none := Option.map_eq_none_iff.2 h1
    cases h <;> (rename_i hv _ _; rw [ht] at hv; cases hv)
  | inlineComplex hn ht hc hcn h =>
    rw [hn] at hk
    cases hk
    rw [aw_topElement]
    rintro ⟨h1, c, hc', hcn', h2⟩
    have := hl.filled.2.2 ht
    cases count_one (by omega) hc hcn hc' hcn'
    exact complexType_none (hl.step (.topComplexType hc h1 hcn)) h h2
  | inlineSimple hn ht hc hcn h =>
    rw [hn] at hk
    cases hk
    rw [aw_topElement]
    rintro ⟨h1, c, hc', hcn', h2⟩
    have := hl.filled.2.2 ht
    have := count_pos hc hcn
    have := count_pos hc' hcn'
    omega

end
end Xsd.Flat
