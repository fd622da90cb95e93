import Verif.Spec.Generable
import Verif.Lemmas.Gen
import Verif.Props.GenerateAll
import Verif.Props.SchemaNames
import Verif.Props.Text
import Verif.Props.Dependencies
/-!
# When code is generated (C60)
-/
namespace Xsd

/-- The result is a value. -/
def Res.Good {ε α : Type} (r : Res ε α) : Prop := ∃ a, r = .ok a

namespace Good
variable {ε α β : Type}

theorem ok (a : α) : (Res.ok a : Res ε α).Good := ⟨a, rfl⟩

theorem bind {r : Res ε α} {f : α → Res ε β} (hr : r.Good) (hf : ∀ a, r = .ok a → (f a).Good) : (r >>= f).Good := by
  obtain ⟨a, rfl⟩ := hr
  exact hf a rfl

theorem mapRes {f : α → Res Str β} {l : List α} (h : ∀ a ∈ l, (f a).Good) : (mapRes f l).Good := by
  induction l with
  | nil => exact ok _
  | cons a l ih => exact bind (h a (.head _)) fun b _ => bind (ih fun c hc => h c (.tail _ hc)) fun bs _ => ok _

variable (x : Ext) (S : SchemaContext)

theorem formatIdent {s : Str} (h : x.identOk s = true) : (Xsd.formatIdent x s).Good := by
  unfold Xsd.formatIdent
  rw [if_pos h]
  exact ok _

theorem formatIdent_iff {s : Str} : (Xsd.formatIdent x s).Good ↔ x.identOk s = true := by
  refine ⟨?_, formatIdent x⟩
  rintro ⟨a, h⟩
  unfold Xsd.formatIdent at h
  split at h
  · assumption
  · cases h

theorem escapeIdent_iff {s : Str} : (Xsd.escapeIdent x s).Good ↔ Usable x s := by
  unfold Xsd.escapeIdent Usable
  have hsub : s ∈ noRawWords → s ∈ escapedWords := by
    intro h
    simp only [noRawWords, List.mem_cons, List.not_mem_nil, or_false] at h
    rcases h with rfl | rfl | rfl | rfl <;> decide
  by_cases he : s ∈ escapedWords
  · rw [if_pos (List.contains_iff_mem.2 he)]
    by_cases hn : s ∈ noRawWords
    · rw [if_pos (by simp [hn])]
      exact ⟨fun ⟨a, h⟩ => (by cases h), fun h => absurd hn h.2⟩
    · cases hi : x.identOk s with
      | false =>
        rw [if_pos (by simp)]
        exact ⟨fun ⟨a, h⟩ => (by cases h), fun h => (by cases h.1)⟩
      | true =>
        rw [if_neg (by simp [hn])]
        exact ⟨fun _ => ⟨rfl, hn⟩, fun _ => ok _⟩
  · rw [if_neg (by simpa using he), formatIdent_iff]
    exact ⟨fun h => ⟨h, fun hn => he (hsub hn)⟩, fun h => h.1⟩

theorem enumNames (vs : List Name) : (escapeEnumNames x vs).Good := by
  obtain ⟨tab, h, _⟩ := C25_variants (x := x) vs
  exact ⟨tab, h⟩

/-- A content that the generator can handle. -/
def Content (c : LeafContent) : Prop := (inlined S c).Good ∧ ∀ m, Means S c (.named m) → Usable x (x.pascal m.name)

variable {x S}

theorem contentTy_iff {c : LeafContent} : (Xsd.contentTy x S c).Good ↔ Content x S c := by
  constructor
  · intro ⟨t, h⟩
    have hi : (inlined S c).Good := by
      unfold contentTy at h
      obtain ⟨c', hc, _⟩ := Res.bind_eq_ok.1 h
      exact ⟨c', hc⟩
    refine ⟨hi, fun m hm => ?_⟩
    rcases contentTy_ok h with ⟨t, h1, _⟩ | ⟨t, h1, _⟩ | ⟨n, i, h1, h2, _⟩
    · cases hm.functional h1
    · cases hm.functional h1
    · cases hm.functional h1
      exact (escapeIdent_iff x).1 ⟨i, h2⟩
  · intro ⟨h1, h2⟩
    unfold contentTy
    refine bind h1 fun c' hc => ?_
    have hm := inlined_means hc
    cases c' with
    | literal t => exact ok _
    | fixed t => exact ok _
    | named n => exact bind ((escapeIdent_iff x).2 (h2 n hm)) fun i _ => ok _

theorem contentWrite {c : LeafContent} (h : Content x S c) : (Xsd.contentWrite x S c).Good := by
  unfold Xsd.contentWrite
  refine bind h.1 fun c' hc => ?_
  have hm := inlined_means hc
  cases c' with
  | literal t => exact ok _
  | fixed t => exact ok _
  | named n => exact bind ((escapeIdent_iff x).2 (h.2 n hm)) fun i _ => ok _

theorem contentRead {c : LeafContent} (h : Content x S c) : (Xsd.contentRead x S c).Good := by
  unfold Xsd.contentRead
  refine bind h.1 fun c' hc => ?_
  have hm := inlined_means hc
  cases c' with
  | literal t => exact ok _
  | fixed t => exact ok _
  | named n => exact bind ((escapeIdent_iff x).2 (h.2 n hm)) fun i _ => ok _

/-- A name with a known namespace. -/
def Named (S : SchemaContext) (n : Name) : Prop := (S.qname n).Good ∧ (S.xmlName n).Good

theorem leafDecl {l : Leaf} (hf : Usable x (x.snake l.name.name)) (hc : Content x S l.definition.content) :
    (Xsd.leafDecl x S l).Good :=
  bind ((escapeIdent_iff x).2 hf) fun _ _ => bind (contentTy_iff.2 hc) fun _ _ => ok _

theorem leafWrite {l : Leaf} (hac : ∀ n, ¬ S.Aliases n n) (hn : Named S l.name) (hf : Usable x (x.snake l.name.name))
    (hc : Content x S l.definition.content) : (Xsd.leafWrite x S l).Good := by
  refine bind ((escapeIdent_iff x).2 hf) fun f _ => bind hn.2 fun nm _ => bind (contentWrite hc) fun v _ => ?_
  dsimp only
  split
  · exact ok _
  · split
    · next n _ =>
      obtain ⟨r, hr, _⟩ := C48_resolve_partial S hac n
      refine bind ⟨r, hr⟩ fun _ _ => ?_
      split
      · split <;> exact ok _
      · exact ok _
    · exact ok _

/-- The group that a leaf stands for has a name in the form of an identifier. -/
def Group (x : Ext) (l : Leaf) : Prop :=
  l.isVirtual = true → ∃ n, l.definition.content = .named n ∧ x.identOk (x.pascal n.name) = true

theorem leafRead {l : Leaf} (hn : Named S l.name) (hf : Usable x (x.snake l.name.name))
    (hc : Content x S l.definition.content) (hg : Group x l) : (Xsd.leafRead x S l).Good := by
  refine bind ((escapeIdent_iff x).2 hf) fun f _ => bind hn.1 fun nm _ => bind (contentRead hc) fun v _ => ?_
  cases hv : l.isVirtual with
  | true =>
    obtain ⟨n, hn, hi⟩ := hg hv
    simp only [if_true, hn]
    split
    · exact bind (formatIdent x hi) fun _ _ => ok _
    · split
      · exact bind (formatIdent x hi) fun _ _ => ok _
      · exact ok _
  | false =>
    simp only [Bool.false_eq_true, if_false]
    split
    · exact ok _
    · split
      · exact ok _
      · split <;> exact ok _

theorem attrDecl {a : Attribute} (hf : Usable x (x.snake a.name.name)) (hc : Content x S a.content) : (Xsd.attrDecl x S a).Good :=
  bind ((escapeIdent_iff x).2 hf) fun _ _ => bind (contentTy_iff.2 hc) fun _ _ => ok _

theorem attrWrite {a : Attribute} (hn : Named S a.name) (hf : Usable x (x.snake a.name.name)) (hc : Content x S a.content) :
    (Xsd.attrWrite x S a).Good := by
  refine bind ((escapeIdent_iff x).2 hf) fun _ _ => bind hn.2 fun _ _ => ?_
  dsimp only
  split
  · exact ok _
  · exact bind (contentTy_iff.2 hc) fun _ _ => ok _
  · exact ok _

theorem attrRead {a : Attribute} (hf : Usable x (x.snake a.name.name)) (hc : Content x S a.content) :
    (Xsd.attrRead x S a).Good := by
  refine bind ((escapeIdent_iff x).2 hf) fun _ _ => ?_
  dsimp only
  split
  · exact ok _
  · exact bind (contentTy_iff.2 hc) fun _ _ => ok _
  · exact ok _

theorem variantDecl {l : Leaf} (hf : x.identOk (x.pascal l.name.name) = true) (hc : Content x S l.definition.content) :
    (Xsd.variantDecl x S l).Good := bind (formatIdent x hf) fun _ _ => bind (contentTy_iff.2 hc) fun _ _ => ok _

theorem variantWrite {l : Leaf} (hf : x.identOk (x.pascal l.name.name) = true) (hc : Content x S l.definition.content) :
    (Xsd.variantWrite x S l).Good := bind (formatIdent x hf) fun _ _ => bind (contentWrite hc) fun _ _ => ok _

theorem variantRead {l : Leaf} (hn : Named S l.name) (hf : x.identOk (x.pascal l.name.name) = true)
    (hc : Content x S l.definition.content) (hg : Group x l) : (Xsd.variantRead x S l).Good := by
  refine bind (formatIdent x hf) fun _ _ => bind (contentRead hc) fun _ _ => bind hn.1 fun _ _ => ?_
  cases hv : l.isVirtual with
  | true =>
    obtain ⟨n, hn, hi⟩ := hg hv
    simp only [if_true, hn]
    exact bind (formatIdent x hi) fun _ _ => ok _
  | false =>
    simp only [Bool.false_eq_true, if_false]
    split <;> exact ok _

theorem leafCheck {l : Leaf} (hn : Named S l.name) (hg : Group x l) : (Xsd.leafCheck x S l).Good := by
  unfold Xsd.leafCheck
  cases hv : l.isVirtual with
  | true =>
    obtain ⟨n, hn, hi⟩ := hg hv
    simp only [if_true, hn]
    exact bind (formatIdent x hi) fun _ _ => ok _
  | false =>
    simp only [Bool.false_eq_true, if_false]
    exact bind hn.1 fun _ _ => ok _

end Good

/-- What parsing establishes for the generator: every name has a known namespace, groups are references. -/
structure SchemaContext.Ready (S : SchemaContext) : Prop where
  nss : (schemaNss S).Good
  names : ∀ p ∈ S.elements, Good.Named S p.1 ∧ (∀ n ∈ p.2.names, Good.Named S n) ∧ p.2.GroupsNamed

theorem lookLeaves_sub {ls : List Leaf} {l : Leaf} (h : l ∈ lookLeaves ls) : l ∈ ls := by
  induction ls with
  | nil => cases h
  | cons a ls ih =>
    unfold lookLeaves at h
    split at h
    · rcases List.mem_cons.1 h with rfl | h
      · exact .head _
      · exact .tail _ (ih h)
    · rw [List.mem_singleton.1 h]
      exact .head _

theorem generateElement_good {x : Ext} {S : SchemaContext} (hR : S.Ready) (hG : Generable x S) {n : Name} {r : Root}
    (hr : S.get n = some r) : (generateElement x S n).Good := by
  obtain ⟨hn, hns, hgn⟩ := hR.names _ (alookup_mem hr)
  have hc : ∀ c ∈ r.allContents, Good.Content x S c := fun c hc => by
    obtain ⟨c', h', _⟩ := C48_terminates_partial S hG.acyclic c
    exact ⟨⟨c', h'⟩, hG.refs n r hr c hc⟩
  have hg : ∀ l ∈ r.leaves, l.definition.content ∈ r.allContents → Good.Group x l := by
    intro l hl hlc hv
    obtain ⟨m, hm⟩ := hgn l hl hv
    refine ⟨m, hm, ?_⟩
    cases hgm : S.get m with
    | none => exact (hG.refs n r hr _ hlc m (by rw [hm]; exact .name (by rw [hgm]; nofun))).1
    | some r' => exact (hG.types m r' hgm).1
  unfold generateElement
  rw [hr]
  refine Good.bind ((Good.escapeIdent_iff x).2 (hG.types n r hr)) fun _ _ => ?_
  -- everything about the root, by cases
  have key : (rootDecl x S r).Good ∧ (rootWrite x S r).Good ∧ (rootRead x S r).Good ∧ (rootLook x S r).Good := by
    cases r with
    | leaf d =>
      have h := hc d.content (by simp [Root.allContents])
      exact ⟨Good.bind (Good.contentTy_iff.2 h) fun _ _ => Good.ok _, Good.bind (Good.contentWrite h) fun _ _ => Good.ok _,
        Good.bind (Good.contentRead h) fun _ _ => Good.ok _, Good.ok _⟩
    | enum vs =>
      refine ⟨Good.bind (Good.enumNames x vs) fun tab ht => Good.bind (Good.mapRes fun p hp => ?_) fun _ _ => Good.ok _,
        Good.ok _, Good.ok _, Good.ok _⟩
      exact Good.bind (Good.formatIdent x (hG.enums n vs hr tab ht p hp)) fun _ _ => Good.ok _
    | choice vs b d =>
      have h1 : ∀ l ∈ vs, Good.Content x S l.definition.content := fun l hl => hc _ (List.mem_map.2 ⟨l, hl, rfl⟩)
      have h2 := hG.choices n vs b d hr
      have h3 : ∀ l ∈ vs, Good.Named S l.name := fun l hl => hns _ (List.mem_flatMap.2 ⟨l, hl, .head _⟩)
      have h4 : ∀ l ∈ vs, Good.Group x l := fun l hl => hg l hl (List.mem_map.2 ⟨l, hl, rfl⟩)
      exact ⟨Good.bind (Good.mapRes fun l hl => Good.variantDecl (h2 l hl) (h1 l hl)) fun _ _ => Good.ok _,
        Good.bind (Good.mapRes fun l hl => Good.variantWrite (h2 l hl) (h1 l hl)) fun _ _ => Good.ok _,
        Good.bind (Good.mapRes fun l hl => Good.variantRead (h3 l hl) (h2 l hl) (h1 l hl) (h4 l hl)) fun _ _ => Good.ok _,
        Good.bind (Good.mapRes fun l hl => Good.leafCheck (h3 l hl) (h4 l hl)) fun _ _ => Good.ok _⟩
    | element e =>
      have hf := hG.fields n e hr
      have a1 : ∀ a ∈ e.attributes, Good.Content x S a.content := fun a ha =>
        hc _ (List.mem_append.2 (.inr (List.mem_map.2 ⟨a, ha, rfl⟩)))
      have a2 : ∀ a ∈ e.attributes, Usable x (x.snake a.name.name) := fun a ha =>
        hf _ (List.mem_append.2 (.inr (List.mem_map.2 ⟨a, ha, rfl⟩)))
      have a3 : ∀ a ∈ e.attributes, Good.Named S a.name := fun a ha =>
        hns _ (List.mem_append.2 (.inl (List.mem_flatMap.2 ⟨a, ha, .head _⟩)))
      have content : (contentDecl x S e.content).Good ∧ (elementContentWrite x S e.content).Good ∧
          (elementContentRead x S e.content).Good ∧ (rootLook x S (.element e)).Good := by
        simp only [rootLook]
        cases he : e.content with
        | none => exact ⟨Good.ok _, Good.ok _, Good.ok _, Good.ok _⟩
        | some c =>
          cases c with
          | leaf m d =>
            have h1 : Good.Content x S d.content := hc _ (List.mem_append.2 (.inl (by rw [he]; exact .head _)))
            have h2 : Usable x (x.snake m.name) := hf _ (List.mem_append.2 (.inl (by rw [he]; exact .head _)))
            have h2 := (Good.escapeIdent_iff x).2 h2
            exact ⟨Good.bind h2 fun _ _ => Good.bind (Good.contentTy_iff.2 h1) fun _ _ => Good.ok _,
              Good.bind h2 fun _ _ => Good.bind (Good.contentWrite h1) fun _ _ => Good.ok _,
              Good.bind h2 fun _ _ => Good.bind (Good.contentRead h1) fun _ _ => Good.ok _, Good.ok _⟩
          | leaves ls =>
            have h0 : ∀ l ∈ ls, l.definition.content ∈ Root.allContents (.element e) := fun l hl =>
              List.mem_append.2 (.inl (by rw [he]; exact List.mem_map.2 ⟨l, hl, rfl⟩))
            have h1 : ∀ l ∈ ls, Good.Content x S l.definition.content := fun l hl => hc _ (h0 l hl)
            have h2 : ∀ l ∈ ls, Usable x (x.snake l.name.name) := fun l hl =>
              hf _ (List.mem_append.2 (.inl (by rw [he]; exact List.mem_map.2 ⟨l, hl, rfl⟩)))
            have h3 : ∀ l ∈ ls, Good.Named S l.name := fun l hl =>
              hns _ (List.mem_append.2 (.inr (by rw [he]; exact List.mem_flatMap.2 ⟨l, hl, .head _⟩)))
            have h4 : ∀ l ∈ ls, Good.Group x l := fun l hl => hg l (by simp only [Root.leaves, he]; exact hl) (h0 l hl)
            exact ⟨Good.mapRes fun l hl => Good.leafDecl (h2 l hl) (h1 l hl),
              Good.bind (Good.mapRes fun l hl => Good.leafWrite hG.acyclic (h3 l hl) (h2 l hl) (h1 l hl)) fun _ _ => Good.ok _,
              Good.bind (Good.mapRes fun l hl => Good.leafRead (h3 l hl) (h2 l hl) (h1 l hl) (h4 l hl)) fun _ _ => Good.ok _,
              Good.bind (Good.mapRes fun l hl => Good.leafCheck (h3 l (lookLeaves_sub hl)) (h4 l (lookLeaves_sub hl))) fun _ _ => Good.ok _⟩
      obtain ⟨c1, c2, c3, c4⟩ := content
      exact ⟨Good.bind c1 fun _ _ => Good.bind (Good.mapRes fun a ha => Good.attrDecl (a2 a ha) (a1 a ha)) fun _ _ => Good.ok _,
        Good.bind (Good.mapRes fun a ha => Good.attrWrite (a3 a ha) (a2 a ha) (a1 a ha)) fun _ _ => Good.bind c2 fun _ _ => Good.ok _,
        Good.bind c3 fun _ _ => Good.bind (Good.mapRes fun a ha => Good.attrRead (a2 a ha) (a1 a ha)) fun _ _ => Good.ok _, c4⟩
  obtain ⟨k1, k2, k3, k4⟩ := key
  exact Good.bind k1 fun _ _ => Good.bind k2 fun _ _ => Good.bind hn.2 fun _ _ => Good.bind hR.nss fun _ _ =>
    Good.bind hn.1 fun _ _ => Good.bind k3 fun _ _ => Good.bind k4 fun _ _ => Good.ok _

theorem mapRes_good {α β : Type} {f : α → Res Str β} {l : List α} (h : (mapRes f l).Good) : ∀ a ∈ l, (f a).Good := by
  obtain ⟨bs, h⟩ := h
  intro a ha
  obtain ⟨b, _, hb⟩ := (mapRes_ok h).1 a ha
  exact ⟨b, hb⟩

theorem bind_good {ε α β : Type} {r : Res ε α} {f : α → Res ε β} (h : (r >>= f).Good) : ∃ a, r = .ok a ∧ (f a).Good := by
  obtain ⟨b, h⟩ := h
  obtain ⟨a, h1, h2⟩ := Res.bind_eq_ok.1 h
  exact ⟨a, h1, b, h2⟩

/-- What a declaration that is generated says about its definition. -/
theorem rootDecl_good {x : Ext} {S : SchemaContext} {r : Root} (h : (rootDecl x S r).Good) :
    (∀ c ∈ r.allContents, Good.Content x S c) ∧ (∀ e, r = .element e → ∀ m ∈ e.fieldNames, Usable x (x.snake m.name)) ∧
    (∀ vs b d, r = .choice vs b d → ∀ l ∈ vs, x.identOk (x.pascal l.name.name) = true) ∧
    ∀ vs, r = .enum vs → ∀ tab, escapeEnumNames x vs = .ok tab → ∀ p ∈ tab, x.identOk p.1 = true := by
  cases r with
  | leaf d =>
    obtain ⟨t, h1, _⟩ := bind_good h
    refine ⟨?_, nofun, nofun, nofun⟩
    intro c hc
    rw [List.mem_singleton.1 hc]
    exact Good.contentTy_iff.1 ⟨t, h1⟩
  | enum vs =>
    refine ⟨nofun, nofun, nofun, ?_⟩
    intro vs' hv tab ht p hp
    cases hv
    obtain ⟨tab', h1, h2⟩ := bind_good h
    rw [ht] at h1
    cases h1
    obtain ⟨_, h3, _⟩ := bind_good h2
    obtain ⟨v, h4, _⟩ := bind_good (mapRes_good ⟨_, h3⟩ p hp)
    exact (Good.formatIdent_iff x).1 ⟨v, h4⟩
  | choice vs b d =>
    obtain ⟨ts, h1, _⟩ := bind_good h
    have hl : ∀ l ∈ vs, x.identOk (x.pascal l.name.name) = true ∧ Good.Content x S l.definition.content := by
      intro l hl
      obtain ⟨v, h2, h3⟩ := bind_good (mapRes_good ⟨_, h1⟩ l hl)
      obtain ⟨t, h4, _⟩ := bind_good h3
      exact ⟨(Good.formatIdent_iff x).1 ⟨v, h2⟩, Good.contentTy_iff.1 ⟨t, h4⟩⟩
    refine ⟨?_, nofun, ?_, nofun⟩
    · intro c hc
      obtain ⟨l, hl', rfl⟩ := List.mem_map.1 hc
      exact (hl l hl').2
    · intro vs' b' d' hv l hl'
      cases hv
      exact (hl l hl').1
  | element e =>
    obtain ⟨cs, h1, h2⟩ := bind_good h
    obtain ⟨as, h3, _⟩ := bind_good h2
    have ha : ∀ a ∈ e.attributes, Usable x (x.snake a.name.name) ∧ Good.Content x S a.content := by
      intro a ha
      obtain ⟨v, h4, h5⟩ := bind_good (mapRes_good ⟨_, h3⟩ a ha)
      obtain ⟨t, h6, _⟩ := bind_good h5
      exact ⟨(Good.escapeIdent_iff x).1 ⟨v, h4⟩, Good.contentTy_iff.1 ⟨t, h6⟩⟩
    have hcont : (∀ c ∈ (match e.content with
          | none => []
          | some (.leaf _ d) => [d.content]
          | some (.leaves ls) => ls.map (fun l => l.definition.content) : List LeafContent), Good.Content x S c) ∧
        ∀ m ∈ (match e.content with
          | none => []
          | some (.leaf n _) => [n]
          | some (.leaves ls) => ls.map Leaf.name), Usable x (x.snake m.name) := by
      cases he : e.content with
      | none => exact ⟨nofun, nofun⟩
      | some c =>
        rw [he] at h1
        cases c with
        | leaf m d =>
          obtain ⟨v, h4, h5⟩ := bind_good ⟨_, h1⟩
          obtain ⟨t, h6, _⟩ := bind_good h5
          constructor
          · intro c hc
            rw [List.mem_singleton.1 hc]
            exact Good.contentTy_iff.1 ⟨t, h6⟩
          · intro c hc
            rw [List.mem_singleton.1 hc]
            exact (Good.escapeIdent_iff x).1 ⟨v, h4⟩
        | leaves ls =>
          have hl : ∀ l ∈ ls, Usable x (x.snake l.name.name) ∧ Good.Content x S l.definition.content := by
            intro a ha
            obtain ⟨v, h4, h5⟩ := bind_good (mapRes_good (f := leafDecl x S) ⟨_, h1⟩ a ha)
            obtain ⟨t, h6, _⟩ := bind_good h5
            exact ⟨(Good.escapeIdent_iff x).1 ⟨v, h4⟩, Good.contentTy_iff.1 ⟨t, h6⟩⟩
          constructor
          · intro c hc
            obtain ⟨l, hl', rfl⟩ := List.mem_map.1 hc
            exact (hl l hl').2
          · intro m hm
            obtain ⟨l, hl', rfl⟩ := List.mem_map.1 hm
            exact (hl l hl').1
    refine ⟨?_, ?_, nofun, nofun⟩
    · intro c hc
      rcases List.mem_append.1 hc with hc | hc
      · exact hcont.1 c hc
      · obtain ⟨a, ha', rfl⟩ := List.mem_map.1 hc
        exact (ha a ha').2
    · intro e' he m hm
      cases he
      rcases List.mem_append.1 hm with hm | hm
      · exact hcont.2 m hm
      · obtain ⟨a, ha', rfl⟩ := List.mem_map.1 hm
        exact (ha a ha').1

/-- For a schema with known namespaces whose groups are references. -/
theorem generateAll_iff {x : Ext} {S : SchemaContext} (hR : S.Ready) : (generateAll x S).Good ↔ Generable x S := by
  constructor
  · intro h
    have hel : ∀ n r, S.get n = some r → Usable x (x.pascal n.name) ∧ (rootDecl x S r).Good := by
      intro n r hr
      obtain ⟨t, ht⟩ := mapRes_good h n (List.mem_map.2 ⟨_, alookup_mem hr, rfl⟩)
      obtain ⟨r', hr', hg⟩ := generateElement_ok ht
      rw [hr] at hr'
      cases hr'
      exact ⟨(Good.escapeIdent_iff x).1 ⟨_, hg.ident⟩, _, hg.decl⟩
    have hd := fun n r hr => rootDecl_good (hel n r hr).2
    refine ⟨fun n r hr => (hel n r hr).1, fun n r hr c hc => ((hd n r hr).1 c hc).2, fun n e hr => (hd n _ hr).2.1 e rfl,
      fun n vs b d hr => (hd n _ hr).2.2.1 vs b d rfl, fun n vs hr => (hd n _ hr).2.2.2 vs rfl, ?_⟩
    intro n hn
    obtain ⟨m, ⟨d, hd', hm⟩, hmm⟩ : ∃ m, S.AliasOf n m ∧ S.Aliases m m := by
      cases hn with
      | one h => exact ⟨_, h, .one h⟩
      | step h t => exact ⟨_, h, t.snoc h⟩
    obtain ⟨c, hc⟩ := ((hd n _ hd').1 d.content (.head _)).1
    rw [hm] at hc
    rw [inlined, C48_cycle hmm] at hc
    cases hc
  · intro h
    refine Good.mapRes fun n hn => ?_
    obtain ⟨r, hr⟩ : ∃ r, S.get n = some r := by
      cases hg : S.get n with
      | some r => exact ⟨r, rfl⟩
      | none => exact absurd hn ((alookup_eq_none_iff _ _).1 hg)
    exact generateElement_good hR h hr

/-- What parsing establishes. -/
theorem parseFile_ready {x : Ext} {F : Files} {k : Nat} {path : Str} {P : PSchema} (h : parseFile x F k path = .ok P)
    {elements : List (Name × Root)} (hp : elements.Perm P.context.elements) :
    SchemaContext.Ready { P.context with elements := elements } := by
  obtain ⟨h1, N, h2⟩ := C32_no_panic x F k path P h
  have hok := parseFileWith_names k path _ _ P ⟨[], rfl⟩ h
  refine ⟨⟨N, h2⟩, fun p hpe => ?_⟩
  replace hpe := hp.mem_iff.1 hpe
  have hocc : ∀ n : Name, n.ns ∈ P.context.occurring → Good.Named { P.context with elements := elements } n :=
    fun n hn => ⟨(h1 n hn).1, (h1 n hn).2⟩
  refine ⟨hocc _ ?_, fun n hn => hocc _ ?_, (hok.roots p hpe).2.2⟩
  · exact .tail _ (List.mem_flatMap.2 ⟨p, hpe, .head _⟩)
  · exact .tail _ (List.mem_flatMap.2 ⟨p, hpe, .tail _ (List.mem_map.2 ⟨n, hn, rfl⟩)⟩)

/-- **C60**: for every schema that was parsed, in every order of its definitions, code is generated for all of it exactly if the names in
it can be identifiers, each after the conversion for the place where it is used, and nothing is an alias of itself. -/
theorem C60_generated_iff (x : Ext) (F : Files) (k : Nat) (path : Str) (P : PSchema) (h : parseFile x F k path = .ok P)
    (elements : List (Name × Root)) (hp : elements.Perm P.context.elements) :
    (∃ ds, generateAll x { P.context with elements := elements } = .ok ds) ↔
      Generable x { P.context with elements := elements } := generateAll_iff (parseFile_ready h hp)

/-- **C60**, for one name with all it needs: it is enough that in addition the needed names are defined, whatever was generated before. -/
theorem C60_with_dependencies (x : Ext) (F : Files) (k : Nat) (path : Str) (P : PSchema) (h : parseFile x F k path = .ok P)
    (hG : Generable x P.context) (n : Name) (hd : ∀ a, Needs P.deps n a → P.context.get a ≠ none) (already : List Name) :
    ∃ r, generateWithDeps x P n already = .ok r := by
  refine C46_succeeds x P n already fun a ha _ => ?_
  obtain ⟨r, hr⟩ := Option.ne_none_iff_exists'.1 (hd a ha)
  exact generateElement_good (parseFile_ready h (.refl _)) hG hr

end Xsd
