import Verif.Lemmas.Sound
import Verif.Props.Literals
/-!
# Enumerations (C25)
-/
namespace Xsd

variable {x : Ext}

/-! ## The search for a free variant name ends -/

theorem showNat_inj {a b : Nat} (h : showNat a = showNat b) : a = b := by
  have ha := parseNat_showNat a
  rw [h, parseNat_showNat] at ha
  exact (Option.some.inj ha).symm

/-- The `j`-th candidate after counter `cnt`. -/
def variantCand (cnt j : Nat) : Str := c!"Variant" ++ showNat (cnt + 1 + j)

theorem variantCand_inj {cnt i j : Nat} (h : variantCand cnt i = variantCand cnt j) : i = j := by
  have := showNat_inj (List.append_cancel_left h)
  omega

theorem enumPick_none {used : List Str} {f cnt : Nat} {v : Str} (h : enumPick used f cnt v = none) :
    ∀ j, j + 1 < f → variantCand cnt j ∈ used := by
  induction f generalizing cnt v with
  | zero => intro j hj; omega
  | succ f ih =>
    simp only [enumPick] at h
    split at h
    · have ih := ih h
      intro j hj
      cases j with
      | zero =>
        -- the next round tries candidate 0
        cases f with
        | zero => omega
        | succ f =>
          simp only [enumPick] at h
          split at h
          · next h0 =>
            rcases h0 with h0 | h0
            · simp at h0
            · exact h0
          · cases h
      | succ j =>
        have := ih j (by omega)
        unfold variantCand at this ⊢
        rw [show cnt + 1 + (j + 1) = cnt + 1 + 1 + j by omega]
        exact this
    · cases h

theorem nodup_map_of_inj {α β : Type} {f : α → β} (hf : ∀ a b, f a = f b → a = b) {l : List α} (h : l.Nodup) :
    (l.map f).Nodup := by
  induction l with
  | nil => simp
  | cons a l ih =>
    simp only [List.nodup_cons] at h
    simp only [List.map_cons, List.nodup_cons, List.mem_map, not_exists, not_and]
    exact ⟨fun b hb he => h.1 (hf _ _ he ▸ hb), ih h.2⟩

theorem nodup_length_le {α : Type} [DecidableEq α] {l m : List α} (hl : l.Nodup) (h : ∀ a ∈ l, a ∈ m) :
    l.length ≤ m.length := by
  induction l generalizing m with
  | nil => simp
  | cons a l ih =>
    simp only [List.nodup_cons] at hl
    have ha := h a (by simp)
    have := ih (m := m.erase a) hl.2 (fun b hb => by
      have hne : b ≠ a := fun he => hl.1 (he ▸ hb)
      exact (List.mem_erase_of_ne hne).2 (h b (by simp [hb])))
    rw [List.length_erase_of_mem ha] at this
    have : 0 < m.length := List.length_pos_of_mem ha
    simp only [List.length_cons]
    omega

/-- With more fuel than names in use, a free name is found. -/
theorem enumPick_isSome (used : List Str) (cnt : Nat) (v : Str) :
    (enumPick used (used.length + 2) cnt v).isSome = true := by
  cases h : enumPick used (used.length + 2) cnt v with
  | some _ => rfl
  | none =>
    exfalso
    have hall := enumPick_none h
    have := nodup_length_le (l := (List.range (used.length + 1)).map (variantCand cnt)) (m := used)
      (nodup_map_of_inj (fun _ _ => variantCand_inj) List.nodup_range) (by
        intro a ha
        obtain ⟨j, hj, rfl⟩ := List.mem_map.1 ha
        exact hall j (by have := List.mem_range.1 hj; omega))
    simp at this
    omega

theorem enumPick_fresh {used : List Str} {f cnt cnt' : Nat} {v v' : Str} (h : enumPick used f cnt v = some (v', cnt')) :
    v' ≠ [] ∧ v' ∉ used := by
  induction f generalizing cnt v with
  | zero => cases h
  | succ f ih =>
    simp only [enumPick] at h
    split at h
    · exact ih h
    · next hn =>
      cases h
      exact ⟨fun h => hn (.inl h), fun h => hn (.inr h)⟩

/-! ## The map -/

theorem ainsert_fresh {κ ν : Type} [DecidableEq κ] {m : List (κ × ν)} {k : κ} {v : ν} (h : k ∉ m.map Prod.fst) :
    ainsert m k v = m ++ [(k, v)] := by
  induction m with
  | nil => rfl
  | cons p m ih =>
    obtain ⟨k', v'⟩ := p
    simp only [List.map_cons, List.mem_cons, not_or] at h
    simp only [ainsert, if_neg (Ne.symm h.1), ih h.2, List.cons_append]

theorem escapeEnumFrom_ok (m : List (Str × Str)) (hm : (m.map Prod.fst).Nodup) (hne : [] ∉ m.map Prod.fst) (cnt : Nat)
    (ns : List Name) : ∃ m', escapeEnumFrom x m cnt ns = .ok m' ∧ (m'.map Prod.fst).Nodup ∧ [] ∉ m'.map Prod.fst ∧
      m'.map Prod.snd = m.map Prod.snd ++ ns.map Name.name := by
  induction ns generalizing m cnt with
  | nil => exact ⟨m, rfl, hm, hne, by simp⟩
  | cons n ns ih =>
    obtain ⟨⟨v, c⟩, hp⟩ := Option.isSome_iff_exists.1 (enumPick_isSome (m.map Prod.fst) cnt (enumBase x n.name))
    obtain ⟨hv, hfresh⟩ := enumPick_fresh hp
    rw [List.length_map] at hp
    obtain ⟨m', h1, h2, h3, h4⟩ := ih (ainsert m v n.name) (nodup_keys_ainsert hm _ _) (by
      rw [keys_ainsert, if_neg hfresh]
      simp only [List.mem_append, List.mem_singleton, not_or]
      exact ⟨hne, fun h => hv h.symm⟩) c
    refine ⟨m', ?_, h2, h3, ?_⟩
    · simp only [escapeEnumFrom, hp, h1]
    · rw [h4, ainsert_fresh hfresh]
      simp

/-- **C25**, variants: for every list of enumeration values the variant names are computed without running forever,
there is one variant for each value, in order, and the names are distinct and not empty. -/
theorem C25_variants (ns : List Name) : ∃ tab, escapeEnumNames x ns = .ok tab ∧ tab.map Prod.snd = ns.map Name.name ∧
    (tab.map Prod.fst).Nodup ∧ [] ∉ tab.map Prod.fst := by
  obtain ⟨tab, h1, h2, h3, h4⟩ := escapeEnumFrom_ok (x := x) [] (by simp) (by simp) 0 ns
  exact ⟨tab, h1, by simpa using h4, h2, h3⟩

/-! ## What the variants are called -/

/-- Specification of the name that an enumeration value suggests: the letters and digits of the value, with `-` read
as `_`, in PascalCase; `V` is put in front of a name that does not begin with a letter. No name when nothing is left. -/
inductive Suggests (x : Ext) (s : Str) : Str → Prop where
  | letter {c : Char} {r : Str} : x.pascal ((s.map (fun c => if c = '-' then '_' else c)).filter
      (fun c => c = '_' || x.isAlphanumeric c)) = c :: r → x.isAlphabetic c = true → Suggests x s (c :: r)
  | other {c : Char} {r : Str} : x.pascal ((s.map (fun c => if c = '-' then '_' else c)).filter
      (fun c => c = '_' || x.isAlphanumeric c)) = c :: r → x.isAlphabetic c = false → Suggests x s ('V' :: c :: r)

theorem filterMap_enumFilter (s : Str) : s.filterMap (enumFilter x) =
    (s.map (fun c => if c = '-' then '_' else c)).filter (fun c => c = '_' || x.isAlphanumeric c) := by
  induction s with
  | nil => rfl
  | cons c s ih =>
    by_cases h1 : c = '-'
    · subst h1
      simp [enumFilter, ih]
    · by_cases h2 : c = '_'
      · subst h2
        simp [enumFilter, ih]
      · by_cases h3 : x.isAlphanumeric c = true
        · simp [enumFilter, h1, h2, h3, ih]
        · simp [enumFilter, h1, h2, h3, ih]

theorem enumBase_suggests (s v : Str) : Suggests x s v ↔ v = enumBase x s ∧ v ≠ [] := by
  unfold enumBase
  rw [filterMap_enumFilter]
  constructor
  · rintro (⟨h, ha⟩ | ⟨h, ha⟩) <;> simp [h, ha]
  · cases hp : x.pascal ((s.map (fun c => if c = '-' then '_' else c)).filter
      (fun c => c = '_' || x.isAlphanumeric c)) with
    | nil => rintro ⟨rfl, h⟩; exact absurd rfl h
    | cons c r =>
      rintro ⟨rfl, _⟩
      cases ha : x.isAlphabetic c with
      | true => simp only [ha, if_true]; exact .letter hp ha
      | false => simp only [ha, Bool.false_eq_true, if_false]; exact .other hp ha

theorem enumPick_named {used : List Str} {f cnt cnt' : Nat} {v v' : Str} (h : enumPick used f cnt v = some (v', cnt')) :
    v' = v ∧ v ≠ [] ∧ v ∉ used ∨ (v = [] ∨ v ∈ used) ∧ ∃ k, v' = c!"Variant" ++ showNat k := by
  induction f generalizing cnt v with
  | zero => cases h
  | succ f ih =>
    simp only [enumPick] at h
    split at h
    · next hu =>
      rcases ih h with ⟨rfl, _, _⟩ | ⟨_, hk⟩
      · exact .inr ⟨hu, _, rfl⟩
      · exact .inr ⟨hu, hk⟩
    · next hn =>
      cases h
      exact .inl ⟨rfl, fun h => hn (.inl h), fun h => hn (.inr h)⟩

/-- Specification: the variant in each place has the name suggested by its value, unless the value suggests none or
an earlier variant has that name; then it is called `Variant` and a number. -/
def VariantsNamed (x : Ext) (tab : List (Str × Str)) : Prop :=
  ∀ pre v s post, tab = pre ++ (v, s) :: post →
    (Suggests x s v ∧ v ∉ pre.map Prod.fst) ∨
    ((∀ v', Suggests x s v' → v' ∈ pre.map Prod.fst) ∧ ∃ k, v = c!"Variant" ++ showNat k)

theorem VariantsNamed.snoc {m : List (Str × Str)} {v s : Str} (h : VariantsNamed x m)
    (hv : (Suggests x s v ∧ v ∉ m.map Prod.fst) ∨
      ((∀ v', Suggests x s v' → v' ∈ m.map Prod.fst) ∧ ∃ k, v = c!"Variant" ++ showNat k)) :
    VariantsNamed x (m ++ [(v, s)]) := by
  intro pre v' s' post he
  rcases List.eq_nil_or_concat post with rfl | ⟨q, a, rfl⟩
  · have he : m ++ [(v, s)] = pre ++ [(v', s')] := he
    obtain ⟨rfl, h2⟩ := List.append_inj' he rfl
    cases h2
    exact hv
  · have he : m ++ [(v, s)] = (pre ++ (v', s') :: q) ++ [a] := by simpa using he
    obtain ⟨rfl, _⟩ := List.append_inj' he rfl
    exact h pre v' s' q rfl

theorem escapeEnumFrom_named {m m' : List (Str × Str)} (hm : VariantsNamed x m) {cnt : Nat} {ns : List Name}
    (h : escapeEnumFrom x m cnt ns = .ok m') : VariantsNamed x m' := by
  induction ns generalizing m cnt with
  | nil => cases h; exact hm
  | cons n ns ih =>
    simp only [escapeEnumFrom] at h
    split at h
    · next v c hp =>
      obtain ⟨_, hfresh⟩ := enumPick_fresh hp
      refine ih ?_ h
      rw [ainsert_fresh hfresh]
      refine hm.snoc ?_
      rcases enumPick_named hp with ⟨rfl, hne, hu⟩ | ⟨hu, hk⟩
      · exact .inl ⟨(enumBase_suggests _ _).2 ⟨rfl, hne⟩, hu⟩
      · refine .inr ⟨?_, hk⟩
        intro v' hv'
        obtain ⟨rfl, hne⟩ := (enumBase_suggests _ _).1 hv'
        exact hu.resolve_left hne
    · cases h

/-- **C25**, names: every variant has the name its value suggests, with `V` in front when that name does not begin
with a letter; a variant whose value suggests no name, or only the name of an earlier variant, is called `Variant`
and a number. So every variant name begins with a letter, as an identifier must. -/
theorem C25_names {ns : List Name} {tab : List (Str × Str)} (h : escapeEnumNames x ns = .ok tab) :
    VariantsNamed x tab ∧ ∀ v s, (v, s) ∈ tab → ∃ c r, v = c :: r ∧ (c = 'V' ∨ x.isAlphabetic c = true) := by
  have hw : VariantsNamed x tab := escapeEnumFrom_named (m := []) (by
    intro pre v s post he
    simp at he) h
  refine ⟨hw, ?_⟩
  intro v s hv
  obtain ⟨pre, post, rfl⟩ := List.append_of_mem hv
  rcases hw pre v s post rfl with ⟨hs, _⟩ | ⟨_, k, rfl⟩
  · cases hs with
    | letter _ ha => exact ⟨_, _, rfl, .inr ha⟩
    | other _ _ => exact ⟨_, _, rfl, .inl rfl⟩
  · exact ⟨_, _, rfl, .inl rfl⟩

/-- `as_str` of a variant (root.rs:121-127). -/
def asStr (vs : List (Str × Str)) (v : Str) : Option Str := alookup vs v

theorem find_unique {vs : List (Str × Str)} (hn : (vs.map Prod.snd).Nodup) {v s : Str} (h : (v, s) ∈ vs) :
    vs.find? (fun p => decide (p.2 = s)) = some (v, s) := by
  induction vs with
  | nil => simp at h
  | cons p vs ih =>
    simp only [List.map_cons, List.nodup_cons] at hn
    rw [List.find?_cons]
    rcases List.mem_cons.1 h with rfl | h
    · simp
    · have : p.2 ≠ s := by
        rintro rfl
        exact hn.1 (List.mem_map.2 ⟨_, h, rfl⟩)
      simp only [this, decide_false]
      exact ih hn.2 h

/-- **C25**, conversions: the generated `from_str` and `as_str` of an enumeration with distinct values are inverse to each
other, whatever the order in which the arms are generated (`vs` is any permutation of the variant map, whose
iteration order is unspecified), and every other string is rejected with `InvalidVariant`.

Missing: repeated enumeration values, for which the claim is false (`C25_duplicates_false`). -/
theorem C25_inverse_partial (ns : List Name) (hd : (ns.map Name.name).Nodup) {tab vs : List (Str × Str)}
    (ht : escapeEnumNames x ns = .ok tab) (hp : vs.Perm tab) :
    (∀ v s, asStr vs v = some s → enumFromStr vs s = .ok (.enumv v)) ∧
    (∀ v s, enumFromStr vs s = .ok v → ∃ i, v = .enumv i ∧ asStr vs i = some s) ∧
    (∀ s, s ∈ ns.map Name.name ↔ ∃ i, asStr vs i = some s) ∧
    (∀ s, s ∉ ns.map Name.name → enumFromStr vs s = .err (.invalidVariant s)) := by
  obtain ⟨tab', ht', hs, hk, _⟩ := C25_variants (x := x) ns
  rw [ht] at ht'; cases ht'
  have hk' : (vs.map Prod.fst).Nodup := (hp.map Prod.fst).nodup_iff.2 hk
  have hs' : (vs.map Prod.snd).Perm (ns.map Name.name) := hs ▸ hp.map Prod.snd
  have hv' : (vs.map Prod.snd).Nodup := hs'.nodup_iff.2 hd
  refine ⟨?_, ?_, ?_, ?_⟩
  · intro v s h
    unfold enumFromStr
    rw [find_unique hv' (alookup_mem h)]
  · intro v s h
    unfold enumFromStr at h
    split at h
    · next p hp =>
      have hp1 : p.2 = s := by simpa using List.find?_some hp
      have hp2 := List.mem_of_find?_eq_some hp
      exact ⟨p.1, (Res.ok.inj h).symm, alookup_of_mem hk' (hp1 ▸ hp2)⟩
    · cases h
  · intro s
    rw [← hs'.mem_iff]
    constructor
    · intro h
      obtain ⟨p, hp, rfl⟩ := List.mem_map.1 h
      exact ⟨p.1, alookup_of_mem hk' hp⟩
    · rintro ⟨i, hi⟩
      exact List.mem_map.2 ⟨_, alookup_mem hi, rfl⟩
  · intro s h
    unfold enumFromStr
    rw [← hs'.mem_iff] at h
    split
    · next p hp =>
      have hp1 : p.2 = s := by simpa using List.find?_some hp
      exact absurd (List.mem_map.2 ⟨p, List.mem_of_find?_eq_some hp, hp1⟩) h
    · rfl

/-- The type generated for an enumeration carries that map. -/
theorem C25_generated {S : SchemaContext} {P : List TypeDef} (G : Generated x S P) {n : Name} {ns : List Name}
    (hn : S.get n = some (.enum ns)) : ∃ t tab, t ∈ P ∧ typeIdent x n = .ok t.ident ∧ escapeEnumNames x ns = .ok tab ∧
      t.decl = .enum tab := by
  obtain ⟨t, ht, _, hg⟩ := G.find hn
  obtain ⟨tab, htab, hd, _⟩ := rootDecl_enum hg.decl
  exact ⟨t, tab, ht, hg.ident, htab, hd⟩

/-- Values that collapse to the same name, to nothing, and that start with a digit. -/
def awkward : List Name := [⟨c!"a-b", .none⟩, ⟨c!"a_b", .none⟩, ⟨c!"+", .none⟩, ⟨c!"Variant1", .none⟩, ⟨c!"1", .none⟩]

example : escapeEnumNames sampleExt awkward =
    .ok [(c!"A_b", c!"a-b"), (c!"Variant1", c!"a_b"), (c!"Variant2", c!"+"), (c!"Variant3", c!"Variant1"), (c!"V1", c!"1")] := by
  decide +kernel

example : (awkward.map Name.name).Nodup := by decide +kernel

/-- The value `1` suggests `V1`, and `+` suggests nothing. -/
example : Suggests sampleExt c!"1" c!"V1" ∧ ∀ v, ¬ Suggests sampleExt c!"+" v := by
  refine ⟨(enumBase_suggests _ _).2 (by decide +kernel), fun v h => ?_⟩
  obtain ⟨rfl, h⟩ := (enumBase_suggests _ _).1 h
  exact absurd h (by decide +kernel)

/-- **C25** fails for repeated values: the two variants are different but have the same string, so one of them does
not survive writing and reading; which one depends on the order of the map. -/
theorem C25_duplicates_false : ∃ ns tab vs vs', escapeEnumNames sampleExt ns = .ok tab ∧ vs.Perm tab ∧ vs'.Perm tab ∧
    ∃ v s, asStr vs v = some s ∧ enumFromStr vs s ≠ .ok (.enumv v) ∧ enumFromStr vs s ≠ enumFromStr vs' s := by
  refine ⟨[⟨c!"a", .none⟩, ⟨c!"a", .none⟩], [(c!"A", c!"a"), (c!"Variant1", c!"a")],
    [(c!"A", c!"a"), (c!"Variant1", c!"a")], [(c!"Variant1", c!"a"), (c!"A", c!"a")], by decide +kernel, .refl _,
    .swap _ _ _, c!"Variant1", c!"a", by decide +kernel, ?_, ?_⟩
  · intro h
    exact absurd (Val.enumv.inj (Res.ok.inj h)) (by decide)
  · intro h
    exact absurd (Val.enumv.inj (Res.ok.inj h)) (by decide)

end Xsd
