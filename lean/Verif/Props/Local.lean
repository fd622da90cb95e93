import Verif.Lemmas.Local
import Verif.Props.RoundTrip
import Verif.Props.Balanced
/-!
# Definitions that are not referred to do not matter (C64)

`SameOn S S' A` (`Verif/Lemmas/Local.lean`): the two schemas declare the same namespaces and have the same definitions for the names in
`A`, and these definitions refer to names in `A` only.
-/
namespace Xsd

section
variable {x : Ext} {S S' : SchemaContext} {A : Name → Prop} {P P' : List TypeDef}

/-! ## The code -/

/-- **C64**, code: what is generated for a name depends on the definitions it refers to, directly or indirectly, and on the
namespaces only. This includes failures, panics and divergence. -/
theorem C64_code (x : Ext) (h : SameOn S S' A) {n : Name} (hn : A n) : generateElement x S n = generateElement x S' n :=
  generateElement_local h hn

/-- No generated type is called by a word that is escaped. -/
theorem escapeIdent_not_word {s i : Str} (h : escapeIdent x s = .ok i) : i ∉ escapedWords := by
  have hraw : ∀ t : Str, c!"r#" ++ t ∉ escapedWords := by
    intro t ht
    have key : ∀ w ∈ escapedWords, (match w with | 'r' :: '#' :: _ => false | _ => true) = true := by decide
    have := key _ ht
    cases this
  unfold escapeIdent at h
  split at h
  · split at h
    · cases h
    · cases h; exact hraw s
  · next hc =>
    unfold formatIdent at h
    split at h
    · cases h
      simpa using hc
    · cases h

theorem typeIdent_of_pascal {m b : Name} {i : Str} (hm : pascalIdent x m = .ok i) (hb : typeIdent x b = .ok i) : typeIdent x m = .ok i := by
  have hw := escapeIdent_not_word hb
  unfold pascalIdent formatIdent at hm
  split at hm
  · next hok =>
    cases hm
    unfold typeIdent escapeIdent formatIdent
    rw [if_neg (by simpa using hw), if_pos hok]
  · cases hm

/-- Every type in the module is generated from the schema, and no two types have the same identifier. -/
structure ModuleOf (x : Ext) (S : SchemaContext) (P : List TypeDef) : Prop where
  gen : ∀ t ∈ P, ∃ n, generateElement x S n = .ok t
  nodup : (P.map TypeDef.ident).Nodup

theorem Generated.moduleOf (G : Generated x S P) : ModuleOf x S P :=
  ⟨fun t ht => by
    obtain ⟨n, _, hn⟩ := (mapRes_ok G.gen).2 t ht
    exact ⟨n, hn⟩, G.nodup⟩

theorem Generated.has (G : Generated x S P) {n : Name} (hn : (S.get n).isSome = true) : ∃ t ∈ P, generateElement x S n = .ok t := by
  obtain ⟨r, hr⟩ := Option.isSome_iff_exists.1 hn
  exact (mapRes_ok G.gen).1 n (List.mem_map.2 ⟨_, alookup_mem hr, rfl⟩)

theorem ModuleOf.find (M : ModuleOf x S P) {n : Name} {i : Str} (hi : typeIdent x n = .ok i) {t : TypeDef} (ht : t ∈ P)
    (hg : generateElement x S n = .ok t) : findType P i = some t := by
  have := generateElement_ident hg
  rw [hi] at this
  cases this
  exact findType_of_mem M.nodup ht

theorem ModuleOf.find_ident (M : ModuleOf x S P) {i : Str} {t : TypeDef} (h : findType P i = some t) :
    ∃ b, typeIdent x b = .ok i ∧ generateElement x S b = .ok t := by
  have hm := List.mem_of_find?_eq_some h
  have hi := List.find?_some h
  obtain ⟨b, hb⟩ := M.gen t hm
  exact ⟨b, by rw [generateElement_ident hb, of_decide_eq_true hi], hb⟩

/-- Two modules that contain the code of the names in `A` agree on it. -/
theorem modules_agree (h : SameOn S S' A) (M : ModuleOf x S P) (M' : ModuleOf x S' P')
    (hP : ∀ n, A n → ∃ t ∈ P, generateElement x S n = .ok t) (hP' : ∀ n, A n → ∃ t ∈ P', generateElement x S' n = .ok t) :
    AgreeOn P P' (IdentOf x A) := by
  have key : ∀ m i, A m → typeIdent x m = .ok i → ∃ t, findType P i = some t ∧ findType P' i = some t ∧ generateElement x S m = .ok t := by
    intro m i hm hi
    obtain ⟨t, ht, hg⟩ := hP m hm
    obtain ⟨t', ht', hg'⟩ := hP' m hm
    have he := C64_code x h hm
    rw [hg, hg'] at he
    cases he
    exact ⟨t, M.find hi ht hg, M'.find hi ht' hg', hg⟩
  have pas : ∀ m i, A m → pascalIdent x m = .ok i → typeIdent x m = .ok i ∨ (findType P i = none ∧ findType P' i = none) := by
    intro m i hm hi
    cases hf : findType P i with
    | some t =>
      obtain ⟨b, hb, _⟩ := M.find_ident hf
      exact .inl (typeIdent_of_pascal hi hb)
    | none =>
      cases hf' : findType P' i with
      | some t =>
        obtain ⟨b, hb, _⟩ := M'.find_ident hf'
        exact .inl (typeIdent_of_pascal hi hb)
      | none => exact .inr ⟨rfl, rfl⟩
  refine ⟨?_, ?_⟩
  · rintro i ⟨m, hm, hi | hi⟩
    · obtain ⟨t, h1, h2, _⟩ := key m i hm hi
      rw [h1, h2]
    · rcases pas m i hm hi with hi | ⟨h1, h2⟩
      · obtain ⟨t, h1, h2, _⟩ := key m i hm hi
        rw [h1, h2]
      · rw [h1, h2]
  · rintro i t ⟨m, hm, hi⟩ hf
    have hi' : typeIdent x m = .ok i := by
      rcases hi with hi | hi
      · exact hi
      · rcases pas m i hm hi with hi | ⟨h1, _⟩
        · exact hi
        · rw [h1] at hf; cases hf
    obtain ⟨t', h1, _, hg⟩ := key m i hm hi'
    rw [hf] at h1
    cases h1
    exact generate_closed h.closed hm hg

/-! ## What it does -/

/-- **C64**, reading: two modules in which the type and all it refers to are generated from the same definitions read every
document alike. -/
theorem C64_reads (h : SameOn S S' A) (G : Generated x S P) (G' : Generated x S' P') (hdef : ∀ n, A n → (S.get n).isSome = true)
    {n : Name} (hn : A n) {i : Str} (hi : typeIdent x n = .ok i) (d : Doc) (r : Res DErr Val) : FromXml x P i d r ↔ FromXml x P' i d r := by
  have ha := modules_agree h G.moduleOf G'.moduleOf (fun n hn => G.has (hdef n hn)) (fun n hn => G'.has (h.get n hn ▸ hdef n hn))
  unfold FromXml
  simp only [fromXml_local ha _ i ⟨n, hn, .inl hi⟩]

/-- **C64**, writing: they write every value alike. -/
theorem C64_writes (h : SameOn S S' A) (G : Generated x S P) (G' : Generated x S' P') (hdef : ∀ n, A n → (S.get n).isSome = true)
    {n : Name} (hn : A n) {i : Str} (hi : typeIdent x n = .ok i) (v : Val) (r : Res Unit (List Ev)) : ToXml x P i v r ↔ ToXml x P' i v r := by
  have ha := modules_agree h G.moduleOf G'.moduleOf (fun n hn => G.has (hdef n hn)) (fun n hn => G'.has (h.get n hn ▸ hdef n hn))
  unfold ToXml
  simp only [toXml_local ha _ i ⟨n, hn, .inl hi⟩]

/-- **C64**, `generate_element_and_dependencies`: if the code generated for a name and its dependencies contains all types it refers
to, it does the same as in the module of the whole schema. -/
theorem C64_dependencies {T : PSchema} {n : Name} {already : List Name} {ds Q : List TypeDef}
    (hg : generateWithDeps x T n [] = .ok (ds, already)) (hself : ∀ t ∈ ds, ∀ j ∈ t.refs, j ∈ ds.map TypeDef.ident)
    (hQ : generateAll x T.context = .ok Q) (hnd : (Q.map TypeDef.ident).Nodup) {i : Str} (hi : i ∈ ds.map TypeDef.ident) :
    (∀ d r, FromXml x ds i d r ↔ FromXml x Q i d r) ∧ (∀ v r, ToXml x ds i v r ↔ ToXml x Q i v r) := by
  obtain ⟨names, hnn, hn, hmap, _⟩ := C46 x T n [] already ds hg
  have hinQ : ∀ t ∈ ds, t ∈ Q := by
    intro t ht
    have : Res.ok t ∈ names.map (generateElement x T.context) := by rw [hmap]; exact List.mem_map.2 ⟨t, ht, rfl⟩
    obtain ⟨a, _, ha⟩ := List.mem_map.1 this
    cases hr : T.context.get a with
    | none => unfold generateElement at ha; rw [hr] at ha; cases ha
    | some r =>
      obtain ⟨t', ht', he⟩ := (mapRes_ok hQ).1 a (List.mem_map.2 ⟨_, alookup_mem hr, rfl⟩)
      rw [ha] at he
      cases he
      exact ht'
  have hfind : ∀ j ∈ ds.map TypeDef.ident, ∃ t ∈ ds, findType ds j = some t ∧ findType Q j = some t := by
    intro j hj
    cases hf : findType ds j with
    | none =>
      obtain ⟨t, ht, rfl⟩ := List.mem_map.1 hj
      exact absurd (decide_eq_true rfl) (List.find?_eq_none.1 hf t ht)
    | some t =>
      have ht := List.mem_of_find?_eq_some hf
      have hj : t.ident = j := of_decide_eq_true (List.find?_some (p := fun t : TypeDef => decide (t.ident = j)) hf)
      subst hj
      exact ⟨t, ht, rfl, findType_of_mem hnd (hinQ t ht)⟩
  have ha : AgreeOn ds Q (· ∈ ds.map TypeDef.ident) := by
    refine ⟨fun j hj => ?_, fun j t hj hf => ?_⟩
    · obtain ⟨t, _, h1, h2⟩ := hfind j hj
      rw [h1, h2]
    · exact hself t (List.mem_of_find?_eq_some hf)
  unfold FromXml ToXml
  simp only [fromXml_local ha _ i hi, toXml_local ha _ i hi]
  exact ⟨fun _ _ => trivial, fun _ _ => trivial⟩

/-- **C64**, `generate_element_and_dependencies`, from the recorded dependencies (as in `C47_partial`). -/
theorem C64_dependencies_parsed {F : Files} {k : Nat} {path : Str} {T : PSchema} (hT : parseFile x F k path = .ok T) {n : Name} (hu : Unshared T n)
    {already : List Name} {ds Q : List TypeDef} (hg : generateWithDeps x T n [] = .ok (ds, already))
    (hQ : generateAll x T.context = .ok Q) (hnd : (Q.map TypeDef.ident).Nodup) {m : Name} (hm : Needs T.deps n m) {i : Str}
    (hi : typeIdent x m = .ok i) :
    (∀ d r, FromXml x ds i d r ↔ FromXml x Q i d r) ∧ (∀ v r, ToXml x ds i v r ↔ ToXml x Q i v r) := by
  obtain ⟨names, hnn, hn, hmap, _⟩ := C46 x T n [] already ds hg
  have hmem : ∀ a, Needs T.deps n a → ∃ t ∈ ds, generateElement x T.context a = .ok t := by
    intro a ha
    have : generateElement x T.context a ∈ names.map (generateElement x T.context) := List.mem_map.2 ⟨a, (hn a).2 ⟨ha, by simp⟩, rfl⟩
    rw [hmap] at this
    obtain ⟨t, ht, he⟩ := List.mem_map.1 this
    exact ⟨t, ht, he.symm⟩
  have hgen : ∀ t ∈ ds, ∃ a, a ∈ names ∧ generateElement x T.context a = .ok t := by
    intro t ht
    have : Res.ok t ∈ names.map (generateElement x T.context) := by rw [hmap]; exact List.mem_map.2 ⟨t, ht, rfl⟩
    obtain ⟨a, ha, he⟩ := List.mem_map.1 this
    exact ⟨a, ha, he⟩
  have hinQ : ∀ a t, generateElement x T.context a = .ok t → t ∈ Q := by
    intro a t ht
    have hs : (T.context.get a).isSome = true := by
      unfold generateElement at ht
      cases hr : T.context.get a with
      | none => rw [hr] at ht; cases ht
      | some r => rfl
    obtain ⟨r, hr⟩ := Option.isSome_iff_exists.1 hs
    obtain ⟨t', ht', he⟩ := (mapRes_ok hQ).1 a (List.mem_map.2 ⟨_, alookup_mem hr, rfl⟩)
    rw [ht] at he
    cases he
    exact ht'
  have MQ : ModuleOf x T.context Q := ⟨fun t ht => by obtain ⟨a, _, he⟩ := (mapRes_ok hQ).2 t ht; exact ⟨a, he⟩, hnd⟩
  have hsame : SameOn T.context T.context (Needs T.deps n) := ⟨rfl, rfl, rfl, fun _ _ => rfl, needs_closed hT hu⟩
  -- a type found among the dependencies is found in the whole module
  have hfind : ∀ j t, findType ds j = some t → findType Q j = some t := by
    intro j t hf
    obtain ⟨a, _, ha⟩ := hgen t (List.mem_of_find?_eq_some hf)
    have hj : t.ident = j := of_decide_eq_true (List.find?_some (p := fun t : TypeDef => decide (t.ident = j)) hf)
    subst hj
    exact findType_of_mem hnd (hinQ a t ha)
  have hself := modules_agree hsame MQ MQ (fun a ha => by obtain ⟨t, _, he⟩ := hmem a ha; exact ⟨t, hinQ a t he, he⟩)
    (fun a ha => by obtain ⟨t, _, he⟩ := hmem a ha; exact ⟨t, hinQ a t he, he⟩)
  have ha : AgreeOn Q ds (IdentOf x (Needs T.deps n)) := by
    refine ⟨fun j hj => ?_, hself.closed⟩
    cases hf : findType ds j with
    | some t => rw [hfind j t hf]
    | none =>
      cases hf' : findType Q j with
      | none => rfl
      | some t =>
        obtain ⟨a, hj, hb⟩ := hj
        obtain ⟨b, hbi, _⟩ := MQ.find_ident hf'
        have hai : typeIdent x a = .ok j := by
          rcases hb with hb | hb
          · exact hb
          · exact typeIdent_of_pascal hb hbi
        obtain ⟨t', ht', he⟩ := hmem a hj
        have := generateElement_ident he
        rw [hai] at this
        cases this
        have := List.find?_eq_none.1 hf t' ht'
        exact absurd (decide_eq_true rfl) this
  have hI : IdentOf x (Needs T.deps n) i := ⟨m, hm, .inl hi⟩
  unfold FromXml ToXml
  simp only [fromXml_local ha _ i hI, toXml_local ha _ i hI]
  exact ⟨fun _ _ => trivial, fun _ _ => trivial⟩

/-! ## Validity is local as well -/

theorem SameOn.symm (h : SameOn S S' A) : SameOn S' S A :=
  ⟨h.target.symm, h.qualified.symm, h.namespaces.symm, fun n hn => (h.get n hn).symm,
    fun n r hn hr => h.closed n r hn (by rw [h.get n hn]; exact hr)⟩

theorem means_local (h : SameOn S S' A) {c c' : LeafContent} (hm : Means S c c') (hc : ∀ m ∈ c.refs, A m) :
    Means S' c c' ∧ ∀ m ∈ c'.refs, A m := by
  induction hm with
  | literal t => exact ⟨.literal t, hc⟩
  | fixed s => exact ⟨.fixed s, hc⟩
  | @alias n d c hd _ ih =>
    have hn := hc n (.head _)
    obtain ⟨h1, h2⟩ := ih (fun m hm => h.closed n _ hn hd m hm)
    exact ⟨.alias (h.get n hn ▸ hd) h1, h2⟩
  | @name n hd =>
    have hn := hc n (.head _)
    exact ⟨.name (fun d hd' => hd d (by rw [h.get n hn]; exact hd')), hc⟩

theorem expanded_local (h : SameOn S S' A) (n : Name) : S.expanded n = S'.expanded n := by
  simp only [SchemaContext.expanded, SchemaContext.uriOf, h.namespaces]

variable {m : Mode} {T T' : Name → Val → Elem → List Elem → Prop}

theorem cat_local (hm : m.strict = true) {u u' : Prop} {a b c : List Elem} (h : Cat u m a b c) : Cat u' m a b c := by
  obtain ⟨s, ne⟩ := m
  cases hm
  exact h

theorem rVal_local (h : SameOn S S' A) (hT : ∀ n, A n → ∀ v e es, T n v e es → T' n v e es) {c : LeafContent}
    (hc : ∀ m ∈ c.refs, A m) {v : Val} {e : Elem} {es : List Elem} (hr : RVal x m S T c v e es) : RVal x m S' T' c v e es := by
  obtain ⟨c', hm, hv⟩ := hr
  obtain ⟨h1, h2⟩ := means_local h hm hc
  refine ⟨c', h1, ?_⟩
  cases c' with
  | literal t => exact hv
  | fixed s => exact hv
  | named n => exact hT n (h2 n (.head _)) _ _ _ hv

theorem rItem_local (hst : m.strict = true) (h : SameOn S S' A) (hT : ∀ n, A n → ∀ v e es, T n v e es → T' n v e es) {l : Leaf}
    (hc : ∀ m ∈ l.definition.content.refs, A m) {v : Val} {e : Elem} {es : List Elem} (hr : RItem x m S T l v e es) :
    RItem x m S' T' l v e es := by
  unfold RItem at hr ⊢
  split at hr
  · next hh => rw [if_pos hh]; exact rVal_local h hT hc hr
  · next hh =>
    rw [if_neg hh]
    obtain ⟨ch, he, hn, es', junk, hcat, hj, hv⟩ := hr
    exact ⟨ch, he, expanded_local h _ ▸ hn, es', junk, cat_local hst hcat, hj, rVal_local h hT hc hv⟩

theorem rMany_local (hst : m.strict = true) (h : SameOn S S' A) (hT : ∀ n, A n → ∀ v e es, T n v e es → T' n v e es) {l : Leaf}
    (hc : ∀ m ∈ l.definition.content.refs, A m) : ∀ {vs : List Val} {e : Elem} {es : List Elem}, RMany x m S T l vs e es →
      RMany x m S' T' l vs e es
  | [], _, _, hr => hr
  | _ :: _, _, _, hr => by
    obtain ⟨es1, es2, h1, h2, h3, h4⟩ := hr
    exact ⟨es1, es2, rItem_local hst h hT hc h1, h2, rMany_local hst h hT hc h3, cat_local hst h4⟩

theorem rOcc_local (hst : m.strict = true) (h : SameOn S S' A) (hT : ∀ n, A n → ∀ v e es, T n v e es → T' n v e es) {l : Leaf}
    (hc : ∀ m ∈ l.definition.content.refs, A m) {v : Val} {e : Elem} {es : List Elem} (hr : ROcc x m S T l v e es) :
    ROcc x m S' T' l v e es := by
  unfold ROcc at hr ⊢
  split at hr
  · next hh =>
    rw [if_pos hh]
    obtain ⟨vs, h1, h2⟩ := hr
    exact ⟨vs, rMany_local hst h hT hc h1, h2⟩
  · next hh =>
    rw [if_neg hh]
    split at hr
    · next h0 =>
      rw [if_pos h0]
      rcases hr with hr | ⟨w, h1, h2, h3⟩
      · exact .inl hr
      · exact .inr ⟨w, h1, rItem_local hst h hT hc h2, h3⟩
    · next h0 => rw [if_neg h0]; exact rItem_local hst h hT hc hr

theorem rLeaves_local (hst : m.strict = true) (h : SameOn S S' A) (hT : ∀ n, A n → ∀ v e es, T n v e es → T' n v e es) :
    ∀ {ls : List Leaf}, (∀ l ∈ ls, ∀ m ∈ l.definition.content.refs, A m) → ∀ {fs : List (Str × Val)} {e : Elem} {es : List Elem},
      RLeaves x m S T ls fs e es → RLeaves x m S' T' ls fs e es
  | [], _, _, _, _, hr => hr
  | l :: ls, hc, _, _, _, hr => by
    obtain ⟨f, v, fs', es1, es2, h1, h2, h3, h4, h5⟩ := hr
    exact ⟨f, v, fs', es1, es2, h1, h2, rOcc_local hst h hT (hc l (.head _)) h3,
      rLeaves_local hst h hT (fun l' hl' => hc l' (.tail _ hl')) h4, cat_local hst h5⟩

theorem rStr_local (h : SameOn S S' A) {c : LeafContent} (hc : ∀ m ∈ c.refs, A m) {s : Str} {v : Val} (hr : RStr x m S c s v) :
    RStr x m S' c s v := by
  cases c with
  | literal t => exact hr
  | fixed f => exact hr
  | named n =>
    obtain ⟨c', hm, hv⟩ := hr
    obtain ⟨h1, h2⟩ := means_local h hm hc
    refine ⟨c', h1, ?_⟩
    cases c' with
    | literal t => exact hv
    | fixed s => exact hv
    | named n' =>
      obtain ⟨names, tab, vn, h3, h4⟩ := hv
      exact ⟨names, tab, vn, h.get n' (h2 n' (.head _)) ▸ h3, h4⟩

theorem rAttrs_local (h : SameOn S S' A) : ∀ {as : List Attribute}, (∀ a ∈ as, ∀ m ∈ a.content.refs, A m) →
    ∀ {fs : List (Str × Val)} {e : Elem}, RAttrs x m S as fs e → RAttrs x m S' as fs e
  | [], _, _, _, hr => hr
  | a :: as, hc, _, _, hr => by
    obtain ⟨f, v, fs', h1, h2, h3, h4⟩ := hr
    refine ⟨f, v, fs', h1, h2, rAttrs_local h (fun b hb => hc b (.tail _ hb)) h3, ?_⟩
    split at h4
    · rw [if_pos (by assumption)]
      rcases h4 with h4 | ⟨s, w, h5, h6, h7⟩
      · exact .inl h4
      · exact .inr ⟨s, w, h5, h6, rStr_local h (hc a (.head _)) h7⟩
    · rw [if_neg (by assumption)]
      obtain ⟨s, h5, h7⟩ := h4
      exact ⟨s, h5, rStr_local h (hc a (.head _)) h7⟩

theorem tRepr_local (hst : m.strict = true) (h : SameOn S S' A) (k : Nat) : ∀ (n : Name), A n → ∀ (v : Val) (e : Elem) (es : List Elem),
    TRepr x m S k n v e es → TRepr x m S' k n v e es := by
  induction k with
  | zero => exact fun _ _ _ _ _ hr => hr
  | succ k ih =>
    rintro n hn v e es ⟨r, hr, hv⟩
    have hA := h.closed n r hn hr
    refine ⟨r, h.get n hn ▸ hr, ?_⟩
    cases r with
    | leaf d =>
      obtain ⟨w, h1, h2⟩ := hv
      exact ⟨w, h1, rVal_local h ih hA h2⟩
    | enum ns => exact hv
    | element d =>
      obtain ⟨fc, fa, h1, h2, h3⟩ := hv
      refine ⟨fc, fa, h1, ?_, rAttrs_local h (fun a ha q hq => hA q (List.mem_append_left _ (List.mem_flatMap.2 ⟨a, ha, hq⟩))) h3⟩
      have hco : ∀ c, d.content = some c → ∀ q ∈ c.refs, A q := fun c hc q hq => hA q (List.mem_append_right _ (by rw [hc]; exact hq))
      cases hc : d.content with
      | none => rw [hc] at h2; exact h2
      | some c =>
        rw [hc] at h2
        cases c with
        | leaf n' d' =>
          obtain ⟨f, w, h4, h5, h6⟩ := h2
          exact ⟨f, w, h4, h5, rVal_local h ih (hco _ hc) h6⟩
        | leaves ls =>
          obtain ⟨es', h2, har⟩ := h2
          exact ⟨es', rLeaves_local hst h ih (fun l hl q hq => hco _ hc q (List.mem_flatMap.2 ⟨l, hl, hq⟩)) h2, har⟩
    | choice vs b docs =>
      obtain ⟨l, hl, i, w, h1, h2, h3⟩ := hv
      refine ⟨l, hl, i, w, h1, h2, ?_⟩
      have hc : ∀ q ∈ l.definition.content.refs, A q := fun q hq => hA q (List.mem_flatMap.2 ⟨l, hl, hq⟩)
      unfold RVariant at h3 ⊢
      split at h3
      · next hh => rw [if_pos hh]; exact ⟨rItem_local hst h ih hc h3.1, h3.2⟩
      · next hh =>
        rw [if_neg hh]
        split at h3
        · next h0 =>
          rw [if_pos h0]
          obtain ⟨ws, h4, h5, h6⟩ := h3
          exact ⟨ws, h4, h5, rMany_local hst h ih hc h6⟩
        · next h0 => rw [if_neg h0]; exact rItem_local hst h ih hc h3

/-- **C64**, validity: which documents are valid for a type, and what they represent, depends on the definitions it refers to only. -/
theorem C64_valid (h : SameOn S S' A) (hst : m.strict = true) {n : Name} (hn : A n) (v : Val) (e : Elem) :
    DocRepr x m S n v e ↔ DocRepr x m S' n v e := by
  constructor
  · rintro ⟨hq, k, es, junk, h1, h2, h3⟩
    exact ⟨expanded_local h n ▸ hq, k, es, junk, cat_local hst h1, h2, tRepr_local hst h k n hn v e es h3⟩
  · rintro ⟨hq, k, es, junk, h1, h2, h3⟩
    exact ⟨expanded_local h.symm n ▸ hq, k, es, junk, cat_local hst h1, h2, tRepr_local hst h.symm k n hn v e es h3⟩

/-! ## Parts of a schema -/

/-- The schema without the definitions of other names. -/
def SchemaContext.only (S : SchemaContext) (L : List Name) : SchemaContext :=
  { S with elements := S.elements.filter (fun p => decide (p.1 ∈ L)) }

theorem only_get (S : SchemaContext) (L : List Name) {n : Name} (hn : n ∈ L) : (S.only L).get n = S.get n := by
  have key : ∀ l : List (Name × Root), alookup (l.filter (fun p => decide (p.1 ∈ L))) n = alookup l n := by
    intro l
    induction l with
    | nil => rfl
    | cons p l ih =>
      by_cases hp : p.1 ∈ L
      · rw [List.filter_cons_of_pos (by simpa using hp)]
        simp only [alookup, ih]
      · rw [List.filter_cons_of_neg (by simpa using hp)]
        have : p.1 ≠ n := fun he => hp (he ▸ hn)
        simp only [alookup, ih, this, if_false]
  exact key _

/-- The names in `L` are defined, and their definitions refer to names in `L` only. -/
structure PartOf (S : SchemaContext) (L : List Name) : Prop where
  closed : ClosedSet S (· ∈ L)
  defined : ∀ n ∈ L, (S.get n).isSome = true

theorem PartOf.same {L : List Name} (h : PartOf S L) : SameOn S (S.only L) (· ∈ L) :=
  ⟨rfl, rfl, rfl, fun _ hn => (only_get S L hn).symm, h.closed⟩

theorem contents_refs {r : Root} {c : LeafContent} (hc : c ∈ r.contents) : ∀ q ∈ c.refs, q ∈ r.refs := by
  intro q hq
  cases r with
  | leaf d => rw [List.mem_singleton.1 hc] at hq; exact hq
  | enum ns => cases hc
  | element d =>
    rcases List.mem_append.1 hc with hc | hc
    · refine List.mem_append_right _ ?_
      revert hc
      cases d.content with
      | none => exact fun hc => absurd hc (by simp)
      | some e =>
        cases e with
        | leaf n d' => intro hc; rw [List.mem_singleton.1 hc] at hq; exact hq
        | leaves ls =>
          intro hc
          obtain ⟨l, hl, rfl⟩ := List.mem_map.1 hc
          exact List.mem_flatMap.2 ⟨l, hl, hq⟩
    · obtain ⟨a, ha, rfl⟩ := List.mem_map.1 hc
      exact List.mem_append_left _ (List.mem_flatMap.2 ⟨a, ha, hq⟩)
  | choice vs b docs =>
    obtain ⟨l, hl, rfl⟩ := List.mem_map.1 hc
    exact List.mem_flatMap.2 ⟨l, hl, hq⟩

theorem mapRes_filter {α β : Type} {f : α → Res Str β} (p : α → Bool) : ∀ {as : List α} {bs : List β}, mapRes f as = .ok bs →
    ∃ bs', mapRes f (as.filter p) = .ok bs' ∧ bs'.Sublist bs
  | [], bs, h => ⟨[], rfl, List.nil_sublist _⟩
  | a :: as, bs, h => by
    obtain ⟨b, bs1, h1, h2, rfl⟩ := mapRes_cons_ok.1 h
    obtain ⟨bs', h3, h4⟩ := mapRes_filter p h2
    by_cases hp : p a = true
    · rw [List.filter_cons_of_pos hp]
      exact ⟨b :: bs', mapRes_cons_ok.2 ⟨b, bs', h1, h3, rfl⟩, h4.cons_cons b⟩
    · rw [List.filter_cons_of_neg hp]
      exact ⟨bs', h3, h4.cons b⟩

/-- **C64**, parts: code can be generated for a part of the schema that refers to nothing else, and if the code generated for
the whole schema compiles as far as names are concerned, so does that for the part. -/
theorem C64_part (G : Generated x S P) (hnd : (S.elements.map Prod.fst).Nodup) {L : List Name} (h : PartOf S L) :
    ∃ P', Generated x (S.only L) P' ∧ ∀ t ∈ P', t ∈ P := by
  obtain ⟨P', h1, h2⟩ := mapRes_filter (fun n => decide (n ∈ L)) G.gen
  have hk : (S.only L).elements.map Prod.fst = (S.elements.map Prod.fst).filter (fun n => decide (n ∈ L)) := by
    rw [List.filter_map]
    rfl
  have hmem : ∀ a ∈ (S.only L).elements.map Prod.fst, a ∈ L := by
    intro a ha
    rw [hk] at ha
    exact of_decide_eq_true (List.mem_filter.1 ha).2
  refine ⟨P', ⟨?_, G.nodup.sublist (h2.map _), ?_⟩, fun t ht => h2.subset ht⟩
  · unfold generateAll
    rw [← h1, hk]
    refine mapRes_eq_on (fun a ha => ?_)
    exact (C64_code x h.same (of_decide_eq_true (List.mem_filter.1 ha).2)).symm
  · intro p hp c hc n hm
    have hpL := hmem p.1 (List.mem_map.2 ⟨p, hp, rfl⟩)
    have hpS : S.get p.1 = some p.2 := alookup_of_mem hnd (List.mem_filter.1 hp).1
    obtain ⟨hm', hn⟩ := means_local h.same.symm hm (fun q hq => h.closed p.1 p.2 hpL hpS q (contents_refs hc q hq))
    have hn := hn n (.head _)
    rw [only_get S L hn]
    exact h.defined n hn

/-- **C64**, applied to C14 and C11: if the part of the schema that a type needs can be read with one element of lookahead and is
written faithfully, every valid document of the type is accepted by the code generated for the whole schema, and what is written is
read back, whatever else is in the schema. -/
theorem C64_roundtrip (G : Generated x S P) (hnd : (S.elements.map Prod.fst).Nodup) (hx : x.NumLaws) {L : List Name} (h : PartOf S L)
    (hdet : Deterministic x (S.only L)) (hS : Faithful x (S.only L)) {n : Name} (hn : n ∈ L) {i : Str} (hi : typeIdent x n = .ok i)
    (hdoc : DocType (S.only L) n) {v : Val} {e : Elem} (hv : DocRepr x .exact S n v e) :
    FromXml x P i ⟨e⟩ (.ok v) ∧ ∃ evs e1, ToXml x P i v (.ok evs) ∧ buildDoc evs = some e1 ∧
      ∀ e2 : Elem, Indented (.elem e1.1 e1.2) (.elem e2.1 e2.2) → FromXml x P i ⟨e2⟩ (.ok v) := by
  obtain ⟨P', G', _⟩ := C64_part G hnd h
  have hv' := (C64_valid (x := x) h.same rfl hn v e).1 hv
  have hd : ∀ n, n ∈ L → (S.get n).isSome = true := h.defined
  have rd : ∀ d r, FromXml x P i d r ↔ FromXml x P' i d r := fun d r => C64_reads h.same G G' hd hn hi d r
  have wr : ∀ r, ToXml x P i v r ↔ ToXml x P' i v r := fun r => C64_writes h.same G G' hd hn hi v r
  refine ⟨(rd _ _).2 (C14_complete G' hdet hi (tagged_isSome hdoc.1) hv'), ?_⟩
  obtain ⟨evs, e1, h1, h2, h3⟩ := C11_roundtrip G' hx hdet hS hi hdoc ⟨e, hv'⟩
  exact ⟨evs, e1, (wr _).2 h1, h2, fun e2 he => (rd _ _).2 (h3 e2 he)⟩

end

/-! ## The hypotheses are met -/

namespace Sample

/-- The sample schema with one more definition, that cannot be read with one element of lookahead and is not written faithfully. -/
def sch2 : SchemaContext :=
  { sch with elements := (nm c!"Odd", .choice [leaf c!"a" (.fixed c!"x") 1 (.number 1), leaf c!"a" (.literal .string) 1 (.number 1)] false none) ::
      sch.elements }

/-- The names of the sample schema. -/
def names : List Name := sch.elements.map Prod.fst

theorem sch2_generated : Generated sampleExt sch2 (moduleOf sampleExt sch2) := generatesB_sound (by decide +kernel)

theorem sch2_only : sch2.only names = sch := by decide +kernel

theorem sch2_part : PartOf sch2 names := by
  refine ⟨fun n r hn hr => ?_, ?_⟩
  · have key : sch2.elements.all (fun p => !decide (p.1 ∈ names) || p.2.refs.all (fun q => decide (q ∈ names))) = true := by decide +kernel
    have := List.all_eq_true.1 key (n, r) (alookup_mem hr)
    simp only [Bool.or_eq_true, Bool.not_eq_true', decide_eq_false_iff_not, List.all_eq_true, decide_eq_true_eq] at this
    rcases this with h | h
    · exact absurd hn h
    · exact h
  · decide +kernel

/-- The whole schema is not faithful. -/
theorem sch2_not_faithful : ¬ Faithful sampleExt sch2 := by
  rintro ⟨W, hW⟩
  unfold writeOK at hW
  split at hW
  · simp [sch2, rootOK, variantOK, leaf] at hW
  · cases hW

/-- The documents of the sample schema are still read, written and read back. -/
example : FromXml sampleExt (moduleOf sampleExt sch2) c!"Article" ⟨doc⟩ (.ok val) ∧
    ∃ evs e1, ToXml sampleExt (moduleOf sampleExt sch2) c!"Article" val (.ok evs) ∧ buildDoc evs = some e1 ∧
      ∀ e2 : Elem, Indented (.elem e1.1 e1.2) (.elem e2.1 e2.2) → FromXml sampleExt (moduleOf sampleExt sch2) c!"Article" ⟨e2⟩ (.ok val) := by
  refine C64_roundtrip sch2_generated (by decide +kernel) numLaws sch2_part (by rw [sch2_only]; exact deterministic)
    (by rw [sch2_only]; exact faithful) (n := nm c!"Article") (by decide +kernel) article_ident (by rw [sch2_only]; exact docType) ?_
  rw [C64_valid sch2_part.same rfl (by decide +kernel), sch2_only]
  exact doc_repr

end Sample

namespace SchemaSample

/-- The code generated for `A` and what it needs, without `B`. -/
def partOfA : List TypeDef :=
  match generateWithDeps sampleExt (groupSchema c!"t:A") ⟨c!"A", .id 1⟩ [] with | .ok r => r.1 | _ => []

example : partOfA.map TypeDef.ident = [c!"A", c!"C", c!"AT"] ∧
    (moduleOf sampleExt (groupSchema c!"t:A").context).map TypeDef.ident = [c!"AT", c!"A", c!"B", c!"C"] := by decide +kernel

/-- It does the same as in the module of the whole schema. -/
example : ∀ v r, ToXml sampleExt partOfA c!"A" v r ↔ ToXml sampleExt (moduleOf sampleExt (groupSchema c!"t:A").context) c!"A" v r := by
  have hp : parseFile sampleExt (oneFile (groupDoc c!"t:A")) 1 c!"a.xsd" = .ok (groupSchema c!"t:A") := by decide +kernel
  have hg : ∃ al, generateWithDeps sampleExt (groupSchema c!"t:A") ⟨c!"A", .id 1⟩ [] = .ok (partOfA, al) := by
    unfold partOfA
    cases h : generateWithDeps sampleExt (groupSchema c!"t:A") ⟨c!"A", .id 1⟩ [] with
    | ok r => exact ⟨r.2, rfl⟩
    | _ =>
      have key : (match generateWithDeps sampleExt (groupSchema c!"t:A") ⟨c!"A", .id 1⟩ [] with | .ok _ => true | _ => false) = true := by
        decide +kernel
      rw [h] at key
      cases key
  obtain ⟨al, hg⟩ := hg
  have hself : ∀ t ∈ partOfA, ∀ j ∈ t.refs, j ∈ partOfA.map TypeDef.ident := by decide +kernel
  have G := generatesB_sound (x := sampleExt) (S := (groupSchema c!"t:A").context) (by decide +kernel)
  have _ := (C64_dependencies hg hself G.gen G.nodup (i := c!"A") (by decide +kernel)).2
  exact (C64_dependencies_parsed hp (group_unshared (by decide)) hg G.gen G.nodup (m := ⟨c!"A", .id 1⟩) .self (by rfl)).2

end SchemaSample

end Xsd
