import Verif.Spec.Buildable
import Verif.Props.Enums
import Verif.Lemmas.Encode
/-!
# The generated module compiles (C58)
-/
namespace Xsd

variable {x : Ext} {S : SchemaContext} {P : List TypeDef}

theorem Generated.declares (G : Generated x S P) {n : Name} {i : Str} (hn : (S.get n).isSome = true) (hi : typeIdent x n = .ok i) :
    DeclaresType P i := by
  obtain ⟨r, t, _, hf, ht, _⟩ := G.find' hi hn
  exact ⟨t, List.mem_of_find?_eq_some hf, ht⟩

/-- A name that is mentioned is defined. -/
theorem Generated.defined (G : Generated x S P) {n m : Name} {r : Root} (hr : S.get n = some r) (hc : .named m ∈ r.contents) :
    (S.get m).isSome = true := by
  cases h : S.get m with
  | some _ => rfl
  | none =>
    have := G.closedAt hr hc (.name (n := m) (fun d hd => by rw [h] at hd; cases hd))
    rw [h] at this
    exact this

theorem escaped_keyword (hx : x.NameLaws) {s : Str} (hs : x.identOk s = true) (h : s ∈ escapedWords) : s ∈ rustKeywords := by
  have key : ∀ w ∈ escapedWords, w ∈ rustKeywords ∨ ' ' ∈ w := by decide +kernel
  rcases key s h with h | h
  · exact h
  · exact absurd h (hx.chars s hs).2

theorem pascal_type (hx : x.NameLaws) {n : Name} {i j : Str} (hk : x.pascal n.name ∉ rustKeywords) (hi : pascalIdent x n = .ok i)
    (hj : typeIdent x n = .ok j) : i = j := by
  unfold pascalIdent formatIdent at hi
  split at hi
  · next hok =>
    cases hi
    rcases (escapeIdent_ok hj).2 with ⟨he, _⟩ | ⟨_, rfl⟩
    · exact absurd (escaped_keyword hx hok he) hk
    · rfl
  · cases hi

theorem typeIdent_legal {n : Name} {i : Str} (hk : x.pascal n.name ∉ rustKeywords) (hi : typeIdent x n = .ok i) : LegalIdent x i := by
  unfold typeIdent at hi
  obtain ⟨hok, ⟨he, rfl⟩ | ⟨_, rfl⟩⟩ := escapeIdent_ok hi
  · refine .inr ⟨_, rfl, hok, fun hm => ?_⟩
    unfold escapeIdent at hi
    rw [if_pos (by simpa using he), if_pos] at hi
    · cases hi
    · rw [show noRawWords.contains _ = true from List.contains_iff_mem.2 hm]; rfl
  · exact .inl ⟨hok, hk⟩

theorem fieldIdent_legal {n : Name} {i : Str} (hk : x.snake n.name ∉ missedKeywords) (hi : fieldIdent x n = .ok i) : LegalIdent x i := by
  unfold fieldIdent at hi
  obtain ⟨hok, ⟨he, rfl⟩ | ⟨he, rfl⟩⟩ := escapeIdent_ok hi
  · refine .inr ⟨_, rfl, hok, fun hm => ?_⟩
    unfold escapeIdent at hi
    rw [if_pos (by simpa using he), if_pos] at hi
    · cases hi
    · rw [show noRawWords.contains _ = true from List.contains_iff_mem.2 hm]; rfl
  · refine .inl ⟨hok, fun hm => ?_⟩
    rcases keywords_split _ hm with h | h
    · exact hk h
    · exact he h

theorem formatIdent_ok {s i : Str} (h : formatIdent x s = .ok i) : i = s ∧ x.identOk s = true := by
  unfold formatIdent at h
  split at h
  · next hok => cases h; exact ⟨rfl, hok⟩
  · cases h

theorem ty_names {c : LeafContent} {ty : Ty} (G : Generated x S P) {n : Name} {r : Root} (hr : S.get n = some r) (hc : c ∈ r.contents)
    (h : contentTy x S c = .ok ty) : ∀ i ∈ ty.names, DeclaresType P i := by
  intro i hi
  rcases contentTy_ok h with ⟨t, _, rfl⟩ | ⟨s, _, rfl⟩ | ⟨m, j, hm, hj, rfl⟩
  · cases hi
  · cases hi
  · rw [List.mem_singleton.1 hi]
    exact G.declares (G.closedAt hr hc hm) hj

theorem valRead_typed {c : LeafContent} {ty : Ty} {v : ValRead} (G : Generated x S P) {n : Name} {r : Root} (hr : S.get n = some r) (hc : c ∈ r.contents)
    (h : contentTy x S c = .ok ty) (hv : contentRead x S c = .ok v) : v.Has P ty := by
  rcases contentTy_ok h with ⟨t, hm, rfl⟩ | ⟨s, hm, rfl⟩ | ⟨m, j, hm, hj, rfl⟩ <;>
    rcases contentRead_ok hv with ⟨t', hm', rfl⟩ | ⟨s', hm', rfl⟩ | ⟨m', j', hm', hj', rfl⟩ <;> cases hm.functional hm'
  · rfl
  · rfl
  · rw [hj] at hj'; cases hj'
    exact ⟨G.declares (G.closedAt hr hc hm) hj, rfl⟩

theorem valWrite_typed {c : LeafContent} {ty : Ty} {v : ValWrite} (G : Generated x S P) {n : Name} {r : Root} (hr : S.get n = some r) (hc : c ∈ r.contents)
    (h : contentTy x S c = .ok ty) (hv : contentWrite x S c = .ok v) : v.Takes P ty := by
  rcases contentTy_ok h with ⟨t, hm, rfl⟩ | ⟨s, hm, rfl⟩ | ⟨m, j, hm, hj, rfl⟩ <;>
    rcases contentWrite_ok hv with ⟨t', hm', rfl⟩ | ⟨s', hm', rfl⟩ | ⟨m', j', hm', hj', rfl⟩ <;> cases hm.functional hm'
  · rfl
  · trivial
  · rw [hj] at hj'; cases hj'
    exact ⟨G.declares (G.closedAt hr hc hm) hj, rfl⟩

/-- Only names are written by a call. -/
theorem write_moves {c : LeafContent} {v : ValWrite} (hv : contentWrite x S c = .ok v) (h : v.Moves) : ∃ m, Means S c (.named m) := by
  rcases contentWrite_ok hv with ⟨t', hm', rfl⟩ | ⟨s', hm', rfl⟩ | ⟨m', j', hm', hj', rfl⟩
  · cases h
  · cases h
  · exact ⟨m', hm'⟩

theorem leaf_field {l : Leaf} {p : Str × Ty} (h : leafDecl x S l = .ok p) : fieldIdent x l.name = .ok p.1 ∧
    ∃ ty, contentTy x S l.definition.content = .ok ty ∧ p.2 = optTy l.mayMiss (if l.repeats then .vec ty else ty) := by
  simp only [leafDecl, Leaf.isOptional_eq, Leaf.isVec_eq, Res.bind_eq_ok] at h
  obtain ⟨f, hf, ty, hty, h⟩ := h
  cases h
  exact ⟨hf, ty, hty, rfl⟩

theorem leafRead_typed (hx : x.NameLaws) (B : Buildable x S) (G : Generated x S P) {n : Name} {r : Root} (hr : S.get n = some r) {l : Leaf}
    (hc : l.definition.content ∈ r.contents) {p : Str × Ty} (hp : leafDecl x S l = .ok p) {q : Str × LeafRead} (hq : leafRead x S l = .ok q) :
    q.1 = p.1 ∧ q.2.Has P p.2 := by
  obtain ⟨hf, ty, hty, he⟩ := leaf_field hp
  obtain ⟨qn, v, hf', _, hv, hk⟩ := leafRead_ok hq
  rw [hf] at hf'
  have hval := valRead_typed G hr hc hty hv
  refine ⟨(Res.ok.inj hf').symm, ?_⟩
  have group : ∀ m i, l.definition.content = .named m → pascalIdent x m = .ok i → DeclaresType P i := by
    intro m i hm hi
    have hd := G.defined hr (hm ▸ hc)
    obtain ⟨r', hr'⟩ := Option.isSome_iff_exists.1 hd
    obtain ⟨t, _, _, hg⟩ := G.find hr'
    have := pascal_type hx (B.types m r' hr').1 hi hg.ident
    exact G.declares hd (this ▸ hg.ident)
  rw [he]
  generalize q.2 = q2 at hk
  cases hk with
  | whileLook h1 h2 hn hi =>
    rw [h2, if_pos rfl]
    exact ⟨group _ _ hn hi, ty, hval, rfl⟩
  | ifLook h1 h2 h3 hn hi =>
    rw [h2, h3, if_neg (by decide)]
    exact ⟨group _ _ hn hi, ty, hval, rfl⟩
  | plain h1 h2 h3 => rw [h2, h3, if_neg (by decide)]; exact hval
  | whileNext h1 h2 => rw [h2, if_pos rfl]; exact ⟨ty, hval, rfl⟩
  | ifNext h1 h2 h3 => rw [h2, h3, if_neg (by decide)]; exact ⟨ty, hval, rfl⟩
  | tryChild h1 h2 h3 => rw [h2, h3, if_neg (by decide)]; exact hval
  | tryNext h1 h2 h3 => rw [h2, h3, if_neg (by decide)]; exact hval

theorem leavesRead_typed (hx : x.NameLaws) (B : Buildable x S) (G : Generated x S P) {n : Name} {r : Root} (hr : S.get n = some r) (ls : List Leaf)
    (hc : ∀ l ∈ ls, l.definition.content ∈ r.contents) {ds : List (Str × Ty)} (hd : mapRes (leafDecl x S) ls = .ok ds)
    {rs : List (Str × LeafRead)} (hrs : mapRes (leafRead x S) ls = .ok rs) : LeavesHave P rs ds := by
  induction ls generalizing ds rs with
  | nil => simp [mapRes] at hd hrs; subst hd hrs; exact .nil
  | cons l ls ih =>
    obtain ⟨p, ds', hp, hds, rfl⟩ := mapRes_cons_ok.1 hd
    obtain ⟨q, rs', hq, hrs', rfl⟩ := mapRes_cons_ok.1 hrs
    obtain ⟨he, ht⟩ := leafRead_typed hx B G hr (hc l (List.mem_cons_self ..)) hp hq
    obtain ⟨f, r⟩ := q
    obtain ⟨g, ty⟩ := p
    cases he
    exact .cons ht (ih (fun l hl => hc l (List.mem_cons_of_mem _ hl)) hds hrs')

theorem attr_types {a : Attribute} {p : Str × Ty} (h : attrDecl x S a = .ok p) : fieldIdent x a.name = .ok p.1 ∧
    ∃ ty, contentTy x S a.content = .ok ty ∧ p.2 = optTy a.isOptional ty := by
  simp only [attrDecl, Res.bind_eq_ok] at h
  obtain ⟨f, hf, ty, hty, h⟩ := h
  cases h
  exact ⟨hf, ty, hty, rfl⟩

/-- A named attribute type is a string or an enumeration. -/
theorem attrType_ok (G : Generated x S P) {m : Name} (h : AttrTypeOK S (.named m)) {ty : Ty} (hty : contentTy x S (.named m) = .ok ty) :
    FromStrs P ty ∧ Displays P ty := by
  obtain ⟨c, hm, hc⟩ := h
  rcases contentTy_ok hty with ⟨t, hm', rfl⟩ | ⟨s, hm', rfl⟩ | ⟨m', j, hm', hj, rfl⟩ <;> cases hm.functional hm'
  · rcases hc with ⟨t', e, hp⟩ | ⟨_, _, e, _⟩
    · cases e; rw [hp]; exact ⟨.inl rfl, .inl ⟨_, rfl⟩⟩
    · cases e
  · rcases hc with ⟨_, e, _⟩ | ⟨_, _, e, _⟩ <;> cases e
  · rcases hc with ⟨_, e, _⟩ | ⟨_, vs, e, hg⟩
    · cases e
    · cases e
      obtain ⟨t, ht, _, hgen⟩ := G.find hg
      have := hgen.ident
      rw [hj] at this; cases this
      have hd := hgen.decl
      obtain ⟨tab, htab, hd⟩ := Res.bind_eq_ok.1 hd
      obtain ⟨vs, _, hd⟩ := Res.bind_eq_ok.1 hd
      have he : t.decl = .enum vs := (Res.ok.inj hd).symm
      exact ⟨.inr ⟨t, ht, rfl, .inr ⟨vs, he⟩⟩, .inr ⟨t, ht, rfl, .inr ⟨vs, he⟩⟩⟩

theorem attrRead_typed (G : Generated x S P) {a : Attribute} (ha : AttrTypeOK S a.content) {p : Str × Ty} (hp : attrDecl x S a = .ok p)
    {q : AttrRead} (hq : attrRead x S a = .ok q) : q.field = p.1 ∧ q.Has P p.2 := by
  obtain ⟨hf, ty, hty, he⟩ := attr_types hp
  obtain ⟨hf', _, ho, hin⟩ := attrRead_ok hq
  rw [hf] at hf'
  refine ⟨(Res.ok.inj hf').symm, ty, ?_, ho ▸ he⟩
  rcases hin with ⟨t, hc, hin⟩ | ⟨s, hc, hin⟩ | ⟨m, ty', hc, hty', hin⟩ <;> rw [hin]
  · rw [hc] at hty
    rcases contentTy_ok hty with ⟨t, hm', rfl⟩ | ⟨s, hm', rfl⟩ | ⟨m', j, hm', hj, rfl⟩ <;> cases hm'
    rfl
  · rw [hc] at hty
    rcases contentTy_ok hty with ⟨t, hm', rfl⟩ | ⟨s, hm', rfl⟩ | ⟨m', j, hm', hj, rfl⟩ <;> cases hm'
    rfl
  · rw [hty] at hty'
    cases hty'
    rw [hc] at hty ha
    exact ⟨rfl, (attrType_ok G ha hty).1⟩

theorem attrsRead_typed (G : Generated x S P) (as : List Attribute) (ha : ∀ a ∈ as, AttrTypeOK S a.content) {ds : List (Str × Ty)}
    (hd : mapRes (attrDecl x S) as = .ok ds) {rs : List AttrRead} (hrs : mapRes (attrRead x S) as = .ok rs) : AttrsHave P rs ds := by
  induction as generalizing ds rs with
  | nil => simp [mapRes] at hd hrs; subst hd hrs; exact .nil
  | cons a as ih =>
    obtain ⟨p, ds', hp, hds, rfl⟩ := mapRes_cons_ok.1 hd
    obtain ⟨q, rs', hq, hrs', rfl⟩ := mapRes_cons_ok.1 hrs
    obtain ⟨he, ht⟩ := attrRead_typed G (ha a (List.mem_cons_self ..)) hp hq
    obtain ⟨g, ty⟩ := p
    cases he
    exact .cons ht (ih (fun a h => ha a (List.mem_cons_of_mem _ h)) hds hrs')

theorem attrWrite_typed (G : Generated x S P) {a : Attribute} (ha : AttrTypeOK S a.content) {p : Str × Ty} (hp : attrDecl x S a = .ok p)
    {ds : List (Str × Ty)} (hm : p ∈ ds) {w : AttrWrite} (hw : attrWrite x S a = .ok w) : w.OK P ds := by
  obtain ⟨hf, ty, hty, he⟩ := attr_types hp
  obtain ⟨hf', _, ho, hin⟩ := attrWrite_ok hw
  rw [hf] at hf'
  refine ⟨ty, ?_, ?_⟩
  · rw [ho, ← he, ← Res.ok.inj hf']
    exact hm
  rcases hin with ⟨t, hc, hin⟩ | ⟨s, hc, hin⟩ | ⟨m, ty', hc, hty', hin⟩ <;> rw [hin]
  · rw [hc] at hty
    rcases contentTy_ok hty with ⟨t, hm', rfl⟩ | ⟨s, hm', rfl⟩ | ⟨m', j, hm', hj, rfl⟩ <;> cases hm'
    rfl
  · trivial
  · rw [hty] at hty'
    cases hty'
    rw [hc] at hty ha
    exact ⟨rfl, (attrType_ok G ha hty).2⟩

theorem resolveFrom_means {k : Nat} {n : Name} {d : LeafDef} (h : S.resolveFrom k (S.get n) = .ok (some (.leaf d))) {t : LiteralType}
    (ht : d.content = .literal t) : Means S (.named n) (.literal t) := by
  induction k generalizing n with
  | zero => cases h
  | succ k ih =>
    unfold SchemaContext.resolveFrom at h
    cases hg : S.get n with
    | none => rw [hg] at h; cases h
    | some r =>
      rw [hg] at h
      cases r with
      | leaf e =>
        simp only at h
        cases hc : e.content with
        | named m => rw [hc] at h; exact .alias hg (hc ▸ ih h)
        | literal u => rw [hc] at h; cases h; rw [hc] at ht; cases ht; exact .alias hg (by rw [hc]; exact .literal _)
        | fixed s => rw [hc] at h; cases h; rw [hc] at ht; cases ht
      | enum vs => cases h
      | element e => cases h
      | choice vs a b => cases h

/-- A leaf that is written with tags is not written by a call. -/
theorem leafWrite_tags {l : Leaf} {w : LeafWrite} (hw : leafWrite x S l = .ok w) (ht : w.tags = true) : ¬ w.inner.Moves := by
  obtain ⟨f, nm, inner, tags, _, _, hin, rfl, h1, h2, h3⟩ := leafWrite_ok hw
  change tags = true at ht
  show ¬ inner.Moves
  intro hmv
  obtain ⟨m, hm⟩ := write_moves hin hmv
  cases hv : l.isVirtual with
  | true => rw [h1 hv] at ht; cases ht
  | false =>
    cases hc : l.definition.content with
    | literal t => rw [hc] at hm; cases hm
    | fixed s => rw [hc] at hm; cases hm
    | named n =>
      obtain ⟨r, hr, ⟨⟨d, t, rfl, hdt⟩, _⟩ | ⟨_, ht'⟩⟩ := h3 hv n hc
      · rw [hc] at hm
        cases hm.functional (resolveFrom_means hr hdt)
      · rw [ht'] at ht; cases ht

theorem leafWrite_typed (G : Generated x S P) {n : Name} {r : Root} (hr : S.get n = some r) {l : Leaf} (hc : l.definition.content ∈ r.contents)
    {p : Str × Ty} (hp : leafDecl x S l = .ok p) {ds : List (Str × Ty)} (hm : p ∈ ds) {w : LeafWrite} (hw : leafWrite x S l = .ok w) : w.OK P ds := by
  refine ⟨?_, leafWrite_tags hw⟩
  obtain ⟨hf, ty, hty, he⟩ := leaf_field hp
  obtain ⟨f, nm, inner, tags, hf', _, hin, rfl, _⟩ := leafWrite_ok hw
  rw [hf] at hf'
  refine ⟨ty, ?_, valWrite_typed G hr hc hty hin⟩
  show (f, optTy l.mayMiss (if l.repeats then .vec ty else ty)) ∈ ds
  rw [← he, ← Res.ok.inj hf']
  exact hm

theorem mapRes_fst {α β : Type} {f : α → Res Str (Str × β)} {g : α → Str} {as : List α} {bs : List (Str × β)} (h : mapRes f as = .ok bs)
    (hg : ∀ a ∈ as, ∀ b, f a = .ok b → b.1 = g a) : bs.map Prod.fst = as.map g := by
  induction as generalizing bs with
  | nil => simp [mapRes] at h; subst h; rfl
  | cons a as ih =>
    obtain ⟨b, bs', hb, hbs, rfl⟩ := mapRes_cons_ok.1 h
    simp only [List.map_cons, hg a (List.mem_cons_self ..) b hb, ih hbs (fun a h => hg a (List.mem_cons_of_mem _ h))]

/-- The identifier of a field, as a function of its snake-case name. -/
def fieldOf (s : Str) : Str := if s ∈ escapedWords then c!"r#" ++ s else s

theorem fieldIdent_eq {n : Name} {i : Str} (h : fieldIdent x n = .ok i) : i = fieldOf (x.snake n.name) ∧ x.identOk (x.snake n.name) = true := by
  unfold fieldIdent at h
  obtain ⟨hok, ⟨he, rfl⟩ | ⟨he, rfl⟩⟩ := escapeIdent_ok h
  · exact ⟨by simp only [fieldOf, he, if_true], hok⟩
  · exact ⟨by simp only [fieldOf, he, if_false], hok⟩

theorem fieldOf_inj (hx : x.NameLaws) {s t : Str} (hs : x.identOk s = true) (ht : x.identOk t = true) (h : fieldOf s = fieldOf t) : s = t := by
  have h1 := (hx.chars s hs).1
  have h2 := (hx.chars t ht).1
  unfold fieldOf at h
  split at h <;> split at h
  · exact List.append_cancel_left h
  · exact absurd (h ▸ (by simp : '#' ∈ c!"r#" ++ s)) h2
  · exact absurd (h ▸ (by simp : '#' ∈ c!"r#" ++ t)) h1
  · exact h

theorem nodup_map_on {α β : Type} {f : α → β} {l : List α} (h : l.Nodup) (hf : ∀ a ∈ l, ∀ b ∈ l, f a = f b → a = b) : (l.map f).Nodup := by
  induction l with
  | nil => simp
  | cons a l ih =>
    simp only [List.map_cons, List.nodup_cons] at h ⊢
    refine ⟨fun hm => ?_, ih h.2 (fun a ha b hb => hf a (List.mem_cons_of_mem _ ha) b (List.mem_cons_of_mem _ hb))⟩
    obtain ⟨b, hb, e⟩ := List.mem_map.1 hm
    exact h.1 (hf b (List.mem_cons_of_mem _ hb) a (List.mem_cons_self ..) e ▸ hb)

/-- The declared fields have the identifiers of the field names, in order. -/
theorem struct_labels {e : ElementDef} {cs as : List (Str × Ty)} (hcs : contentDecl x S e.content = .ok cs)
    (has : mapRes (attrDecl x S) e.attributes = .ok as) :
    (cs ++ as).map Prod.fst = e.fieldNames.map (fun m => fieldOf (x.snake m.name)) ∧
    ∀ m ∈ e.fieldNames, ∃ i, fieldIdent x m = .ok i := by
  have h2 : as.map Prod.fst = e.attributes.map (fun a => fieldOf (x.snake a.name.name)) :=
    mapRes_fst has (fun a _ b hb => (fieldIdent_eq (attr_types hb).1).1)
  have k2 : ∀ m ∈ e.attributes.map Attribute.name, ∃ i, fieldIdent x m = .ok i := by
    intro m hm
    obtain ⟨a, ha, rfl⟩ := List.mem_map.1 hm
    obtain ⟨b, _, hb⟩ := (mapRes_ok has).1 a ha
    exact ⟨_, (attr_types hb).1⟩
  unfold ElementDef.fieldNames
  cases hc : e.content with
  | none =>
    rw [hc] at hcs; cases hcs
    simp only [List.nil_append]
    exact ⟨by rw [h2, List.map_map]; rfl, k2⟩
  | some ec =>
    cases ec with
    | leaf n d =>
      rw [hc] at hcs
      simp only [contentDecl, Res.bind_eq_ok] at hcs
      obtain ⟨f, hf, ty, _, hcs⟩ := hcs
      cases hcs
      refine ⟨?_, ?_⟩
      · simp only [List.map_append, h2, List.map_cons, List.map_nil, List.map_map, (fieldIdent_eq hf).1]; rfl
      · intro m hm
        rcases List.mem_append.1 hm with hm | hm
        · rw [List.mem_singleton.1 hm]; exact ⟨f, hf⟩
        · exact k2 m hm
    | leaves ls =>
      rw [hc] at hcs
      simp only [contentDecl] at hcs
      have h1 : cs.map Prod.fst = ls.map (fun l => fieldOf (x.snake l.name.name)) :=
        mapRes_fst hcs (fun a _ b hb => (fieldIdent_eq (leaf_field hb).1).1)
      refine ⟨?_, ?_⟩
      · simp only [List.map_append, h1, h2, List.map_map]; rfl
      · intro m hm
        rcases List.mem_append.1 hm with hm | hm
        · obtain ⟨l, hl, rfl⟩ := List.mem_map.1 hm
          obtain ⟨b, _, hb⟩ := (mapRes_ok hcs).1 l hl
          exact ⟨_, (leaf_field hb).1⟩
        · exact k2 m hm

theorem variant_types {l : Leaf} {p : Str × Ty} (h : variantDecl x S l = .ok p) : p.1 = x.pascal l.name.name ∧ x.identOk p.1 = true ∧
    ∃ ty, contentTy x S l.definition.content = .ok ty ∧ p.2 = if l.repeats then .vec ty else ty := by
  simp only [variantDecl, Leaf.isVec_eq, Res.bind_eq_ok] at h
  obtain ⟨f, hf, ty, hty, h⟩ := h
  cases h
  obtain ⟨rfl, hok⟩ := formatIdent_ok hf
  exact ⟨rfl, hok, ty, hty, rfl⟩

theorem check_declared (hx : x.NameLaws) (B : Buildable x S) (G : Generated x S P) {n : Name} {r : Root} (hr : S.get n = some r) (ls : List Leaf)
    (hc : ∀ l ∈ ls, l.definition.content ∈ r.contents) {cs : List Check} (h : mapRes (leafCheck x S) ls = .ok cs) (i : Str)
    (hi : Check.call i ∈ cs) : DeclaresType P i := by
  obtain ⟨l, hl, hk⟩ := (mapRes_ok h).2 _ hi
  unfold leafCheck at hk
  simp only [SchemaContext.qname_eq] at hk
  split at hk
  · split at hk
    · next m hm =>
      rw [Res.bind_eq_ok] at hk
      obtain ⟨j, hj, hk⟩ := hk
      cases hk
      have hd := G.defined hr (hm ▸ hc l hl)
      obtain ⟨r', hr'⟩ := Option.isSome_iff_exists.1 hd
      obtain ⟨t, _, _, hg⟩ := G.find hr'
      have := pascal_type hx (B.types m r' hr').1 hj hg.ident
      exact G.declares hd (this ▸ hg.ident)
    · cases hk
  · rw [Res.bind_eq_ok] at hk
    obtain ⟨j, hj, hk⟩ := hk
    cases hk

theorem mem_of_lookLeaves {ls : List Leaf} {l : Leaf} (h : l ∈ lookLeaves ls) : l ∈ ls := by
  induction ls with
  | nil => cases h
  | cons k ls ih =>
    unfold lookLeaves at h
    split at h
    · rcases List.mem_cons.1 h with rfl | h
      · exact List.mem_cons_self ..
      · exact List.mem_cons_of_mem _ (ih h)
    · rw [List.mem_singleton.1 h]; exact List.mem_cons_self ..

theorem generated_typed (hx : x.NameLaws) (B : Buildable x S) (G : Generated x S P) {t : TypeDef} (ht : t ∈ P) : t.Typed x P := by
  obtain ⟨n, hn, hgen⟩ := (mapRes_ok G.gen).2 t ht
  obtain ⟨r, hr, g⟩ := generateElement_ok hgen
  obtain ⟨hkw, hpt⟩ := B.types n r hr
  have hid : t.ident = fieldOf (x.pascal n.name) := by
    have := g.ident
    obtain ⟨hok, ⟨he, h⟩ | ⟨he, h⟩⟩ := escapeIdent_ok this
    · rw [h]; simp only [fieldOf, he, if_true]
    · rw [h]; simp only [fieldOf, he, if_false]
  have hokn : x.identOk (x.pascal n.name) = true := (escapeIdent_ok g.ident).1
  have hesc : x.pascal n.name ∉ escapedWords := fun h => hkw (escaped_keyword hx hokn h)
  have hid : t.ident = x.pascal n.name := by rw [hid]; simp only [fieldOf, hesc, if_false]
  have hd := g.decl
  have hw := g.write
  have hrd := g.read
  have hl := g.look
  cases r with
  | leaf d =>
    simp only [rootDecl, Res.bind_eq_ok] at hd
    obtain ⟨ty, hty, hd⟩ := hd
    have hd := (Res.ok.inj hd).symm
    simp only [rootWrite, Res.bind_eq_ok] at hw
    obtain ⟨w, hcw, hw⟩ := hw
    have hw := (Res.ok.inj hw).symm
    simp only [rootRead, Res.bind_eq_ok] at hrd
    obtain ⟨v, hcr, hrd⟩ := hrd
    have hrd := (Res.ok.inj hrd).symm
    have hl := (Res.ok.inj hl).symm
    have hmem : d.content ∈ (Root.leaf d).contents := List.mem_singleton.2 rfl
    refine ⟨typeIdent_legal hkw g.ident, ?_, ?_, ⟨hid ▸ hpt, fun _ _ _ => hid ▸ B.newtypes n d hr⟩, ?_, ?_, ?_, ?_, ?_⟩
    · rw [hd]; intro i hi; cases hi
    · rw [hd]; exact List.nodup_nil
    · rw [hd]
      intro ty' hty' i hi
      rw [List.mem_singleton.1 hty'] at hi
      exact ty_names G hr hmem hty i hi
    · rw [hd]
      cases hc : d.content with
      | literal u =>
        rw [hc] at hty
        rcases contentTy_ok hty with ⟨t, hm', rfl⟩ | ⟨s, hm', rfl⟩ | ⟨m', j, hm', hj, rfl⟩ <;> cases hm'
        rfl
      | named m => trivial
      | fixed s => trivial
    · rw [hd, hrd]; exact valRead_typed G hr hmem hty hcr
    · rw [hl]; trivial
    · rw [hd, hw]
      refine ⟨valWrite_typed G hr hmem hty hcw, fun htag hmv => ?_⟩
      obtain ⟨m, hm⟩ := write_moves hcw hmv
      cases hc : d.content with
      | literal u => rw [hc] at hm; cases hm
      | fixed s => rw [hc] at hm; cases hm
      | named m => rw [hc] at htag; cases htag
  | enum vs =>
    simp only [rootDecl, Res.bind_eq_ok] at hd
    obtain ⟨tab, htab, us, hus, hd⟩ := hd
    have hd := (Res.ok.inj hd).symm
    have hw := (Res.ok.inj hw).symm
    have hrd := (Res.ok.inj hrd).symm
    have hl := (Res.ok.inj hl).symm
    obtain ⟨hne, hvk⟩ := B.enums n vs hr
    obtain ⟨tab', htab', hsnd, hnd, _⟩ := C25_variants (x := x) vs
    rw [htab] at htab'; cases htab'
    have hfst : us.map Prod.fst = tab.map Prod.fst := mapRes_fst hus (fun p _ q hq => by
      obtain ⟨v, hv, hq⟩ := Res.bind_eq_ok.1 hq
      cases hq
      exact (formatIdent_ok hv).1)
    refine ⟨typeIdent_legal hkw g.ident, ?_, ?_, ⟨hid ▸ hpt, fun _ _ h => by rw [hd] at h; cases h⟩, ?_, ?_, ?_, ?_, ?_⟩
    · rw [hd]
      intro i hi
      obtain ⟨q, hq, rfl⟩ := List.mem_map.1 hi
      obtain ⟨p, hp, hpq⟩ := (mapRes_ok hus).2 q hq
      obtain ⟨v, hv, hpq⟩ := Res.bind_eq_ok.1 hpq
      cases hpq
      obtain ⟨rfl, hok⟩ := formatIdent_ok hv
      exact .inl ⟨hok, hvk tab htab p hp⟩
    · rw [hd]; show (us.map Prod.fst).Nodup; rw [hfst]; exact hnd
    · rw [hd]; intro ty hty; cases hty
    · rw [hd]; trivial
    · rw [hd, hrd]; trivial
    · rw [hl]; trivial
    · rw [hd, hw]
      show us ≠ []
      rintro rfl
      have : tab = [] := List.map_eq_nil_iff.1 hfst.symm
      rw [this] at hsnd
      exact hne (List.map_eq_nil_iff.1 hsnd.symm)
  | element e =>
    simp only [rootDecl, Res.bind_eq_ok] at hd
    obtain ⟨cs, hcs, as, has, hd⟩ := hd
    have hd := (Res.ok.inj hd).symm
    simp only [rootWrite, Res.bind_eq_ok] at hw
    obtain ⟨was, hwas, wc, hwc, hw⟩ := hw
    have hw := (Res.ok.inj hw).symm
    simp only [rootRead, Res.bind_eq_ok] at hrd
    obtain ⟨rc, hrc, ras, hras, hrd⟩ := hrd
    have hrd := (Res.ok.inj hrd).symm
    obtain ⟨hlab, hids⟩ := struct_labels hcs has
    obtain ⟨hnd, hmk⟩ := B.fields n e hr
    have hattr : ∀ a ∈ e.attributes, a.content ∈ (Root.element e).contents := fun a ha =>
      List.mem_append_right _ (List.mem_map.2 ⟨a, ha, rfl⟩)
    have hleaf : ∀ ls, e.content = some (.leaves ls) → ∀ l ∈ ls, l.definition.content ∈ (Root.element e).contents := by
      intro ls hls l hl
      refine List.mem_append_left _ ?_
      rw [hls]
      exact List.mem_map.2 ⟨l, hl, rfl⟩
    have hsingle : ∀ m d, e.content = some (.leaf m d) → d.content ∈ (Root.element e).contents := by
      intro m d hm
      refine List.mem_append_left _ ?_
      rw [hm]
      exact List.mem_singleton.2 rfl
    refine ⟨typeIdent_legal hkw g.ident, ?_, ?_, ⟨hid ▸ hpt, fun _ _ h => by rw [hd] at h; cases h⟩, ?_, ?_, ?_, ?_, ?_⟩
    · rw [hd]
      show ∀ i ∈ (cs ++ as).map Prod.fst, _
      rw [hlab]
      intro i hi
      obtain ⟨m, hm, rfl⟩ := List.mem_map.1 hi
      obtain ⟨j, hj⟩ := hids m hm
      have := (fieldIdent_eq hj).1
      rw [← this]
      exact fieldIdent_legal (hmk m hm) hj
    · rw [hd]
      show ((cs ++ as).map Prod.fst).Nodup
      rw [hlab, show e.fieldNames.map (fun m => fieldOf (x.snake m.name)) = (e.fieldNames.map (fun m => x.snake m.name)).map fieldOf from by
        rw [List.map_map]; rfl]
      refine nodup_map_on hnd ?_
      intro a ha b hb hab
      obtain ⟨m, hm, rfl⟩ := List.mem_map.1 ha
      obtain ⟨m', hm', rfl⟩ := List.mem_map.1 hb
      obtain ⟨j, hj⟩ := hids m hm
      obtain ⟨j', hj'⟩ := hids m' hm'
      exact fieldOf_inj hx (fieldIdent_eq hj).2 (fieldIdent_eq hj').2 hab
    · rw [hd]
      intro ty hty i hi
      obtain ⟨p, hp, rfl⟩ := List.mem_map.1 hty
      rcases List.mem_append.1 hp with hp | hp
      · cases hec : e.content with
        | none => rw [hec] at hcs; cases hcs; cases hp
        | some ec =>
          rw [hec] at hcs
          cases ec with
          | leaf m d =>
            simp only [contentDecl, Res.bind_eq_ok] at hcs
            obtain ⟨f, _, ty, hty', hcs⟩ := hcs
            cases hcs
            rw [List.mem_singleton.1 hp] at hi
            exact ty_names G hr (hsingle m d hec) hty' i hi
          | leaves ls =>
            obtain ⟨l, hl, hlp⟩ := (mapRes_ok hcs).2 p hp
            obtain ⟨_, ty, hty, he⟩ := leaf_field hlp
            refine ty_names G hr (hleaf ls hec l hl) hty i ?_
            rw [he] at hi
            revert hi
            cases l.mayMiss <;> cases l.repeats <;> exact id
      · obtain ⟨a, ha, hap⟩ := (mapRes_ok has).2 p hp
        obtain ⟨_, ty, hty, he⟩ := attr_types hap
        refine ty_names G hr (hattr a ha) hty i ?_
        rw [he] at hi
        revert hi
        cases a.isOptional <;> exact id
    · rw [hd]; trivial
    · rw [hd, hrd]
      refine ⟨cs, as, rfl, ?_, attrsRead_typed G e.attributes (B.attrs n e hr) has hras⟩
      cases hec : e.content with
      | none => rw [hec] at hcs hrc; cases hcs; cases hrc; rfl
      | some ec =>
        rw [hec] at hcs hrc
        cases ec with
        | leaf m d =>
          simp only [contentDecl, Res.bind_eq_ok] at hcs
          obtain ⟨f, hf, ty, hty, hcs⟩ := hcs
          cases hcs
          simp only [elementContentRead, Res.bind_eq_ok] at hrc
          obtain ⟨f', hf', v, hv, hrc⟩ := hrc
          cases hrc
          rw [hf] at hf'; cases hf'
          exact ⟨ty, rfl, valRead_typed G hr (hsingle m d hec) hty hv⟩
        | leaves ls =>
          simp only [elementContentRead, Res.bind_eq_ok] at hrc
          obtain ⟨rs, hrs, hrc⟩ := hrc
          cases hrc
          exact leavesRead_typed hx B G hr ls (hleaf ls hec) hcs hrs
    · simp only [rootLook] at hl
      split at hl
      · next ls hls =>
        rw [Res.bind_eq_ok] at hl
        obtain ⟨ks, hks, hl⟩ := hl
        rw [← Res.ok.inj hl]
        exact check_declared hx B G hr _ (fun l h => hleaf ls hls l (mem_of_lookLeaves h)) hks
      · rw [← Res.ok.inj hl]
        intro i hi; cases hi
    · rw [hd, hw]
      refine ⟨fun w hw => ?_, ?_⟩
      · obtain ⟨a, ha, haw⟩ := (mapRes_ok hwas).2 w hw
        obtain ⟨p, hp, hap⟩ := (mapRes_ok has).1 a ha
        exact attrWrite_typed G (B.attrs n e hr a ha) hap (List.mem_append_right _ hp) haw
      · cases hec : e.content with
        | none => rw [hec] at hwc; cases hwc; trivial
        | some ec =>
          rw [hec] at hcs hwc
          cases ec with
          | leaf m d =>
            simp only [contentDecl, Res.bind_eq_ok] at hcs
            obtain ⟨f, hf, ty, hty, hcs⟩ := hcs
            cases hcs
            simp only [elementContentWrite, Res.bind_eq_ok] at hwc
            obtain ⟨f', hf', v, hv, hwc⟩ := hwc
            cases hwc
            rw [hf] at hf'; cases hf'
            refine ⟨⟨ty, List.mem_append_left _ (List.mem_singleton.2 rfl), valWrite_typed G hr (hsingle m d hec) hty hv⟩, fun htag hmv => ?_⟩
            obtain ⟨m', hm'⟩ := write_moves hv hmv
            simp only [Bool.and_eq_true, Bool.not_eq_true', isNamedLeaf] at htag
            cases hdc : d.content with
            | literal u => rw [hdc] at hm'; cases hm'
            | fixed s => rw [hdc] at hm'; cases hm'
            | named m'' => rw [hdc] at htag; cases htag.2
          | leaves ls =>
            simp only [elementContentWrite, Res.bind_eq_ok] at hwc
            obtain ⟨ws, hws, hwc⟩ := hwc
            cases hwc
            intro w hw
            obtain ⟨l, hl, hlw⟩ := (mapRes_ok hws).2 w hw
            obtain ⟨p, hp, hlp⟩ := (mapRes_ok hcs).1 l hl
            exact leafWrite_typed G hr (hleaf ls hec l hl) hlp (List.mem_append_left _ hp) hlw
  | choice vs b dd =>
    simp only [rootDecl, Res.bind_eq_ok] at hd
    obtain ⟨ds, hds, hd⟩ := hd
    have hd := (Res.ok.inj hd).symm
    simp only [rootWrite, Res.bind_eq_ok] at hw
    obtain ⟨ws, hws, hw⟩ := hw
    have hw := (Res.ok.inj hw).symm
    simp only [rootRead, Res.bind_eq_ok] at hrd
    obtain ⟨rs, hrs, hrd⟩ := hrd
    have hrd := (Res.ok.inj hrd).symm
    obtain ⟨hne, hnd, hvs⟩ := B.choices n vs b dd hr
    have hmem : ∀ l ∈ vs, l.definition.content ∈ (Root.choice vs b dd).contents := fun l hl => List.mem_map.2 ⟨l, hl, rfl⟩
    have hlab : ds.map Prod.fst = vs.map (fun l => x.pascal l.name.name) := mapRes_fst hds (fun l _ p hp => (variant_types hp).1)
    refine ⟨typeIdent_legal hkw g.ident, ?_, ?_, ⟨hid ▸ hpt, fun _ _ h => by rw [hd] at h; cases h⟩, ?_, ?_, ?_, ?_, ?_⟩
    · rw [hd]
      intro i hi
      obtain ⟨p, hp, rfl⟩ := List.mem_map.1 hi
      obtain ⟨l, hl, hlp⟩ := (mapRes_ok hds).2 p hp
      obtain ⟨he, hok, _⟩ := variant_types hlp
      exact .inl ⟨hok, he ▸ (hvs l hl).1⟩
    · rw [hd]; show (ds.map Prod.fst).Nodup; rw [hlab]; exact hnd
    · rw [hd]
      intro ty hty i hi
      obtain ⟨p, hp, rfl⟩ := List.mem_map.1 hty
      obtain ⟨l, hl, hlp⟩ := (mapRes_ok hds).2 p hp
      obtain ⟨_, _, ty, hty, he⟩ := variant_types hlp
      refine ty_names G hr (hmem l hl) hty i ?_
      rw [he] at hi
      revert hi
      cases l.repeats <;> exact id
    · rw [hd]; trivial
    · rw [hd, hrd]
      intro q hq
      obtain ⟨l, hl, hlq⟩ := (mapRes_ok hrs).2 q hq
      obtain ⟨p, hp, hlp⟩ := (mapRes_ok hds).1 l hl
      obtain ⟨he, _, ty, hty, he2⟩ := variant_types hlp
      obtain ⟨qn, v, hpi, _, hv, hk⟩ := variantRead_ok hlq
      have hq1 : q.1 = p.1 := (formatIdent_ok hpi).1.trans he.symm
      refine ⟨p.2, by rw [hq1]; exact hp, ?_⟩
      have hval := valRead_typed G hr (hmem l hl) hty hv
      rw [he2]
      generalize q.2 = q2 at hk
      cases hk with
      | virt h1 hm hi =>
        have h2 : l.repeats = false := by
          cases h : l.repeats with
          | false => rfl
          | true => exact absurd ⟨h1, h⟩ (hvs l hl).2
        rw [h2, if_neg (by decide)]
        refine ⟨?_, hval⟩
        have hd := G.defined hr (hm ▸ hmem l hl)
        obtain ⟨r', hr'⟩ := Option.isSome_iff_exists.1 hd
        obtain ⟨t', _, _, hg⟩ := G.find hr'
        have := pascal_type hx (B.types _ r' hr').1 hi hg.ident
        exact G.declares hd (this ▸ hg.ident)
      | vec h1 h2 => rw [h2, if_pos rfl]; exact ⟨ty, hval, rfl⟩
      | single h1 h2 => rw [h2, if_neg (by decide)]; exact hval
    · simp only [rootLook, Res.bind_eq_ok] at hl
      obtain ⟨ks, hks, hl⟩ := hl
      rw [← Res.ok.inj hl]
      exact check_declared hx B G hr _ hmem hks
    · rw [hd, hw]
      have arm : ∀ w ∈ ws, ∃ l ∈ vs, variantWrite x S l = .ok w := fun w hw => (mapRes_ok hws).2 w hw
      have inv : ∀ l w, variantWrite x S l = .ok w → w.variant = x.pascal l.name.name ∧ contentWrite x S l.definition.content = .ok w.inner ∧
          w.vec = l.repeats ∧ (w.tags = true → ∃ t, l.definition.content = .literal t) := by
        intro l w h
        simp only [variantWrite, Leaf.isVec_eq, Res.bind_eq_ok] at h
        obtain ⟨v, hv, inner, hin, h⟩ := h
        cases h
        refine ⟨(formatIdent_ok hv).1, hin, rfl, fun ht => ?_⟩
        cases hc : l.definition.content with
        | literal t => exact ⟨t, rfl⟩
        | named m => rw [hc] at ht; cases ht
        | fixed s => rw [hc] at ht; cases ht
      refine ⟨?_, ?_, ?_⟩
      · rintro rfl
        exact hne (List.map_eq_nil_iff.1 hlab.symm)
      · intro p hp
        obtain ⟨l, hl, hlp⟩ := (mapRes_ok hds).2 p hp
        obtain ⟨w, hw, hlw⟩ := (mapRes_ok hws).1 l hl
        exact ⟨w, hw, (inv l w hlw).1.trans (variant_types hlp).1.symm⟩
      · intro w hw
        obtain ⟨l, hl, hlw⟩ := arm w hw
        obtain ⟨p, hp, hlp⟩ := (mapRes_ok hds).1 l hl
        obtain ⟨he, _, ty, hty, he2⟩ := variant_types hlp
        obtain ⟨h1, h2, h3, h4⟩ := inv l w hlw
        refine ⟨⟨ty, ?_, valWrite_typed G hr (hmem l hl) hty h2⟩, fun htag hmv => ?_⟩
        · rw [h1, h3, ← he, ← he2]; exact hp
        · obtain ⟨m, hm⟩ := write_moves h2 hmv
          obtain ⟨t, hc⟩ := h4 htag
          rw [hc] at hm; cases hm

/-- What is inside in the generated types is inside in the schema. -/
theorem stores_holds (G : Generated x S P) {n : Name} {i j : Str} (hn : (S.get n).isSome = true) (hi : typeIdent x n = .ok i) (h : Stores P i j) :
    ∃ m, (S.get m).isSome = true ∧ typeIdent x m = .ok j ∧ HoldsA S n m := by
  obtain ⟨t, ht, hti, ty, hty, hj⟩ := h
  obtain ⟨r, t', hr, hf, _, g⟩ := G.find' hi hn
  have := findType_of_mem G.nodup ht
  rw [hti, hf] at this
  cases this
  have key : ∀ c ty, c ∈ r.inlineContents → c ∈ r.contents → contentTy x S c = .ok ty → j ∈ ty.inline →
      ∃ m, (S.get m).isSome = true ∧ typeIdent x m = .ok j ∧ HoldsA S n m := by
    intro c ty hc hc' hty hj
    rcases contentTy_ok hty with ⟨t, _, rfl⟩ | ⟨s, _, rfl⟩ | ⟨m, k, hm, hk, rfl⟩
    · cases hj
    · cases hj
    · rw [List.mem_singleton.1 hj]
      exact ⟨m, G.closedAt hr hc' hm, hk, r, hr, c, hc, hm⟩
  have hd := g.decl
  cases r with
  | leaf d =>
    simp only [rootDecl, Res.bind_eq_ok] at hd
    obtain ⟨ty', hty', hd⟩ := hd
    rw [← Res.ok.inj hd] at hty
    rw [List.mem_singleton.1 hty] at hj
    exact key d.content ty' (List.mem_singleton.2 rfl) (List.mem_singleton.2 rfl) hty' hj
  | enum vs =>
    simp only [rootDecl, Res.bind_eq_ok] at hd
    obtain ⟨_, _, _, _, hd⟩ := hd
    rw [← Res.ok.inj hd] at hty
    cases hty
  | element e =>
    simp only [rootDecl, Res.bind_eq_ok] at hd
    obtain ⟨cs, hcs, as, has, hd⟩ := hd
    rw [← Res.ok.inj hd] at hty
    obtain ⟨p, hp, rfl⟩ := List.mem_map.1 hty
    rcases List.mem_append.1 hp with hp | hp
    · cases hec : e.content with
      | none => rw [hec] at hcs; cases hcs; cases hp
      | some ec =>
        rw [hec] at hcs
        cases ec with
        | leaf m d =>
          simp only [contentDecl, Res.bind_eq_ok] at hcs
          obtain ⟨f, _, ty', hty', hcs⟩ := hcs
          cases hcs
          rw [List.mem_singleton.1 hp] at hj
          refine key d.content ty' (List.mem_append_left _ ?_) (List.mem_append_left _ ?_) hty' hj <;> rw [hec] <;> exact List.mem_singleton.2 rfl
        | leaves ls =>
          obtain ⟨l, hl, hlp⟩ := (mapRes_ok hcs).2 p hp
          obtain ⟨_, ty', hty', he⟩ := leaf_field hlp
          have hv : l.repeats = false := by
            cases h : l.repeats with
            | false => rfl
            | true =>
              rw [he, h] at hj
              revert hj
              cases l.mayMiss <;> exact fun h => nomatch h
          have hj' : j ∈ ty'.inline := by
            rw [he, hv] at hj
            revert hj
            cases l.mayMiss <;> exact id
          refine key l.definition.content ty' (List.mem_append_left _ ?_) (List.mem_append_left _ ?_) hty' hj' <;> rw [hec]
          · exact List.mem_map.2 ⟨l, List.mem_filter.2 ⟨hl, by rw [hv]; rfl⟩, rfl⟩
          · exact List.mem_map.2 ⟨l, hl, rfl⟩
    · obtain ⟨a, ha, hap⟩ := (mapRes_ok has).2 p hp
      obtain ⟨_, ty', hty', he⟩ := attr_types hap
      have hj' : j ∈ ty'.inline := by
        rw [he] at hj
        revert hj
        cases a.isOptional <;> exact id
      exact key a.content ty' (List.mem_append_right _ (List.mem_map.2 ⟨a, ha, rfl⟩)) (List.mem_append_right _ (List.mem_map.2 ⟨a, ha, rfl⟩)) hty' hj'
  | choice vs b dd =>
    simp only [rootDecl, Res.bind_eq_ok] at hd
    obtain ⟨ds, hds, hd⟩ := hd
    rw [← Res.ok.inj hd] at hty
    obtain ⟨p, hp, rfl⟩ := List.mem_map.1 hty
    obtain ⟨l, hl, hlp⟩ := (mapRes_ok hds).2 p hp
    obtain ⟨_, _, ty', hty', he⟩ := variant_types hlp
    have hv : l.repeats = false := by
      cases h : l.repeats with
      | false => rfl
      | true => rw [he, h] at hj; cases hj
    have hj' : j ∈ ty'.inline := by rw [he, hv] at hj; exact hj
    exact key l.definition.content ty' (List.mem_map.2 ⟨l, List.mem_filter.2 ⟨hl, by rw [hv]; rfl⟩, rfl⟩) (List.mem_map.2 ⟨l, hl, rfl⟩) hty' hj'

theorem generated_sized (B : Buildable x S) (G : Generated x S P) : WellFounded (fun j i => Stores P i j) := by
  have key : ∀ n, (S.get n).isSome = true → ∀ i, typeIdent x n = .ok i → Acc (fun j i => Stores P i j) i := by
    intro n
    induction B.sized.apply n with
    | intro n _ ih =>
      intro hn i hi
      refine ⟨_, fun j hj => ?_⟩
      obtain ⟨m, hm, hmj, hh⟩ := stores_holds G hn hi hj
      exact ih m hh hm j hmj
  refine ⟨fun i => ⟨_, fun j hj => ?_⟩⟩
  obtain ⟨t, ht, hti, _⟩ := id hj
  obtain ⟨n, hn, hgen⟩ := (mapRes_ok G.gen).2 t ht
  obtain ⟨r, hr, g⟩ := generateElement_ok hgen
  obtain ⟨m, hm, hmj, _⟩ := stores_holds G (by rw [hr]; rfl) (hti ▸ g.ident) hj
  exact key m hm j hmj

theorem Root.allContents_eq (r : Root) : r.allContents = r.contents := by
  cases r <;> rfl

theorem gen_root {n : Name} {r : Root} (hgen : generateAll x S = .ok P) (hr : S.get n = some r) : ∃ t ∈ P, GenOf x S n r t := by
  obtain ⟨t, ht, hg⟩ := (mapRes_ok hgen).1 n (List.mem_map.2 ⟨_, alookup_mem hr, rfl⟩)
  obtain ⟨r', hr', hg'⟩ := generateElement_ok hg
  rw [hr] at hr'; cases hr'
  exact ⟨t, ht, hg'⟩

/-- The identifiers of the types are those of the names, in order. -/
theorem gen_idents (as : List Name) {P : List TypeDef} (h : mapRes (generateElement x S) as = .ok P) :
    P.map TypeDef.ident = as.map (fun n => fieldOf (x.pascal n.name)) ∧ ∀ n ∈ as, x.identOk (x.pascal n.name) = true := by
  induction as generalizing P with
  | nil => simp [mapRes] at h; subst h; exact ⟨rfl, fun n hn => nomatch hn⟩
  | cons a as ih =>
    obtain ⟨t, P', ht, hP', rfl⟩ := mapRes_cons_ok.1 h
    obtain ⟨r, hr, g⟩ := generateElement_ok ht
    obtain ⟨h1, h2⟩ := ih hP'
    obtain ⟨hok, he⟩ := escapeIdent_ok g.ident
    refine ⟨?_, fun n hn => ?_⟩
    · rw [List.map_cons, List.map_cons, h1]
      congr 1
      unfold fieldOf
      rcases he with ⟨he, h⟩ | ⟨he, h⟩ <;> simp only [h, he, if_true, if_false]
    · rcases List.mem_cons.1 hn with rfl | hn
      · exact hok
      · exact h2 n hn

theorem get_isSome_of_mem {n : Name} (h : n ∈ S.elements.map Prod.fst) : (S.get n).isSome = true := by
  cases hg : S.get n with
  | some _ => rfl
  | none => exact absurd h ((alookup_eq_none_iff S.elements n).1 hg)

theorem Buildable.generated (hx : x.NameLaws) (B : Buildable x S) (hk : (S.elements.map Prod.fst).Nodup) (hgen : generateAll x S = .ok P) :
    Generated x S P := by
  obtain ⟨h1, h2⟩ := gen_idents _ hgen
  refine ⟨hgen, ?_, fun p hp c hc m hm => ?_⟩
  · rw [h1]
    refine nodup_map_on hk (fun n hn m hm h => ?_)
    exact B.unique n m (get_isSome_of_mem hn) (get_isSome_of_mem hm) (fieldOf_inj hx (h2 n hn) (h2 m hm) h)
  · refine B.closed p.1 p.2 (alookup_of_mem hk hp) c ?_ m hm
    rw [Root.allContents_eq]; exact hc

/-- **C58**, for `Buildable` schemas: the generated module compiles. -/
theorem C58_compiles_partial (hx : x.NameLaws) (hk : (S.elements.map Prod.fst).Nodup) (hgen : generateAll x S = .ok P) (B : Buildable x S) :
    Compiles x P := by
  have G := B.generated hx hk hgen
  exact ⟨G.nodup, fun _ ht => generated_typed hx B G ht, generated_sized B G⟩

/-! ## The conditions are necessary -/

theorem declares_defined (hx : x.NameLaws) (hgen : generateAll x S = .ok P) {n : Name} {i : Str} (hi : typeIdent x n = .ok i) (h : DeclaresType P i) :
    ∃ m r, S.get m = some r ∧ x.pascal m.name = x.pascal n.name := by
  obtain ⟨t, ht, rfl⟩ := h
  obtain ⟨m, hm, hg⟩ := (mapRes_ok hgen).2 t ht
  obtain ⟨r, hr, g⟩ := generateElement_ok hg
  exact ⟨m, r, hr, escapeIdent_inj (fun s hs => (hx.chars s hs).1) g.ident hi⟩

/-- The type of each content is mentioned in the declaration. -/
theorem content_mentioned {n : Name} {r : Root} {t : TypeDef} (g : GenOf x S n r t) {c : LeafContent} (hc : c ∈ r.contents) :
    ∃ ty, contentTy x S c = .ok ty ∧ ∃ ty' ∈ t.decl.types, ty'.names = ty.names := by
  have hd := g.decl
  cases r with
  | leaf d =>
    simp only [rootDecl, Res.bind_eq_ok] at hd
    obtain ⟨ty, hty, hd⟩ := hd
    rw [← Res.ok.inj hd]
    rw [List.mem_singleton.1 hc]
    exact ⟨ty, hty, ty, List.mem_singleton.2 rfl, rfl⟩
  | enum vs => cases hc
  | element e =>
    simp only [rootDecl, Res.bind_eq_ok] at hd
    obtain ⟨cs, hcs, as, has, hd⟩ := hd
    rw [← Res.ok.inj hd]
    rcases List.mem_append.1 hc with hc | hc
    · cases hec : e.content with
      | none => rw [hec] at hc; cases hc
      | some ec =>
        rw [hec] at hc hcs
        cases ec with
        | leaf m d =>
          rw [List.mem_singleton.1 hc]
          simp only [contentDecl, Res.bind_eq_ok] at hcs
          obtain ⟨f, _, ty, hty, hcs⟩ := hcs
          cases hcs
          exact ⟨ty, hty, ty, List.mem_map.2 ⟨_, List.mem_append_left _ (List.mem_singleton.2 rfl), rfl⟩, rfl⟩
        | leaves ls =>
          obtain ⟨l, hl, rfl⟩ := List.mem_map.1 hc
          obtain ⟨p, hp, hlp⟩ := (mapRes_ok hcs).1 l hl
          obtain ⟨_, ty, hty, he⟩ := leaf_field hlp
          refine ⟨ty, hty, p.2, List.mem_map.2 ⟨p, List.mem_append_left _ hp, rfl⟩, ?_⟩
          rw [he]
          cases l.mayMiss <;> cases l.repeats <;> rfl
    · obtain ⟨a, ha, rfl⟩ := List.mem_map.1 hc
      obtain ⟨p, hp, hap⟩ := (mapRes_ok has).1 a ha
      obtain ⟨_, ty, hty, he⟩ := attr_types hap
      refine ⟨ty, hty, p.2, List.mem_map.2 ⟨p, List.mem_append_right _ hp, rfl⟩, ?_⟩
      rw [he]
      cases a.isOptional <;> rfl
  | choice vs b dd =>
    simp only [rootDecl, Res.bind_eq_ok] at hd
    obtain ⟨ds, hds, hd⟩ := hd
    rw [← Res.ok.inj hd]
    obtain ⟨l, hl, rfl⟩ := List.mem_map.1 hc
    obtain ⟨p, hp, hlp⟩ := (mapRes_ok hds).1 l hl
    obtain ⟨_, _, ty, hty, he⟩ := variant_types hlp
    refine ⟨ty, hty, p.2, List.mem_map.2 ⟨p, hp, rfl⟩, ?_⟩
    rw [he]
    cases l.repeats <;> rfl

/-- The type of each content that is not in a list is inside. -/
theorem content_inline {n : Name} {r : Root} {t : TypeDef} (g : GenOf x S n r t) {c : LeafContent} (hc : c ∈ r.inlineContents) :
    ∃ ty, contentTy x S c = .ok ty ∧ ∃ ty' ∈ t.decl.types, ty'.inline = ty.inline := by
  have hd := g.decl
  cases r with
  | leaf d =>
    simp only [rootDecl, Res.bind_eq_ok] at hd
    obtain ⟨ty, hty, hd⟩ := hd
    rw [← Res.ok.inj hd]
    rw [List.mem_singleton.1 hc]
    exact ⟨ty, hty, ty, List.mem_singleton.2 rfl, rfl⟩
  | enum vs => cases hc
  | element e =>
    simp only [rootDecl, Res.bind_eq_ok] at hd
    obtain ⟨cs, hcs, as, has, hd⟩ := hd
    rw [← Res.ok.inj hd]
    rcases List.mem_append.1 hc with hc | hc
    · cases hec : e.content with
      | none => rw [hec] at hc; cases hc
      | some ec =>
        rw [hec] at hc hcs
        cases ec with
        | leaf m d =>
          rw [List.mem_singleton.1 hc]
          simp only [contentDecl, Res.bind_eq_ok] at hcs
          obtain ⟨f, _, ty, hty, hcs⟩ := hcs
          cases hcs
          exact ⟨ty, hty, ty, List.mem_map.2 ⟨_, List.mem_append_left _ (List.mem_singleton.2 rfl), rfl⟩, rfl⟩
        | leaves ls =>
          obtain ⟨l, hl, rfl⟩ := List.mem_map.1 hc
          obtain ⟨hl, hv⟩ := List.mem_filter.1 hl
          obtain ⟨p, hp, hlp⟩ := (mapRes_ok hcs).1 l hl
          obtain ⟨_, ty, hty, he⟩ := leaf_field hlp
          refine ⟨ty, hty, p.2, List.mem_map.2 ⟨p, List.mem_append_left _ hp, rfl⟩, ?_⟩
          rw [Bool.not_eq_true'] at hv
          rw [he, hv]
          cases l.mayMiss <;> rfl
    · obtain ⟨a, ha, rfl⟩ := List.mem_map.1 hc
      obtain ⟨p, hp, hap⟩ := (mapRes_ok has).1 a ha
      obtain ⟨_, ty, hty, he⟩ := attr_types hap
      refine ⟨ty, hty, p.2, List.mem_map.2 ⟨p, List.mem_append_right _ hp, rfl⟩, ?_⟩
      rw [he]
      cases a.isOptional <;> rfl
  | choice vs b dd =>
    simp only [rootDecl, Res.bind_eq_ok] at hd
    obtain ⟨ds, hds, hd⟩ := hd
    rw [← Res.ok.inj hd]
    obtain ⟨l, hl, rfl⟩ := List.mem_map.1 hc
    obtain ⟨hl, hv⟩ := List.mem_filter.1 hl
    obtain ⟨p, hp, hlp⟩ := (mapRes_ok hds).1 l hl
    obtain ⟨_, _, ty, hty, he⟩ := variant_types hlp
    refine ⟨ty, hty, p.2, List.mem_map.2 ⟨p, hp, rfl⟩, ?_⟩
    rw [Bool.not_eq_true'] at hv
    rw [he, hv]
    rfl

/-- No reference to an undefined name is, in Pascal case, spelled like a name that is defined. -/
def RefsDistinct (x : Ext) (S : SchemaContext) : Prop :=
  ∀ n r, S.get n = some r → ∀ c ∈ r.allContents, ∀ m, Means S c (.named m) → ∀ k, (S.get k).isSome = true → x.pascal k.name = x.pascal m.name → k = m

theorem contentTy_named {c : LeafContent} {ty : Ty} {m : Name} (hty : contentTy x S c = .ok ty) (hm : Means S c (.named m)) :
    ∃ i, typeIdent x m = .ok i ∧ ty = .named i := by
  rcases contentTy_ok hty with ⟨t, hm', rfl⟩ | ⟨s, hm', rfl⟩ | ⟨m', j, hm', hj, rfl⟩ <;> cases hm.functional hm'
  exact ⟨j, hj, rfl⟩

theorem compiles_closed (hx : x.NameLaws) (hgen : generateAll x S = .ok P) (hd : RefsDistinct x S) (H : Compiles x P) {n : Name} {r : Root}
    (hr : S.get n = some r) {c : LeafContent} (hc : c ∈ r.allContents) {m : Name} (hm : Means S c (.named m)) : (S.get m).isSome = true := by
  obtain ⟨t, ht, g⟩ := gen_root hgen hr
  obtain ⟨ty, hty, ty', hty', he⟩ := content_mentioned g (Root.allContents_eq r ▸ hc)
  obtain ⟨i, hi, rfl⟩ := contentTy_named hty hm
  have hdec := (H.typed t ht).types ty' hty' i (by rw [he]; exact List.mem_singleton.2 rfl)
  obtain ⟨k, r', hk, hp⟩ := declares_defined hx hgen hi hdec
  have := hd n r hr c hc m hm k (by rw [hk]; rfl) hp
  rw [← this, hk]
  rfl

theorem nodup_of_image {α β : Type} {f : α → β} {l : List α} (h : (l.map f).Nodup) : l.Nodup := by
  induction l with
  | nil => exact List.nodup_nil
  | cons a l ih =>
    simp only [List.map_cons, List.nodup_cons] at h ⊢
    exact ⟨fun hm => h.1 (List.mem_map.2 ⟨a, hm, rfl⟩), ih h.2⟩

theorem nodup_image_inj {α β : Type} {f : α → β} {l : List α} (h : (l.map f).Nodup) {a b : α} (ha : a ∈ l) (hb : b ∈ l) (e : f a = f b) : a = b := by
  induction l with
  | nil => cases ha
  | cons c l ih =>
    simp only [List.map_cons, List.nodup_cons] at h
    rcases List.mem_cons.1 ha with rfl | ha' <;> rcases List.mem_cons.1 hb with rfl | hb'
    · rfl
    · exact absurd (e ▸ List.mem_map.2 ⟨b, hb', rfl⟩) h.1
    · exact absurd (e ▸ List.mem_map.2 ⟨a, ha', rfl⟩) h.1
    · exact ih h.2 ha' hb'

/-- A keyword that is a legal identifier as it stands is not one. -/
theorem legal_not_keyword (hx : x.NameLaws) {s : Str} (h : LegalIdent x s) (hok : x.identOk s = true) : s ∉ rustKeywords := by
  rcases h with ⟨_, h⟩ | ⟨w, rfl, _⟩
  · exact h
  · exact absurd (by simp) (hx.chars _ hok).1

theorem missed_keywords : ∀ s ∈ missedKeywords, s ∈ rustKeywords ∧ s ∉ escapedWords := by decide +kernel

theorem fieldIdent_words (hx : x.NameLaws) {n : Name} {i : Str} (hi : fieldIdent x n = .ok i) (h : LegalIdent x i) : x.snake n.name ∉ missedKeywords := by
  intro hm
  obtain ⟨h1, h2⟩ := missed_keywords _ hm
  obtain ⟨he, hok⟩ := fieldIdent_eq hi
  rw [he, fieldOf, if_neg h2] at h
  exact legal_not_keyword hx h hok h1

theorem attrsHave_mem (as : List Attribute) {ds : List (Str × Ty)} {rs : List AttrRead}
    (hrs : mapRes (attrRead x S) as = .ok rs) (h : AttrsHave P rs ds) : ∀ a ∈ as, ∃ q ∈ rs, attrRead x S a = .ok q ∧ ∃ ty, q.Has P ty := by
  induction as generalizing ds rs with
  | nil => intro a ha; cases ha
  | cons a as ih =>
    obtain ⟨q, rs', hq, hrs', rfl⟩ := mapRes_cons_ok.1 hrs
    cases h with
    | cons h hs =>
      intro b hb
      rcases List.mem_cons.1 hb with rfl | hb
      · exact ⟨q, List.mem_cons_self .., hq, _, h⟩
      · obtain ⟨q', hq', h1, h2⟩ := ih hrs' hs b hb
        exact ⟨q', List.mem_cons_of_mem _ hq', h1, h2⟩

theorem ty_ne_vec {c : LeafContent} {ty : Ty} (h : contentTy x S c = .ok ty) : ∀ u, ty ≠ .vec u := by
  rcases contentTy_ok h with ⟨t, _, rfl⟩ | ⟨s, _, rfl⟩ | ⟨m, j, _, _, rfl⟩ <;> intro u h <;> cases h

theorem valRead_has_unique {v : ValRead} {t u : Ty} (h1 : v.Has P t) (h2 : v.Has P u) : t = u := by
  cases v with
  | text l => exact h1.trans h2.symm
  | fixed s => exact h1.trans h2.symm
  | call i => exact h1.2.trans h2.2.symm

theorem valRead_ne_vec {v : ValRead} {t : Ty} (h : v.Has P t) : ∀ u, t ≠ .vec u := by
  intro u e
  subst e
  cases v with
  | text l => cases h
  | fixed s => cases h
  | call i => cases h.2

theorem compiles_buildable (hx : x.NameLaws) (hk : (S.elements.map Prod.fst).Nodup) (hgen : generateAll x S = .ok P) (hd : RefsDistinct x S)
    (H : Compiles x P) : Buildable x S := by
  have hclosed : ∀ n r, S.get n = some r → ∀ c ∈ r.allContents, ∀ m, Means S c (.named m) → (S.get m).isSome = true :=
    fun n r hr c hc m hm => compiles_closed hx hgen hd H hr hc hm
  have G : Generated x S P := ⟨hgen, H.unique, fun p hp c hc m hm =>
    hclosed p.1 p.2 (alookup_of_mem hk hp) c (by rw [Root.allContents_eq]; exact hc) m hm⟩
  have hunique : ∀ n m, (S.get n).isSome = true → (S.get m).isSome = true → x.pascal n.name = x.pascal m.name → n = m := by
    intro n m hn hm he
    obtain ⟨h1, _⟩ := gen_idents _ hgen
    have hnd := H.unique
    rw [h1] at hnd
    have mem : ∀ n, (S.get n).isSome = true → n ∈ S.elements.map Prod.fst := by
      intro n hn
      obtain ⟨r, hr⟩ := Option.isSome_iff_exists.1 hn
      exact List.mem_map.2 ⟨_, alookup_mem hr, rfl⟩
    exact nodup_image_inj hnd (mem n hn) (mem m hm) (by simp only [he])
  have hident : ∀ n r, S.get n = some r → x.pascal n.name ∉ rustKeywords ∧ ∃ t ∈ P, GenOf x S n r t ∧ t.ident = x.pascal n.name := by
    intro n r hr
    obtain ⟨t, ht, g⟩ := gen_root hgen hr
    have hesc := g.ident
    have hkw : x.pascal n.name ∉ rustKeywords := by
      intro hm
      have hs := hx.pascal _ hm
      unfold typeIdent at hesc
      rw [hs] at hesc
      unfold escapeIdent at hesc
      rw [if_pos (by decide), if_pos (by rw [show noRawWords.contains c!"Self" = true by decide]; rfl)] at hesc
      cases hesc
    refine ⟨hkw, t, ht, g, ?_⟩
    obtain ⟨hok, ⟨he, h⟩ | ⟨_, h⟩⟩ := escapeIdent_ok hesc
    · exact absurd (escaped_keyword hx hok he) hkw
    · exact h
  refine ⟨hunique, hclosed, ?_, ?_, ?_, ?_, ?_, ?_, ?_⟩
  · intro n r hr
    obtain ⟨hkw, t, ht, _, hid⟩ := hident n r hr
    exact ⟨hkw, hid ▸ (H.typed t ht).shadow.1⟩
  · intro n d hr
    obtain ⟨_, t, ht, g, hid⟩ := hident n _ hr
    have hdl := g.decl
    simp only [rootDecl, Res.bind_eq_ok] at hdl
    obtain ⟨ty, _, hdl⟩ := hdl
    exact hid ▸ (H.typed t ht).shadow.2 _ _ (Res.ok.inj hdl).symm
  · intro n e hr
    obtain ⟨_, t, ht, g, hid⟩ := hident n _ hr
    have hdl := g.decl
    simp only [rootDecl, Res.bind_eq_ok] at hdl
    obtain ⟨cs, hcs, as, has, hdl⟩ := hdl
    have hdl := (Res.ok.inj hdl).symm
    obtain ⟨hlab, hids⟩ := struct_labels hcs has
    have hnd := (H.typed t ht).distinct
    have hleg := (H.typed t ht).labels
    rw [hdl] at hnd hleg
    change ((cs ++ as).map Prod.fst).Nodup at hnd
    change ∀ i ∈ (cs ++ as).map Prod.fst, _ at hleg
    rw [hlab] at hnd hleg
    refine ⟨nodup_of_image (f := fieldOf) (by rw [List.map_map]; exact hnd), fun m hm => ?_⟩
    obtain ⟨i, hi⟩ := hids m hm
    refine fieldIdent_words hx hi ?_
    rw [(fieldIdent_eq hi).1]
    exact hleg _ (List.mem_map.2 ⟨m, hm, rfl⟩)
  · intro n e hr a ha
    obtain ⟨_, t, ht, g, hid⟩ := hident n _ hr
    have hdl := g.decl
    simp only [rootDecl, Res.bind_eq_ok] at hdl
    obtain ⟨cs, hcs, as, has, hdl⟩ := hdl
    have hdl := (Res.ok.inj hdl).symm
    have hrd := g.read
    simp only [rootRead, Res.bind_eq_ok] at hrd
    obtain ⟨rc, hrc, ras, hras, hrd⟩ := hrd
    have hrd := (Res.ok.inj hrd).symm
    have hreads := (H.typed t ht).reads
    rw [hdl, hrd] at hreads
    obtain ⟨d1, d2, _, _, hA⟩ := hreads
    obtain ⟨q, _, hq, ty, hty⟩ := attrsHave_mem e.attributes hras hA a ha
    obtain ⟨_, _, _, hin⟩ := attrRead_ok hq
    cases hc : a.content with
    | literal u => trivial
    | fixed s => trivial
    | named m =>
      rcases hin with ⟨u, hc', _⟩ | ⟨s, hc', _⟩ | ⟨m', ty', hc', hty', hin⟩
      · rw [hc] at hc'; cases hc'
      · rw [hc] at hc'; cases hc'
      · obtain ⟨ty0, h0, _⟩ := hty
        rw [hin] at h0
        obtain ⟨_, hfs⟩ := h0
        rw [hc] at hty'
        rcases contentTy_ok hty' with ⟨u, hm', rfl⟩ | ⟨s, hm', rfl⟩ | ⟨k, j, hm', hj, rfl⟩
        · refine ⟨_, hm', .inl ⟨u, rfl, ?_⟩⟩
          rcases hfs with h | ⟨_, _, h, _⟩
          · cases hp : u.prim <;> rw [hp] at h <;> first | rfl | cases h
          · cases h
        · rcases hfs with h | ⟨_, _, h, _⟩ <;> cases h
        · rcases hfs with h | ⟨t', ht', h, hdecl⟩
          · cases h
          · have hdef := hclosed n _ hr a.content (List.mem_append_right _ (List.mem_map.2 ⟨a, ha, rfl⟩)) k (hc ▸ hm')
            obtain ⟨r', t'', hr', hf', hid', g'⟩ := G.find' hj hdef
            have hf := findType_of_mem H.unique ht'
            have hji : j = t'.ident := by cases h; rfl
            rw [← hji, hf'] at hf
            cases hf
            refine ⟨_, hm', .inr ⟨k, ?_⟩⟩
            have hdl' := g'.decl
            cases r' with
            | leaf d => exact absurd hr' (hm'.fst_named d)
            | enum vs => exact ⟨vs, rfl, hr'⟩
            | element e' =>
              simp only [rootDecl, Res.bind_eq_ok] at hdl'
              obtain ⟨_, _, _, _, hdl'⟩ := hdl'
              have hdl' := (Res.ok.inj hdl').symm
              rcases hdecl with ⟨_, _, h⟩ | ⟨_, h⟩ <;> rw [hdl'] at h <;> cases h
            | choice vs b dd =>
              simp only [rootDecl, Res.bind_eq_ok] at hdl'
              obtain ⟨_, _, hdl'⟩ := hdl'
              have hdl' := (Res.ok.inj hdl').symm
              rcases hdecl with ⟨_, _, h⟩ | ⟨_, h⟩ <;> rw [hdl'] at h <;> cases h
  · intro n vs b dd hr
    obtain ⟨_, t, ht, g, hid⟩ := hident n _ hr
    have hdl := g.decl
    simp only [rootDecl, Res.bind_eq_ok] at hdl
    obtain ⟨ds, hds, hdl⟩ := hdl
    have hdl := (Res.ok.inj hdl).symm
    have hrd := g.read
    simp only [rootRead, Res.bind_eq_ok] at hrd
    obtain ⟨rs, hrs, hrd⟩ := hrd
    have hrd := (Res.ok.inj hrd).symm
    have hw := g.write
    simp only [rootWrite, Res.bind_eq_ok] at hw
    obtain ⟨ws, hws, hw⟩ := hw
    have hw := (Res.ok.inj hw).symm
    have hlab : ds.map Prod.fst = vs.map (fun l => x.pascal l.name.name) := mapRes_fst hds (fun l _ p hp => (variant_types hp).1)
    have hnd := (H.typed t ht).distinct
    have hleg := (H.typed t ht).labels
    have hreads := (H.typed t ht).reads
    have hwrites := (H.typed t ht).writes
    rw [hdl] at hnd hleg
    rw [hdl, hrd] at hreads
    rw [hdl, hw] at hwrites
    change (ds.map Prod.fst).Nodup at hnd
    change ∀ i ∈ ds.map Prod.fst, _ at hleg
    refine ⟨?_, hlab ▸ hnd, fun l hl => ⟨?_, ?_⟩⟩
    · rintro rfl
      exact hwrites.1 (List.map_eq_nil_iff.1 hlab)
    · obtain ⟨p, hp, hlp⟩ := (mapRes_ok hds).1 l hl
      obtain ⟨he, hok, _⟩ := variant_types hlp
      rw [← he]
      exact legal_not_keyword hx (hleg _ (List.mem_map.2 ⟨p, hp, rfl⟩)) hok
    · rintro ⟨h1, h2⟩
      obtain ⟨p, hp, hlp⟩ := (mapRes_ok hds).1 l hl
      obtain ⟨he, hok, ty, hty, he2⟩ := variant_types hlp
      obtain ⟨q, hq, hlq⟩ := (mapRes_ok hrs).1 l hl
      obtain ⟨ty', hmem, hhas⟩ := hreads q hq
      obtain ⟨qn, v, hpi, _, hv, hkk⟩ := variantRead_ok hlq
      have hq1 : q.1 = p.1 := (formatIdent_ok hpi).1.trans he.symm
      have : ty' = p.2 := by
        have := nodup_image_inj hnd hmem hp hq1
        rw [← this]
      rw [he2, h2, if_pos rfl] at this
      subst this
      generalize q.2 = q2 at hkk hhas
      cases hkk with
      | virt _ hm hi => exact valRead_ne_vec hhas.2 _ rfl
      | vec h1' _ => rw [h1] at h1'; cases h1'
      | single h1' _ => rw [h1] at h1'; cases h1'
  · intro n vs hr
    obtain ⟨_, t, ht, g, hid⟩ := hident n _ hr
    have hdl := g.decl
    simp only [rootDecl, Res.bind_eq_ok] at hdl
    obtain ⟨tab, htab, us, hus, hdl⟩ := hdl
    have hdl := (Res.ok.inj hdl).symm
    have hw := (Res.ok.inj g.write).symm
    have hleg := (H.typed t ht).labels
    have hwrites := (H.typed t ht).writes
    rw [hdl] at hleg
    rw [hdl, hw] at hwrites
    obtain ⟨tab', htab', hsnd, _⟩ := C25_variants (x := x) vs
    rw [htab] at htab'; cases htab'
    refine ⟨?_, fun tab' htab' p hp => ?_⟩
    · rintro rfl
      have : tab = [] := List.map_eq_nil_iff.1 hsnd
      rw [this] at hus
      exact hwrites (Res.ok.inj hus).symm
    · rw [htab] at htab'; cases htab'
      obtain ⟨q, hq, hpq⟩ := (mapRes_ok hus).1 p hp
      obtain ⟨v, hv, hpq⟩ := Res.bind_eq_ok.1 hpq
      obtain ⟨hvp, hok⟩ := formatIdent_ok hv
      have hpq := (Res.ok.inj hpq).symm
      refine legal_not_keyword hx (hleg p.1 (List.mem_map.2 ⟨q, hq, ?_⟩)) hok
      rw [hpq]
      exact hvp
  · have key : ∀ i, Acc (fun j i => Stores P i j) i → ∀ n, (S.get n).isSome = true → typeIdent x n = .ok i → Acc (fun m n => HoldsA S n m) n := by
      intro i hi
      induction hi with
      | intro i _ ih =>
        intro n hn hni
        refine ⟨_, fun m hm => ?_⟩
        obtain ⟨r, hr, c, hc, hmean⟩ := hm
        obtain ⟨t, ht, g⟩ := gen_root hgen hr
        obtain ⟨ty, hty, ty', hty', he⟩ := content_inline g hc
        obtain ⟨j, hj, rfl⟩ := contentTy_named hty hmean
        have hti := g.ident
        rw [hni] at hti
        have hcc : c ∈ r.allContents := by
          cases r with
          | leaf d => exact hc
          | enum vs => exact hc
          | element e =>
            rcases List.mem_append.1 hc with h | h
            · refine List.mem_append_left _ ?_
              cases hec : e.content with
              | none => rw [hec] at h; cases h
              | some ec =>
                rw [hec] at h
                cases ec with
                | leaf _ _ => exact h
                | leaves ls =>
                  obtain ⟨l, hl, rfl⟩ := List.mem_map.1 h
                  exact List.mem_map.2 ⟨l, (List.mem_filter.1 hl).1, rfl⟩
            · exact List.mem_append_right _ h
          | choice vs b dd =>
            obtain ⟨l, hl, rfl⟩ := List.mem_map.1 hc
            exact List.mem_map.2 ⟨l, (List.mem_filter.1 hl).1, rfl⟩
        refine ih j ⟨t, ht, (Res.ok.inj hti).symm, ty', hty', ?_⟩ m (hclosed n r hr c hcc m hmean) hj
        rw [he]
        exact List.mem_singleton.2 rfl
    refine ⟨fun n => ?_⟩
    cases hn : S.get n with
    | none =>
      refine ⟨_, fun m hm => ?_⟩
      obtain ⟨r, hr, _⟩ := hm
      rw [hn] at hr; cases hr
    | some r =>
      obtain ⟨t, ht, g⟩ := gen_root hgen hn
      exact key t.ident (H.sized.apply _) n (by rw [hn]; rfl) g.ident

/-- **C58**, exactly: when generation succeeds, the module compiles if and only if the schema is `Buildable` (provided that no reference to
an undefined name is spelled like a defined one).

Missing: schemas that are not `Buildable`, of which `Verif/Props/CompilesSample.lean` has examples. -/
theorem C58_exact_partial (hx : x.NameLaws) (hk : (S.elements.map Prod.fst).Nodup) (hgen : generateAll x S = .ok P) (hd : RefsDistinct x S) :
    Compiles x P ↔ Buildable x S :=
  ⟨compiles_buildable hx hk hgen hd, C58_compiles_partial hx hk hgen⟩

end Xsd
