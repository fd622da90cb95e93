import Verif.Lemmas.TreeFiles
import Verif.Lemmas.Validity
import Verif.Props.Compiles
/-!
# Values of the schema of a schema file: attributes and texts
-/
namespace Xsd.Tree
open Xsd.Flat (Typ RefersTo TypeAttr LocalNs SimpleType Lexical attributeNodes Names TypIs DocOK hasText_iff cat_append)

theorem minOf_parsed {c : Nd} {n : Nat} (h : MinOf c n) : parseMinOccurs (c.attr c!"minOccurs") = .ok n := by
  rcases h with ⟨h1, rfl⟩ | ⟨v, h1, h2⟩
  · rw [Option.map_eq_none_iff.1 h1]
    rfl
  · obtain ⟨a, ha, rfl⟩ := Option.map_eq_some_iff.1 h1
    exact (((C34_min_occurs _).2 a ha).1 n).2 h2

theorem maxOf_parsed {c : Nd} {n : MaxOccurs} (h : MaxOf c n) : parseMaxOccurs (c.attr c!"maxOccurs") = .ok n := by
  rcases h with ⟨h1, rfl⟩ | ⟨v, h1, h2⟩
  · rw [Option.map_eq_none_iff.1 h1]
    rfl
  · obtain ⟨a, ha, rfl⟩ := Option.map_eq_some_iff.1 h1
    obtain ⟨hu, hn, _⟩ := (C34_max_occurs _).2 a ha
    rcases h2 with ⟨h2, rfl⟩ | ⟨k, rfl, h2⟩
    · exact hu.2 h2
    · exact (hn k).2 h2

theorem minOf_functional {c : Nd} {m n : Nat} (h : MinOf c m) (h' : MinOf c n) : m = n := Flat.minOf_unique (minOf_parsed h) h'
theorem maxOf_functional {c : Nd} {m n : MaxOccurs} (h : MaxOf c m) (h' : MaxOf c n) : m = n := Flat.maxOf_unique (maxOf_parsed h) h'

/-- The names of a definition make identifiers. -/
def IdentsOK (x : Ext) : Root → Prop
  | .element e => ∀ n ∈ e.fieldNames, ∃ f, fieldIdent x n = .ok f
  | .choice vs _ _ => ∀ l ∈ vs, ∃ i, pascalIdent x l.name = .ok i
  | _ => True

theorem idents_ok {x : Ext} {S : SchemaContext} {P : List TypeDef} (G : Generated x S P) {n : Name} {r : Root} (hr : S.get n = some r) :
    IdentsOK x r := by
  obtain ⟨t, _, _, hg⟩ := G.find hr
  have hd := hg.decl
  cases r with
  | leaf d => trivial
  | enum ns => trivial
  | element e =>
    simp only [rootDecl, Res.bind_eq_ok] at hd
    obtain ⟨cs, hcs, as, has, _⟩ := hd
    exact (struct_labels hcs has).2
  | choice vs b d =>
    simp only [rootDecl, Res.bind_eq_ok] at hd
    obtain ⟨ds, hds, _⟩ := hd
    intro l hl
    obtain ⟨b, _, hb⟩ := (mapRes_ok hds).1 l hl
    simp only [variantDecl, Res.bind_eq_ok] at hb
    obtain ⟨f, hf, _⟩ := hb
    exact ⟨f, hf⟩

/-- The schema has the definitions made of the nodes of the files. -/
structure Parsed (x : Ext) (F : Files) (path : Str) (S : SchemaContext) : Prop where
  tops : ∀ q d c, Top F path q d c → ∃ n r, Names S.namespaces n q ∧ S.get n = some r ∧ RootFor F path S.namespaces S.get d c r
  inv : S.namespaces.Inv
  idents : ∀ n r, S.get n = some r → IdentsOK x r
  nodes : ∀ q d c, Top F path q d c → TreeOK F path d c

section
variable {x : Ext} {F : Files} {path : Str} {S : SchemaContext} (A : Parsed x F path S)
include A

theorem Parsed.top {q : QName} {d : XDoc} {c : Nd} (ht : Top F path q d c) {n : Name} (hn : Names S.namespaces n q) :
    ∃ r, S.get n = some r ∧ RootFor F path S.namespaces S.get d c r := by
  obtain ⟨n', r, hn', hr, hR⟩ := A.tops q d c ht
  cases hn.same hn'
  exact ⟨r, hr, hR⟩

end

/-! ## Simple types -/

section
variable {x : Ext} {F : Files} {path : Str} {t : Namespaces} {G : Name → Option Root} {d : XDoc}

/-- What is made of a simple type. -/
inductive SimpleFor (d : XDoc) (nd : Nd) : Root → Prop where
  | text {l rs docs} (h : SimpleType d nd (.text l)) (hu : ∀ D, SimpleType d nd D → D = .text l) : SimpleFor d nd (.leaf ⟨.literal l, rs, docs⟩)
  | enumeration {vs} (h : SimpleType d nd (.enumeration vs)) (hu : ∀ D, SimpleType d nd D → D = .enumeration vs) :
      SimpleFor d nd (.enum (vs.map (fun v => ⟨v, .none⟩)))

theorem RootFor.simple {nd : Nd} {r : Root} (h : RootFor F path t G d nd r) (hn : nd.name = c!"simpleType") : SimpleFor d nd r := by
  cases h with
  | typed hn' => rw [hn] at hn'; exact absurd hn' (by decide)
  | inline hn' => rw [hn] at hn'; exact absurd hn' (by decide)
  | text _ h hu => exact .text h hu
  | enumeration _ h hu => exact .enumeration h hu
  | complex hn' => rw [hn] at hn'; exact absurd hn' (by decide)

theorem enum_table (x : Ext) (vs : List Str) : ∃ tab, escapeEnumNames x (vs.map (fun v => (⟨v, .none⟩ : Name))) = .ok tab ∧
    (∀ s, s ∈ vs → ∃ vn, (vn, s) ∈ tab) ∧ ∀ vn s, (vn, s) ∈ tab → s ∈ vs := by
  obtain ⟨tab, h1, h2, _, _⟩ := C25_variants (x := x) (vs.map (fun v => (⟨v, .none⟩ : Name)))
  rw [List.map_map] at h2
  have h3 : (Name.name ∘ fun v => (⟨v, .none⟩ : Name)) = id := rfl
  rw [h3, List.map_id] at h2
  refine ⟨tab, h1, fun s hs => ?_, fun vn s hs => ?_⟩
  · rw [← h2] at hs
    obtain ⟨⟨vn, s'⟩, hp, rfl⟩ := List.mem_map.1 hs
    exact ⟨vn, hp⟩
  · rw [← h2]
    exact List.mem_map_of_mem (f := Prod.snd) hs

theorem SimpleFor.lexical {nd : Nd} {l : LiteralType} {rs docs} (h : SimpleFor d nd (.leaf ⟨.literal l, rs, docs⟩)) {s : Str} :
    SimpleValue x d nd s ↔ Lexical x l s := by
  cases h with
  | text h hu =>
    constructor
    · rintro (⟨h', hs⟩ | ⟨h', hs⟩)
      · cases hu _ h'; exact hs
      · cases hu _ h'
    · exact .text h

theorem SimpleFor.member {nd : Nd} {r : Root} (h : SimpleFor d nd r) {vs : List Str} (hr : r = .enum (vs.map (fun v => ⟨v, .none⟩))) {s : Str} :
    SimpleValue x d nd s ↔ s ∈ vs := by
  cases h with
  | text h hu => cases hr
  | @enumeration ws h hu =>
    injection hr with hr
    have : ws = vs := (List.map_inj_right (fun a b hab => by injection hab)).1 hr
    subst this
    constructor
    · rintro (⟨h', hs⟩ | ⟨h', hs⟩)
      · cases hu _ h'
      · cases hu _ h'; exact hs
    · exact .enumeration h

end

/-! ## Attributes -/

section
variable {x : Ext} {F : Files} {path : Str} {S : SchemaContext} (A : Parsed x F path S) {d : XDoc} {m : Mode}
include A

omit A in
/-- The text of an attribute with an enumeration. -/
theorem str_enum {n : Name} {vs : List Str} (hg : S.get n = some (.enum (vs.map (fun v => ⟨v, .none⟩)))) {s : Str} :
    (∃ v, RStr x m S (.named n) s v) ↔ s ∈ vs := by
  obtain ⟨tab, h1, h2, h3⟩ := enum_table x vs
  constructor
  · rintro ⟨v, c', hm, hc⟩
    cases hm with
    | alias hg' _ => rw [hg] at hg'; cases hg'
    | name hno =>
      obtain ⟨names, tab', vn, h4, h5, h6, _⟩ := hc
      rw [hg] at h4
      cases h4
      rw [h1] at h5
      cases h5
      exact h3 vn s h6
  · intro hs
    obtain ⟨vn, hvn⟩ := h2 s hs
    exact ⟨.enumv vn, _, .name (by rw [hg]; nofun), _, tab, vn, hg, h1, hvn, rfl⟩

theorem attr_value {nd : Nd} {c : LeafContent} (h : AttrContentFor F path S.namespaces S.get d nd c) {s : Str} :
    AttrValue x F path (!m.strict) d nd s ↔ ∃ v, RStr x m S c s v := by
  cases h with
  | @typed ty _ hs ht hu hc hq =>
    have h0 : AttrValue x F path (!m.strict) d nd s ↔ TypValue x F path (!m.strict) ty s := by
      constructor
      · intro h
        cases h with
        | typed hs' ht' h => cases hu _ ht'; exact h
        | simple hc' hn _ => exact absurd hn (hs _ hc')
      · exact .typed hs ht
    rw [h0]
    cases hc with
    | builtin =>
      constructor
      · intro hs; cases hs with | builtin hs => exact hs
      · exact fun hv => .builtin hv
    | fixed =>
      constructor
      · intro hs
        cases hs with
        | fixed hj => exact ⟨.unit, rfl, fun hs => hj (by rw [hs]; rfl)⟩
      · rintro ⟨v, hv⟩
        exact .fixed fun hs => hv.2 (by simpa using hs)
    | @own q n d0 c0 hn ht0 hc0 =>
      obtain ⟨d1, c1, ht1, hn1, hstr⟩ := hq q rfl
      obtain ⟨r, hr, hR⟩ := A.top ht1 hn
      have hS := hR.simple hn1
      have hall : ∀ {d2 c2}, Top F path q d2 c2 → c2.name = c!"simpleType" → SimpleFor d2 c2 r := by
        intro d2 c2 ht2 hn2
        obtain ⟨r', hr', hR'⟩ := A.top ht2 hn
        rw [hr] at hr'
        cases hr'
        exact hR'.simple hn2
      clear hR
      cases hS with
      | @text l rs docs h hu' =>
        have hp := hstr l h
        constructor
        · intro _
          exact ⟨.str s, _, .alias hr (.literal _), hp, rfl⟩
        · intro _
          exact .own ht1 hn1 (.text h ⟨.str s, by rw [hp]; rfl⟩)
      | @enumeration vs h hu' =>
        rw [str_enum hr]
        constructor
        · intro hv
          cases hv with
          | own ht2 hn2 hs2 => exact ((hall ht2 hn2).member rfl).1 hs2
        · exact fun hv => .own ht1 hn1 (.enumeration h hv)
  | @text c l hc hn ho h hu =>
    have h0 : AttrValue x F path (!m.strict) d nd s ↔ SimpleValue x d c s := by
      constructor
      · intro h
        cases h with
        | typed hs' ht' h => exact absurd hn (hs' _ hc)
        | simple hc' hn' h => cases ho _ hc' hn'; exact h
      · exact .simple hc hn
    rw [h0, (SimpleFor.text (rs := []) (docs := none) h hu).lexical]
    exact Iff.rfl
  | @enumeration c vs n hc hn ho h hu hg =>
    have h0 : AttrValue x F path (!m.strict) d nd s ↔ SimpleValue x d c s := by
      constructor
      · intro h
        cases h with
        | typed hs' ht' h => exact absurd hn (hs' _ hc)
        | simple hc' hn' h => cases ho _ hc' hn'; exact h
      · exact .simple hc hn
    rw [h0, (SimpleFor.enumeration h hu).member rfl, str_enum hg]

/-- The attributes of an element. -/
theorem attrs_of_valid {as : List Nd} {bs : List Attribute} (h : AttrsFor F path S.namespaces S.get d as bs)
    (hi : ∀ b ∈ bs, ∃ f, fieldIdent x b.name = .ok f) (e : Elem) (hv : ∀ a ∈ as, ValidAttr x F path (!m.strict) d a e.1) :
    ∃ fs, RAttrs x m S bs fs e := by
  induction h with
  | nil => exact ⟨[], rfl⟩
  | skip hu hs ih => exact ih hi (fun a ha => hv a (.tail _ ha))
  | @cons c cs a as n hn ha hu hr hc hs ih =>
    obtain ⟨fs, hfs⟩ := ih (fun b hb => hi b (.tail _ hb)) (fun a ha => hv a (.tail _ ha))
    obtain ⟨f, hf⟩ := hi a (.head _)
    cases hv c (.head _) with
    | prohibited hu' => exact absurd hu' hu
    | present hn' hp hpv =>
      rw [hn] at hn'
      cases hn'
      obtain ⟨w, hw⟩ := (attr_value A (m := m) hc).1 hpv
      cases hopt : a.isOptional with
      | true =>
        refine ⟨_, f, .some w, fs, rfl, hf, hfs, ?_⟩
        rw [hopt, if_pos rfl]
        exact .inr ⟨_, w, by rw [ha]; exact hp, rfl, hw⟩
      | false =>
        refine ⟨_, f, w, fs, rfl, hf, hfs, ?_⟩
        rw [hopt, if_neg (by decide)]
        exact ⟨_, by rw [ha]; exact hp, hw⟩
    | missing hn' hm hreq =>
      rw [hn] at hn'
      cases hn'
      refine ⟨_, f, .none, fs, rfl, hf, hfs, ?_⟩
      rw [hr, decide_eq_true hreq, if_pos (by rfl)]
      exact .inl ⟨rfl, by rw [ha]; exact hm⟩

theorem valid_of_attrs {as : List Nd} {bs : List Attribute} (h : AttrsFor F path S.namespaces S.get d as bs) (e : Elem)
    {fs : List (Str × Val)} (hv : RAttrs x m S bs fs e) : ∀ a ∈ as, ValidAttr x F path (!m.strict) d a e.1 := by
  induction h generalizing fs with
  | nil => exact nofun
  | skip hu hs ih => exact List.forall_mem_cons.2 ⟨.prohibited hu, ih hv⟩
  | @cons c cs a as n hn ha hu hr hc hs ih =>
    obtain ⟨f', v, fs', rfl, _, h2, h3⟩ := hv
    refine List.forall_mem_cons.2 ⟨?_, ih h2⟩
    split at h3
    · next hopt =>
      rcases h3 with ⟨_, h3⟩ | ⟨s, w, h3, _, h4⟩
      · refine .missing hn (by rw [ha] at h3; exact h3) ?_
        rw [hr] at hopt
        simpa using hopt
      · exact .present hn (by rw [ha] at h3; exact h3) ((attr_value A hc).2 ⟨w, h4⟩)
    · obtain ⟨s, h3, h4⟩ := h3
      exact .present hn (by rw [ha] at h3; exact h3) ((attr_value A hc).2 ⟨v, h4⟩)

end

/-! ## Definitions without the struct around simple types -/

/-- The value of a definition as the value of an element. -/
def RDefn (x : Ext) (m : Mode) (S : SchemaContext) (T : Name → Val → Elem → List Elem → Prop) (r : Root) (v : Val) (e : Elem) (es : List Elem) : Prop :=
  match r with
  | .leaf d => RVal x m S T d.content v e es
  | r => RRoot x m S T r v e es

section
variable {x : Ext} {m : Mode} {S : SchemaContext}

theorem RDefn.mono {T T' : Name → Val → Elem → List Elem → Prop} (hT : ∀ n v e es, T n v e es → T' n v e es) {r : Root} {v : Val} {e : Elem}
    {es : List Elem} (h : RDefn x m S T r v e es) : RDefn x m S T' r v e es := by
  cases r with
  | leaf d => exact RVal.mono hT h
  | enum ns => exact RRoot.mono (S := S) (r := .enum ns) hT h
  | element d => exact RRoot.mono (r := .element d) hT h
  | choice vs b d => exact RRoot.mono (r := .choice vs b d) hT h

/-- The value of a name is that of its definition. -/
theorem named_of_defn {j : Nat} {n : Name} {r : Root} (hr : S.get n = some r) {v : Val} {e : Elem} {es : List Elem}
    (h : RDefn x m S (TRepr x m S j) r v e es) : RVal x m S (TRepr x m S (j + 1)) (.named n) v e es := by
  cases r with
  | leaf d =>
    obtain ⟨c', hm, hc⟩ := RVal.mono (fun n v e es h => TRepr.mono (Nat.le_succ j) h) h
    exact ⟨c', .alias hr hm, hc⟩
  | enum ns => exact ⟨_, .name (by rw [hr]; nofun), _, hr, h⟩
  | element d => exact ⟨_, .name (by rw [hr]; nofun), _, hr, h⟩
  | choice vs b d => exact ⟨_, .name (by rw [hr]; nofun), _, hr, h⟩

theorem defn_of_named {j : Nat} {n : Name} {r : Root} (hr : S.get n = some r) {v : Val} {e : Elem} {es : List Elem}
    (h : RVal x m S (TRepr x m S j) (.named n) v e es) :
    (∃ d, r = .leaf d ∧ RVal x m S (TRepr x m S j) d.content v e es) ∨
    (∀ d, r ≠ .leaf d) ∧ ∃ i, i < j ∧ RRoot x m S (TRepr x m S i) r v e es := by
  obtain ⟨c', hm, hc⟩ := h
  cases hm with
  | alias hg hm =>
    rw [hr] at hg
    cases hg
    exact .inl ⟨_, rfl, _, hm, hc⟩
  | name hno =>
    refine .inr ⟨fun d hd => hno d (by rw [hr, hd]), ?_⟩
    cases j with
    | zero => cases hc
    | succ j =>
      obtain ⟨r', hr', h⟩ := hc
      rw [hr] at hr'
      cases hr'
      exact ⟨j, Nat.lt_succ_self j, h⟩

/-- The value of a definition, as a document. -/
theorem trepr_of_defn {j : Nat} {n : Name} {r : Root} (hr : S.get n = some r) {v : Val} {e : Elem} {es : List Elem}
    (h : RDefn x m S (TRepr x m S j) r v e es) : ∃ v', TRepr x m S (j + 1) n v' e es := by
  cases r with
  | leaf d => exact ⟨.newtype v, _, hr, v, rfl, h⟩
  | enum ns => exact ⟨v, _, hr, h⟩
  | element d => exact ⟨v, _, hr, h⟩
  | choice vs b d => exact ⟨v, _, hr, h⟩

theorem defn_of_trepr {j : Nat} {n : Name} {r : Root} (hr : S.get n = some r) {v : Val} {e : Elem} {es : List Elem}
    (h : TRepr x m S j n v e es) : ∃ i v', RDefn x m S (TRepr x m S i) r v' e es := by
  cases j with
  | zero => cases h
  | succ j =>
    obtain ⟨r', hr', h⟩ := h
    rw [hr] at hr'
    cases hr'
    cases r with
    | leaf d =>
      obtain ⟨w, _, h⟩ := h
      exact ⟨j, w, h⟩
    | enum ns => exact ⟨j, v, h⟩
    | element d => exact ⟨j, v, h⟩
    | choice vs b d => exact ⟨j, v, h⟩

end

end Xsd.Tree
