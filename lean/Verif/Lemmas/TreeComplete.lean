import Verif.Lemmas.TreeSound
/-!
# What is valid represents a value
-/
namespace Xsd.Tree
open Xsd.Flat (Typ RefersTo TypeAttr LocalNs SimpleType Lexical attributeNodes Names TypIs DocOK hasText_iff cat_append ritem_one)

theorem mem_particles {nd c : Nd} (h : c ∈ nd.particles) : c ∈ nd.xsdKids := (List.mem_filter.1 h).1

section
variable {x : Ext} {F : Files} {path : Str} {junk : Bool} {d : XDoc}

theorem one_element {occ : Rule} {p : Nd} {es : List Elem} (h : VOne x F path junk occ d p es) (hn : p.name = c!"element") : es ≠ [] := by
  cases h with
  | ref => exact nofun
  | element => exact nofun
  | sequence hn' => rw [hn] at hn'; exact absurd hn' (by decide)
  | choice hn' => rw [hn] at hn'; exact absurd hn' (by decide)

theorem seq_mem {occ : Rule} {ps : List Nd} {es : List Elem} (h : VSeq x F path junk occ d ps es) {c : Nd} (hc : c ∈ ps) :
    ∃ es', VOcc x F path junk occ d c es' ∧ (es' ≠ [] → es ≠ []) := by
  induction ps generalizing es with
  | nil => cases hc
  | cons p ps ih =>
    cases h with
    | @cons _ _ _ es1 es2 h hs =>
      rcases List.mem_cons.1 hc with rfl | hc
      · exact ⟨es1, h, fun h h' => h (List.append_eq_nil_iff.1 h').1⟩
      · obtain ⟨es', h1, h2⟩ := ih hs hc
        exact ⟨es', h1, fun h h' => h2 h (List.append_eq_nil_iff.1 h').2⟩

end

/-! ## The claims -/

section
variable (x : Ext) (F : Files) (path : Str) (S : SchemaContext)

/-! There is a value, and whatever represents the same value is valid, too. -/

def HasVal (c : LeafContent) (e : Elem) (es : List Elem) (V : Elem → List Elem → Prop) : Prop :=
  ∃ j v, RVal x .exact S (TRepr x .exact S j) c v e es ∧ ∀ j' e' es', RVal x .exact S (TRepr x .exact S j') c v e' es' → V e' es'

def HasLeaves (ls : List Leaf) (e : Elem) (es : List Elem) (V : List Elem → Prop) : Prop :=
  ∃ j fs, RLeaves x .exact S (TRepr x .exact S j) ls fs e es ∧ ∀ j' e' es', RLeaves x .exact S (TRepr x .exact S j') ls fs e' es' → V es'

def HasRoot (r : Root) (e : Elem) (es : List Elem) (V : Elem → List Elem → Prop) : Prop :=
  ∃ j v, RDefn x .exact S (TRepr x .exact S j) r v e es ∧ ∀ j' e' es', RDefn x .exact S (TRepr x .exact S j') r v e' es' → V e' es'

def HasItem (l : Leaf) (e : Elem) (es : List Elem) (V : List Elem → Prop) : Prop :=
  ∃ j v, RItem x .exact S (TRepr x .exact S j) l v e es ∧ ∀ j' e' es', RItem x .exact S (TRepr x .exact S j') l v e' es' → V es'

def HasMany (l : Leaf) (e : Elem) (es : List Elem) (V : List Elem → Prop) : Prop :=
  ∃ j vs, RMany x .exact S (TRepr x .exact S j) l vs e es ∧ ∀ j' e' es', RMany x .exact S (TRepr x .exact S j') l vs e' es' → V es'

def HasOcc (l : Leaf) (e : Elem) (es : List Elem) (V : List Elem → Prop) : Prop :=
  ∃ j v, ROcc x .exact S (TRepr x .exact S j) l v e es ∧ ∀ j' e' es', ROcc x .exact S (TRepr x .exact S j') l v e' es' → V es'

def HasVariant (l : Leaf) (e : Elem) (es : List Elem) (V : List Elem → Prop) : Prop :=
  ∃ j v, RVariant x .exact S (TRepr x .exact S j) l v e es ∧ ∀ j' e' es', RVariant x .exact S (TRepr x .exact S j') l v e' es' → V es'

def ClaimTyp (ty : Typ) (e : Elem) (es : List Elem) : Prop :=
  ∀ c, TypFor F path S.namespaces ty c → HasVal x S c e es (VTyp x F path false OccursTidy ty)

def ClaimDefn (d : XDoc) (nd : Nd) (e : Elem) (es : List Elem) : Prop :=
  TreeOK F path d nd →
  (∀ r, (∃ n, S.get n = some r) → RootFor F path S.namespaces S.get d nd r → HasRoot x S r e es (VDefn x F path false OccursTidy d nd)) ∧
  ∀ l, nd.name = c!"element" → nd.value c!"ref" = none → LeafFor F path S.namespaces S.get d nd l →
    HasVal x S l.definition.content e es (VDefn x F path false OccursTidy d nd)

def ClaimComplex (d : XDoc) (nd : Nd) (e : Elem) (es : List Elem) : Prop :=
  TreeOK F path d nd → ∀ ed as, (∃ n, S.get n = some (.element ed)) → ContentFor F path S.namespaces S.get d nd ed.content as →
    (∃ j fs, RContent x .exact S (TRepr x .exact S j) ed.content fs e es ∧
      ∀ j' e' es', RContent x .exact S (TRepr x .exact S j') ed.content fs e' es' → (∀ a ∈ as, ValidAttr x F path false d a e'.1) →
        VComplex x F path false OccursTidy d nd e' es') ∧
    ∀ a ∈ as, ValidAttr x F path false d a e.1

/-- The members of a group. -/
def ClaimGroup (d : XDoc) (p : Nd) (es : List Elem) : Prop :=
  (p.name = c!"sequence" → ∀ ls, LeavesFor F path S.namespaces S.get d p.particles ls → (∀ l ∈ ls, ∃ f, fieldIdent x l.name = .ok f) →
    ∀ e, HasLeaves x S ls e es (VOne x F path false OccursTidy d p)) ∧
  (p.name = c!"choice" → ∀ vs b dc, LeavesFor F path S.namespaces S.get d p.particles vs → (∀ l ∈ vs, ∃ i, pascalIdent x l.name = .ok i) →
    (vs.map (fun l => pascalIdent x l.name)).Nodup → ∀ e, HasRoot x S (.choice vs b dc) e es (fun _ => VOne x F path false OccursTidy d p))

def ClaimOne (d : XDoc) (p : Nd) (es : List Elem) : Prop :=
  TreeOK F path d p → ClaimGroup x F path S d p es ∧
    ∀ l, LeafFor F path S.namespaces S.get d p l → ∀ e, HasItem x S l e es (VOne x F path false OccursTidy d p)

def ClaimSeq (d : XDoc) (ps : List Nd) (es : List Elem) : Prop :=
  (∀ p ∈ ps, TreeOK F path d p) → ∀ ls, LeavesFor F path S.namespaces S.get d ps ls → (∀ l ∈ ls, ∃ f, fieldIdent x l.name = .ok f) →
    ∀ e, HasLeaves x S ls e es (VSeq x F path false OccursTidy d ps)

def ClaimMany (d : XDoc) (p : Nd) (n : Nat) (es : List Elem) : Prop :=
  TreeOK F path d p →
  (∀ l, LeafFor F path S.namespaces S.get d p l → ∀ e, HasMany x S l e es (VMany x F path false OccursTidy d p n)) ∧
  (n = 1 → ClaimOne x F path S d p es)

def ClaimOcc (d : XDoc) (p : Nd) (es : List Elem) : Prop :=
  TreeOK F path d p →
  (∀ l, LeafFor F path S.namespaces S.get d p l → ∀ e,
    HasOcc x S l e es (VOcc x F path false OccursTidy d p) ∧
    (es ≠ [] → (p.name ≠ c!"element" → MaxOf p (.number 0) ∨ MaxOf p (.number 1)) →
      HasVariant x S l e es (fun es' => VOcc x F path false OccursTidy d p es' ∧ es' ≠ []))) ∧
  (∀ mn, MinOf p mn → mn ≠ 0 → ∀ mx, MaxOf p mx → (mx = .number 0 ∨ mx = .number 1) →
    ClaimOne x F path S d p es ∧ ∀ es', VOne x F path false OccursTidy d p es' → VOcc x F path false OccursTidy d p es')

end

section
variable {x : Ext} {F : Files} {path : Str} {S : SchemaContext}

theorem HasVal.imp {c : LeafContent} {e : Elem} {es : List Elem} {V W : Elem → List Elem → Prop} (h : HasVal x S c e es V)
    (hi : ∀ e es, V e es → W e es) : HasVal x S c e es W := by
  obtain ⟨j, v, h1, h2⟩ := h
  exact ⟨j, v, h1, fun j' e' es' h => hi _ _ (h2 j' e' es' h)⟩

theorem HasRoot.imp {r : Root} {e : Elem} {es : List Elem} {V W : Elem → List Elem → Prop} (h : HasRoot x S r e es V)
    (hi : ∀ e es, V e es → W e es) : HasRoot x S r e es W := by
  obtain ⟨j, v, h1, h2⟩ := h
  exact ⟨j, v, h1, fun j' e' es' h => hi _ _ (h2 j' e' es' h)⟩

theorem hasVal_root {n : Name} {r : Root} (hr : S.get n = some r) {e : Elem} {es : List Elem} {V : Elem → List Elem → Prop}
    (h : HasRoot x S r e es V) : HasVal x S (.named n) e es V := by
  obtain ⟨j, v, h, hb⟩ := h
  refine ⟨j + 1, v, named_of_defn hr h, fun j' e' es' h' => ?_⟩
  rcases defn_of_named hr h' with ⟨d, rfl, h'⟩ | ⟨hno, i, _, h'⟩
  · exact hb j' e' es' h'
  · refine hb i e' es' ?_
    cases r with
    | leaf d => exact absurd rfl (hno d)
    | _ => exact h'

theorem hasVal_literal {l : LiteralType} {e : Elem} {s : Str} (ht : Flat.HasText false e s) (hs : Lexical x l s) :
    HasVal x S (.literal l) e [] (fun e' es' => ∃ s, Flat.HasText false e' s ∧ Lexical x l s ∧ es' = []) := by
  obtain ⟨v, hv⟩ := hs
  exact ⟨0, v, ⟨_, .literal l, s, hasText_iff (m := .exact).1 ht, hv, rfl⟩, fun j' e' es' h => literal_valid h⟩

theorem hasRoot_simple {d : XDoc} {nd : Nd} {r : Root} (hn : nd.name = c!"simpleType") (hr : SimpleFor d nd r) {e : Elem} {s : Str}
    (ht : Flat.HasText false e s) (hs : SimpleValue x d nd s) : HasRoot x S r e [] (VDefn x F path false OccursTidy d nd) := by
  have back : ∀ v j' e' es', RDefn x .exact S (TRepr x .exact S j') r v e' es' → VDefn x F path false OccursTidy d nd e' es' :=
    fun v j' e' es' h => simple_valid (m := .exact) hn hr h
  cases hr with
  | @text l rs docs h hu =>
    obtain ⟨j, v, h, _⟩ := hasVal_literal (S := S) ht ((SimpleFor.text (rs := rs) (docs := docs) h hu).lexical.1 hs)
    exact ⟨j, v, h, back v⟩
  | @enumeration vs h hu =>
    have hm := ((SimpleFor.enumeration h hu).member rfl).1 hs
    obtain ⟨tab, h1, h2, _⟩ := enum_table x vs
    obtain ⟨vn, hvn⟩ := h2 s hm
    exact ⟨0, .enumv vn, ⟨tab, vn, s, h1, hvn, hasText_iff (m := .exact).1 ht, rfl, rfl⟩, back _⟩

variable (A : Parsed x F path S)
include A

theorem fields_of_get {n : Name} {ed : ElementDef} (h : S.get n = some (.element ed)) : ∀ m ∈ ed.fieldNames, ∃ f, fieldIdent x m = .ok f :=
  A.idents n _ h

theorem group_item (V : VariantsDistinct x S) {d : XDoc} {p : Nd} {l : Leaf} {es : List Elem} (hg : ClaimGroup x F path S d p es)
    (hl : LeafFor F path S.namespaces S.get d p l) (hv : l.isVirtual = true) (e : Elem) :
    HasItem x S l e es (VOne x F path false OccursTidy d p) := by
  have key : HasVal x S l.definition.content e es (fun _ => VOne x F path false OccursTidy d p) := by
    cases hl with
    | ref _ _ hv' => rw [hv] at hv'; cases hv'
    | typed _ _ hv' => rw [hv] at hv'; cases hv'
    | any _ _ hv' => rw [hv] at hv'; cases hv'
    | inline _ _ hv' => rw [hv] at hv'; cases hv'
    | @sequence _ _ m ls hn ho hv hm hg' hL =>
      obtain ⟨j, fs, h, hb⟩ := hg.1 hn ls hL (fun l hl => fields_of_get A hg' _ (List.mem_append_left _ (List.mem_map_of_mem hl))) e
      rw [hm]
      refine hasVal_root hg' ⟨j, .struct (fs ++ []), ⟨fs, [], rfl, ⟨es, h, .refl _ _⟩, rfl⟩, ?_⟩
      rintro j' e' es' ⟨fc, fa, hfs, h', hfa⟩
      cases hfa
      injection hfs with hfs
      rw [List.append_nil, List.append_nil] at hfs
      subst hfs
      exact hb j' e' es' (leaves_arranged hL.ord h')
    | @choice _ _ m vs hn ho hv hm hg' hL =>
      rw [hm]
      exact hasVal_root hg' (hg.2 hn vs true none hL (fun l hl => A.idents m _ hg' l hl) (V _ _ _ _ hg') e)
  obtain ⟨j, v, h, hb⟩ := key
  have hi : ∀ j' e' es', RItem x .exact S (TRepr x .exact S j') l v e' es' ↔ RVal x .exact S (TRepr x .exact S j') l.definition.content v e' es' := by
    intro j' e' es'
    unfold RItem
    rw [hv, if_pos rfl]
  exact ⟨j, v, (hi _ _ _).2 h, fun j' e' es' h' => hb j' e' es' ((hi _ _ _).1 h')⟩

theorem elem_item {l : Leaf} (hv : l.isVirtual = false) {q : QName} (hq : Names S.namespaces l.name q) {ch : Elem} (hch : ch.1.name = q)
    {V : Elem → List Elem → Prop} (h : HasVal x S l.definition.content ch (elemKids ch.2) V) (e : Elem) :
    HasItem x S l e [ch] (fun es' => ∃ ch', es' = [ch'] ∧ ch'.1.name = q ∧ V ch' (elemKids ch'.2)) := by
  obtain ⟨j, v, h, hb⟩ := h
  have hx := hq.expanded A.inv
  refine ⟨j, v, (ritem_one hv).2 ⟨ch, rfl, by rw [hch]; exact hx, _, [], (List.append_nil _).symm, fun _ => rfl, h⟩, ?_⟩
  intro j' e' es' h'
  obtain ⟨ch', h1, h2, es2, junk, h3, h4, h5⟩ := (ritem_one hv).1 h'
  rw [hx] at h2
  injection h2 with h2
  cases h4 rfl
  replace h3 : elemKids ch'.2 = es2 ++ [] := h3
  rw [List.append_nil] at h3
  subst h3
  exact ⟨ch', h1, h2.symm, hb j' _ _ h5⟩

end

section
variable {x : Ext} {F : Files} {path : Str} {S : SchemaContext}

theorem claim_one_element {d : XDoc} {p : Nd} {ch : Elem} (hn : p.name = c!"element")
    (h : ∀ l, LeafFor F path S.namespaces S.get d p l → ∀ e, HasItem x S l e [ch] (VOne x F path false OccursTidy d p)) :
    ClaimOne x F path S d p [ch] := fun _ =>
  ⟨⟨fun hn' => by rw [hn] at hn'; exact absurd hn' (by decide), fun hn' => by rw [hn] at hn'; exact absurd hn' (by decide)⟩, h⟩

theorem rmany_nonempty {l : Leaf} {vs : List Val} {e : Elem} {es : List Elem} {T : Name → Val → Elem → List Elem → Prop}
    (h : RMany x .exact S T l vs e es) (hes : es ≠ []) : vs ≠ [] := by
  rintro rfl
  exact hes h

theorem claim_many_succ {d : XDoc} {p : Nd} {n : Nat} {es es' : List Elem} (h : VOne x F path false OccursTidy d p es)
    (h1 : ClaimOne x F path S d p es) (hs : VMany x F path false OccursTidy d p n es') (h2 : ClaimMany x F path S d p n es') :
    ClaimMany x F path S d p (n + 1) (es ++ es') := by
  intro hk
  refine ⟨fun l hl e => ?_, fun hn => ?_⟩
  · obtain ⟨j, vs, h3, h4⟩ := (h2 hk).1 l hl e
    by_cases he : es = []
    · subst he
      exact ⟨j, vs, h3, fun j' e' es' h' => .succ h (h4 j' e' es' h')⟩
    · obtain ⟨j', v, h5, h6⟩ := (h1 hk).2 l hl e
      refine ⟨max j j', v :: vs, ⟨es, es', h5.mono fun _ _ _ _ h' => TRepr.mono (Nat.le_max_right j j') h', fun _ => he,
        h3.mono fun _ _ _ _ h' => TRepr.mono (Nat.le_max_left j j') h', rfl⟩, ?_⟩
      rintro j2 e2 es2 ⟨es3, es4, h7, _, h8, h9⟩
      replace h9 : es2 = es3 ++ es4 := h9
      rw [h9]
      exact .succ (h6 _ _ _ h7) (h4 _ _ _ h8)
  · have : n = 0 := by omega
    subst this
    cases hs
    rw [List.append_nil]
    exact h1

theorem claim_occ {d : XDoc} {p : Nd} {n : Nat} {es : List Elem} (h : VMany x F path false OccursTidy d p n es)
    (h1 : ClaimMany x F path S d p n es) (ho : OccursTidy p n) : ClaimOcc x F path S d p es := by
  obtain ⟨mn, mx, hmn, hmx, hle, hmax⟩ := ho
  have ho : OccursTidy p n := ⟨mn, mx, hmn, hmx, hle, hmax⟩
  have hocc : VOcc x F path false OccursTidy d p es := .mk h ho
  intro hk
  have hone : mn ≠ 0 → (mx = .number 0 ∨ mx = .number 1) → n = 1 := by
    intro h0 h01
    rcases h01 with h01 | h01 <;> have := hmax _ h01 <;> omega
  have one : n = 1 → ∀ es', VOne x F path false OccursTidy d p es' → VOcc x F path false OccursTidy d p es' := by
    intro hn es' h'
    have := VMany.succ h' (.zero (x := x) (F := F) (path := path) (occ := OccursTidy))
    rw [List.append_nil] at this
    exact .mk this (by rw [hn] at ho; exact ho)
  refine ⟨fun l hl e => ?_, fun mn' hmn' h0 mx' hmx' h01 => ?_⟩
  · have hof := LeafFor.occ hl
    have hmn0 : l.minOccurs = mn := minOf_functional hof.min hmn
    have hrep := OccFor.repeats hof hmx
    obtain ⟨j, vs, h2, h3⟩ := (h1 hk).1 l hl e
    have hitem : n = 1 → HasItem x S l e es (VOne x F path false OccursTidy d p) := fun hn => ((h1 hk).2 hn hk).2 l hl e
    constructor
    · unfold HasOcc ROcc
      cases hr : l.repeats with
      | true =>
        cases hm : l.mayMiss with
        | true =>
          simp only [if_true]
          by_cases hvs : vs = []
          · subst hvs
            refine ⟨j, .none, ⟨[], h2, .inl ⟨rfl, rfl⟩⟩, ?_⟩
            rintro j' e' es' ⟨vs', h4, ⟨rfl, _⟩ | ⟨_, h5⟩⟩
            · exact .mk (h3 _ _ _ h4) ho
            · cases h5
          · refine ⟨j, .some (.vec vs), ⟨vs, h2, .inr ⟨fun _ => hvs, rfl⟩⟩, ?_⟩
            rintro j' e' es' ⟨vs', h4, ⟨_, h5⟩ | ⟨_, h5⟩⟩
            · cases h5
            · cases h5
              exact .mk (h3 _ _ _ h4) ho
        | false =>
          simp only [if_true, if_false, Bool.false_eq_true]
          refine ⟨j, .vec vs, ⟨vs, h2, rfl⟩, ?_⟩
          rintro j' e' es' ⟨vs', h4, h5⟩
          cases h5
          exact .mk (h3 _ _ _ h4) ho
      | false =>
        have h01 : mx = .number 0 ∨ mx = .number 1 := by
          apply Classical.byContradiction
          intro hc
          rw [hrep.2 hc] at hr
          cases hr
        cases hm : l.mayMiss with
        | true =>
          simp only [if_true, if_false, Bool.false_eq_true]
          by_cases hes : es = []
          · refine ⟨0, .none, .inl ⟨rfl, hes⟩, ?_⟩
            rintro j' e' es' (⟨_, h4⟩ | ⟨v, h4, _⟩)
            · rw [h4, ← hes]
              exact hocc
            · cases h4
          · have hn : n = 1 := by
              have : n ≤ 1 := by rcases h01 with h01 | h01 <;> have := hmax _ h01 <;> omega
              have : n ≠ 0 := by
                rintro rfl
                cases h
                exact hes rfl
              omega
            obtain ⟨j', v, h4, h5⟩ := hitem hn
            refine ⟨j', .some v, .inr ⟨v, rfl, h4, fun _ => hes⟩, ?_⟩
            rintro j' e' es' (⟨h6, _⟩ | ⟨w, h6, h7, _⟩)
            · cases h6
            · cases h6
              exact one hn _ (h5 _ _ _ h7)
        | false =>
          have h0 : mn ≠ 0 := by
            rintro rfl
            unfold Leaf.mayMiss at hm
            rw [hmn0] at hm
            cases hm
          obtain ⟨j', v, h4, h5⟩ := hitem (hone h0 h01)
          simp only [if_false, Bool.false_eq_true]
          exact ⟨j', v, h4, fun _ _ _ h' => one (hone h0 h01) _ (h5 _ _ _ h')⟩
    · intro hes hgm
      have hone : (mx = .number 0 ∨ mx = .number 1) → n = 1 := by
        intro h01
        have h1 : n ≤ 1 := by rcases h01 with h01 | h01 <;> have := hmax _ h01 <;> omega
        have h2 : n ≠ 0 := by
          rintro rfl
          cases h
          exact hes rfl
        omega
      have tight : ∀ {v j' e' es'}, RVariant x .exact S (TRepr x .exact S j') l v e' es' → es' ≠ [] :=
        fun h' => variant_nonempty (leaf_tight hl) h' rfl
      unfold HasVariant
      cases hv : l.isVirtual with
      | true =>
        have hne : p.name ≠ c!"element" := by
          intro hn
          cases hl with
          | ref _ _ hv' => rw [hv] at hv'; cases hv'
          | typed _ _ hv' => rw [hv] at hv'; cases hv'
          | any _ _ hv' => rw [hv] at hv'; cases hv'
          | inline _ _ hv' => rw [hv] at hv'; cases hv'
          | sequence hn' => rw [hn] at hn'; exact absurd hn' (by decide)
          | choice hn' => rw [hn] at hn'; exact absurd hn' (by decide)
        have h01 : mx = .number 0 ∨ mx = .number 1 := by
          rcases hgm hne with hm | hm
          · exact .inl (maxOf_functional hmx hm)
          · exact .inr (maxOf_functional hmx hm)
        obtain ⟨j', v, h4, h5⟩ := hitem (hone h01)
        refine ⟨j', v, ?_, fun _ _ _ h' => ⟨?_, tight h'⟩⟩
        · unfold RVariant
          rw [hv, if_pos rfl]
          exact ⟨h4, fun _ => hes⟩
        · unfold RVariant at h'
          rw [hv, if_pos rfl] at h'
          exact one (hone h01) _ (h5 _ _ _ h'.1)
      | false =>
        cases hr : l.repeats with
        | true =>
          refine ⟨j, .vec vs, ?_, fun _ _ _ h' => ⟨?_, tight h'⟩⟩
          · unfold RVariant
            rw [hv, hr, if_neg (by decide), if_pos rfl]
            exact ⟨vs, rfl, fun _ => rmany_nonempty h2 hes, h2⟩
          · unfold RVariant at h'
            rw [hv, hr, if_neg (by decide), if_pos rfl] at h'
            obtain ⟨vs', h4, _, h5⟩ := h'
            cases h4
            exact .mk (h3 _ _ _ h5) ho
        | false =>
          have h01 : mx = .number 0 ∨ mx = .number 1 := by
            apply Classical.byContradiction
            intro hc
            rw [hrep.2 hc] at hr
            cases hr
          obtain ⟨j', v, h4, h5⟩ := hitem (hone h01)
          refine ⟨j', v, ?_, fun _ _ _ h' => ⟨?_, tight h'⟩⟩
          · unfold RVariant
            rw [hv, hr, if_neg (by decide), if_neg (by decide)]
            exact h4
          · unfold RVariant at h'
            rw [hv, hr, if_neg (by decide), if_neg (by decide)] at h'
            exact one (hone h01) _ (h5 _ _ _ h')
  · cases minOf_functional hmn hmn'
    cases maxOf_functional hmx hmx'
    exact ⟨(h1 hk).2 (hone h0 h01), one (hone h0 h01)⟩

/-! ## Members in any order -/

theorem occ_single {d : XDoc} {p : Nd} {es : List Elem} (ho : Single p) (h : VOcc x F path false OccursTidy d p es) :
    es = [] ∨ VOne x F path false OccursTidy d p es := by
  obtain ⟨mx, h2, h3⟩ := ho
  cases h with
  | @mk _ _ n _ h ho =>
    obtain ⟨mn, mx', hmn, hmx, hle, hmax⟩ := ho
    cases maxOf_functional h2 hmx
    have hn : n = 0 ∨ n = 1 := by rcases h3 with h01 | h01 <;> have := hmax _ h01 <;> omega
    rcases hn with rfl | rfl
    · cases h
      exact .inl rfl
    · cases h with
      | succ h hs =>
        cases hs
        rw [List.append_nil]
        exact .inr h

/-- Members that are elements with different names are different children. -/
theorem seq_names {d : XDoc} {ps : List Nd} (ho : ∀ p ∈ ps, p.name = c!"element" ∧ Single p)
    (hp : ps.Pairwise (fun a b => ∀ q, ElementName d a q → ¬ ElementName d b q)) {es : List Elem} (h : VSeq x F path false OccursTidy d ps es) :
    (es.map (fun ch => ch.1.name)).Nodup ∧ ∀ ch ∈ es, ∃ p ∈ ps, ElementName d p ch.1.name := by
  induction ps generalizing es with
  | nil => cases h; exact ⟨.nil, nofun⟩
  | cons p ps ih =>
    cases h with
    | @cons _ _ _ es1 es2 h hs =>
      obtain ⟨h1, h2⟩ := ih (fun p hp => ho p (.tail _ hp)) (List.pairwise_cons.1 hp).2 hs
      obtain ⟨hn, h1p⟩ := ho p (.head _)
      rcases occ_single h1p h with rfl | h
      · refine ⟨h1, fun c hc => ?_⟩
        obtain ⟨p', hp', hpe⟩ := h2 c hc
        exact ⟨p', .tail _ hp', hpe⟩
      have hch : ∃ ch, es1 = [ch] ∧ ElementName d p ch.1.name := by
        cases h with
        | ref _ hr hq hq' ht hcn he => exact ⟨_, rfl, he ▸ .ref hr hq⟩
        | element _ hr hna hns he => exact ⟨_, rfl, he ▸ .name hr hna hns⟩
        | sequence hn' => rw [hn] at hn'; exact absurd hn' (by decide)
        | choice hn' => rw [hn] at hn'; exact absurd hn' (by decide)
      obtain ⟨ch, rfl, hch⟩ := hch
      refine ⟨List.nodup_cons.2 ⟨fun hm => ?_, h1⟩, fun c hc => ?_⟩
      · obtain ⟨c, hc, hcn⟩ := List.mem_map.1 hm
        obtain ⟨p', hp', hpe⟩ := h2 c hc
        exact (List.pairwise_cons.1 hp).1 p' hp' _ hch (by rw [← show c.1.name = ch.1.name from hcn]; exact hpe)
      · rcases List.mem_cons.1 hc with rfl | hc
        · exact ⟨p, .head _, hch⟩
        · obtain ⟨p', hp', hpe⟩ := h2 c hc
          exact ⟨p', .tail _ hp', hpe⟩

theorem element_single {d : XDoc} {p : Nd} {l : Leaf} (hl : LeafFor F path S.namespaces S.get d p l) (hn : p.name = c!"element") :
    l.isVirtual = false := by
  cases hl with
  | ref _ _ hv => exact hv
  | typed _ _ hv => exact hv
  | any _ _ hv => exact hv
  | inline _ _ hv => exact hv
  | sequence hn' => rw [hn] at hn'; exact absurd hn' (by decide)
  | choice hn' => rw [hn] at hn'; exact absurd hn' (by decide)

theorem unordered_anywhere {d : XDoc} {ps : List Nd} {ls : List Leaf} (ho : ∀ p ∈ ps, p.name = c!"element" ∧ Single p) (hr : ∀ p ∈ ps, Required p)
    (hL : LeavesFor F path S.namespaces S.get d ps ls) : ∀ l ∈ ls.map Leaf.unordered, l.anywhere = true := by
  intro l hl
  obtain ⟨l, hl', rfl⟩ := List.mem_map.1 hl
  obtain ⟨p, hp, hpl⟩ := leavesFor_mem hL hl'
  have h1 := single_leaf (LeafFor.occ hpl) (ho p hp).2
  have h2 := (required_leaf (LeafFor.occ hpl)).1 (hr p hp)
  have h3 := element_single hpl (ho p hp).1
  show (true && !l.isVirtual && !l.repeats && !l.mayMiss) = true
  rw [h1, h2, h3]
  rfl

theorem anywhere_required {d : XDoc} {ps : List Nd} {ls : List Leaf} (hL : LeavesFor F path S.namespaces S.get d ps ls)
    (h : ∀ l ∈ ls.map Leaf.unordered, l.anywhere = true) : ∀ p ∈ ps, Required p := by
  intro p hp
  induction ps generalizing ls with
  | nil => cases hp
  | cons p' ps ih =>
    cases hL with
    | @cons _ _ l ls hl hL =>
      rcases List.mem_cons.1 hp with rfl | hp
      · have := h _ (.head _)
        refine (required_leaf (LeafFor.occ hl)).2 ?_
        simp only [Leaf.anywhere, Bool.and_eq_true, Bool.not_eq_true'] at this
        exact this.2
      · exact ih hL (fun l hl => h l (.tail _ hl)) hp

/-- The members of a sequence taken as those of an `xs:all`. -/
theorem unordered_leaves {T : Name → Val → Elem → List Elem → Prop} {d : XDoc} {e : Elem} {ps : List Nd} {ls : List Leaf}
    (ho : ∀ p ∈ ps, p.name = c!"element" ∧ Single p) (hL : LeavesFor F path S.namespaces S.get d ps ls) {fs : List (Str × Val)} {es : List Elem}
    (h : RLeaves x .exact S T ls fs e es) : RLeaves x .exact S T (ls.map Leaf.unordered) fs e es := by
  induction ps generalizing ls fs es with
  | nil =>
    cases hL
    exact h
  | cons p ps ih =>
    cases hL with
    | @cons _ _ l ls hl hL =>
      obtain ⟨f, v, fs', es1, es2, h1, h2, h3, h4, h5⟩ := h
      have hs := single_leaf (LeafFor.occ hl) (ho p (.head _)).2
      exact ⟨f, v, fs', es1, es2, h1, h2, (rocc_unordered hs).2 h3, ih (fun p hp => ho p (.tail _ hp)) hL h4, h5⟩

variable (A : Parsed x F path S)
include A

/-- The names of the fields of content are legal. -/
theorem content_fields {ed : ElementDef} (hr : ∃ n, S.get n = some (.element ed)) :
    match ed.content with
    | none => True
    | some (.leaf n _) => ∃ f, fieldIdent x n = .ok f
    | some (.leaves ls) => ∀ l ∈ ls, ∃ f, fieldIdent x l.name = .ok f := by
  obtain ⟨n, hr⟩ := hr
  have h := fields_of_get A hr
  unfold ElementDef.fieldNames at h
  cases hc : ed.content with
  | none => trivial
  | some c =>
    rw [hc] at h
    cases c with
    | leaf n _ => exact h _ (List.mem_append_left _ (.head _))
    | leaves ls => exact fun l hl => h _ (List.mem_append_left _ (List.mem_map_of_mem hl))

omit A in
theorem group_virtual {d : XDoc} {p : Nd} {l : Leaf} (hl : LeafFor F path S.namespaces S.get d p l) (hn : p.name ≠ c!"element") :
    l.isVirtual = true := by
  cases hl with
  | ref hn' => exact absurd hn' hn
  | typed hn' => exact absurd hn' hn
  | any hn' => exact absurd hn' hn
  | inline hn' => exact absurd hn' hn
  | sequence _ _ hv => exact hv
  | choice _ _ hv => exact hv

omit A in
theorem leavesFor_mem' {d : XDoc} {ps : List Nd} {ls : List Leaf} (hL : LeavesFor F path S.namespaces S.get d ps ls) {p : Nd} (hp : p ∈ ps) :
    ∃ l ∈ ls, LeafFor F path S.namespaces S.get d p l := by
  induction ps generalizing ls with
  | nil => cases hp
  | cons p' ps ih =>
    cases hL with
    | cons h hs =>
      rcases List.mem_cons.1 hp with rfl | hp
      · exact ⟨_, .head _, h⟩
      · obtain ⟨l, h1, h2⟩ := ih hs hp
        exact ⟨l, .tail _ h1, h2⟩

omit A in
theorem localNs_functional {d : XDoc} {a b : Option Str} (h : LocalNs d a) (h' : LocalNs d b) : a = b := by
  cases h with
  | qualified h => cases h' with
    | qualified => rfl
    | unqualified h' => exact absurd h h'
  | unqualified h => cases h' with
    | qualified h' => exact absurd h' h
    | unqualified => rfl

theorem valid_claims (V : VariantsDistinct x S) {d : XDoc} {nd : Nd} {e : Elem} {es : List Elem} (h : VDefn x F path false OccursTidy d nd e es) :
    ClaimDefn x F path S d nd e es := by
  refine VDefn.rec (motive_1 := fun ty e es _ => ClaimTyp x F path S ty e es)
    (motive_2 := fun d nd e es _ => ClaimDefn x F path S d nd e es)
    (motive_3 := fun d nd e es _ => ClaimComplex x F path S d nd e es)
    (motive_4 := fun d p es _ => ClaimOne x F path S d p es)
    (motive_5 := fun d ps es _ => ClaimSeq x F path S d ps es)
    (motive_6 := fun d p n es _ => ClaimMany x F path S d p n es)
    (motive_7 := fun d p es _ => ClaimOcc x F path S d p es)
    ?_ ?_ ?_ ?_ ?_ ?_ ?_ ?_ ?_ ?_ ?_ ?_ ?_ ?_ ?_ ?_ ?_ ?_ ?_ ?_ ?_ ?_ ?_ h
  -- types
  · intro t e s ht hs c hc
    cases hc
    refine (hasVal_literal ht hs).imp ?_
    rintro e' es' ⟨s', h1, h2, rfl⟩
    exact .builtin h1 h2
  · intro s e ht c hc
    cases hc
    refine ⟨0, .unit, ⟨_, .fixed s, hasText_iff (m := .exact).1 ht, rfl, rfl⟩, ?_⟩
    rintro j' e' es' ⟨c', hm, hc⟩
    cases hm
    obtain ⟨h1, _, rfl⟩ := hc
    exact .fixed (hasText_iff (m := .exact).2 h1)
  · intro q d c e es ht hc _ ih c' hc'
    cases hc' with
    | own hn _ _ =>
      obtain ⟨r, hr, hR⟩ := A.top ht hn
      exact hasVal_root hr (((ih (A.nodes _ _ _ ht)).1 r ⟨_, hr⟩ hR).imp fun _ _ h => .own ht hc h)
  -- definitions
  · intro d nd e s hn ht hs hk
    refine ⟨fun r _ hR => hasRoot_simple hn (hR.simple hn) ht hs, fun l hn' => ?_⟩
    rw [hn] at hn'
    exact absurd hn' (by decide)
  · intro d nd e es hn _ ih hk
    refine ⟨fun r hr hR => ?_, fun l hn' => ?_⟩
    · cases hR with
      | typed hn' => rw [hn] at hn'; exact absurd hn' (by decide)
      | inline hn' => rw [hn] at hn'; exact absurd hn' (by decide)
      | text hn' => rw [hn] at hn'; exact absurd hn' (by decide)
      | enumeration hn' => rw [hn] at hn'; exact absurd hn' (by decide)
      | @complex _ ed as _ hC hA =>
        obtain ⟨⟨j, fs, h1, hb⟩, h2⟩ := ih hk ed as hr hC
        obtain ⟨n, hr⟩ := hr
        obtain ⟨fa, h3⟩ := attrs_of_valid A (m := .exact) hA (fun b hb => fields_of_get A hr _ (List.mem_append_right _ (List.mem_map_of_mem hb))) e h2
        refine ⟨j, .struct (fs ++ fa), ⟨fs, fa, rfl, h1, h3⟩, ?_⟩
        rintro j' e' es' ⟨fc', fa', hv, h4, h5⟩
        injection hv with hv
        have := (List.append_inj hv ((rcontent_length h1).trans (rcontent_length h4).symm)).1
        subst this
        exact .complex hn (hb j' e' es' h4 (valid_of_attrs A (m := .exact) hA e' h5))
    · rw [hn] at hn'
      exact absurd hn' (by decide)
  · intro d nd ty e es hn ht _ ih hk
    have htv : nd.value c!"type" ≠ none := by
      cases ht with
      | builtin h => rw [h]; nofun
      | fixed h => rw [h]; nofun
      | own h => rw [h]; nofun
    refine ⟨fun r _ hR => ?_, fun l _ hr hl => ?_⟩
    · cases hR with
      | typed _ ht' hu hc =>
        cases hu _ ht
        exact (ih _ hc).imp fun _ _ h => .typed hn ht h
      | inline _ ht' => exact absurd ht' htv
      | text hn' => rw [hn] at hn'; exact absurd hn' (by decide)
      | enumeration hn' => rw [hn] at hn'; exact absurd hn' (by decide)
      | complex hn' => rw [hn] at hn'; exact absurd hn' (by decide)
    · cases hl with
      | ref _ _ _ hr' => rw [hr] at hr'; cases hr'
      | typed _ _ _ _ _ _ _ ht' hu hc =>
        cases hu _ ht
        exact (ih _ hc).imp fun _ _ h => .typed hn ht h
      | any _ _ _ _ _ _ _ ht' => exact absurd ht' htv
      | inline _ _ _ _ _ _ _ ht' => exact absurd ht' htv
      | sequence hn' => rw [hn] at hn'; exact absurd hn' (by decide)
      | choice hn' => rw [hn] at hn'; exact absurd hn' (by decide)
  · intro d nd c e es hn ht hc hcn _ ih hk
    have htv : ∀ ty, ¬ TypeAttr d nd ty := by
      intro ty h
      cases h with
      | builtin h => rw [ht] at h; cases h
      | fixed h => rw [ht] at h; cases h
      | own h => rw [ht] at h; cases h
    have back : ∀ e' es', VDefn x F path false OccursTidy d c e' es' → VDefn x F path false OccursTidy d nd e' es' := fun _ _ h => .inline hn ht hc hcn h
    refine ⟨fun r hr' hR => ?_, fun l _ hr hl => ?_⟩
    · cases hR with
      | typed _ ht' => exact absurd ht' (htv _)
      | inline _ _ _ _ hu hR' =>
        cases hu _ hc hcn
        exact ((ih (hk.kid hc)).1 _ hr' hR').imp back
      | text hn' => rw [hn] at hn'; exact absurd hn' (by decide)
      | enumeration hn' => rw [hn] at hn'; exact absurd hn' (by decide)
      | complex hn' => rw [hn] at hn'; exact absurd hn' (by decide)
    · cases hl with
      | ref _ _ _ hr' => rw [hr] at hr'; cases hr'
      | typed _ _ _ _ _ _ _ ht' => exact absurd ht' (htv _)
      | any _ _ _ _ _ _ _ _ hk' => rcases hcn with h | h <;> exact absurd h (by first | exact (hk' _ hc).1 | exact (hk' _ hc).2)
      | inline _ _ _ _ _ _ _ _ _ _ hu hm hg hR' =>
        cases hu _ hc hcn
        rw [hm]
        exact hasVal_root hg (((ih (hk.kid hc)).1 _ ⟨_, hg⟩ hR').imp back)
      | sequence hn' => rw [hn] at hn'; exact absurd hn' (by decide)
      | choice hn' => rw [hn] at hn'; exact absurd hn' (by decide)
  · intro d nd e s hn ht hk' hs hk
    have htv : ∀ ty, ¬ TypeAttr d nd ty := by
      intro ty h
      cases h with
      | builtin h => rw [ht] at h; cases h
      | fixed h => rw [ht] at h; cases h
      | own h => rw [ht] at h; cases h
    have hno : ∀ c ∈ nd.xsdKids, ¬ (c.name = c!"complexType" ∨ c.name = c!"simpleType") := by
      rintro c hc (h | h)
      · exact (hk' c hc).2 h
      · exact (hk' c hc).1 h
    refine ⟨fun r hr' hR => ?_, fun l _ hr hl => ?_⟩
    · cases hR with
      | typed _ ht' => exact absurd ht' (htv _)
      | inline _ _ hc hcn => exact absurd hcn (hno _ hc)
      | text hn' => rw [hn] at hn'; exact absurd hn' (by decide)
      | enumeration hn' => rw [hn] at hn'; exact absurd hn' (by decide)
      | complex hn' => rw [hn] at hn'; exact absurd hn' (by decide)
    · cases hl with
      | ref _ _ _ hr' => rw [hr] at hr'; cases hr'
      | typed _ _ _ _ _ _ _ ht' => exact absurd ht' (htv _)
      | any _ _ _ _ _ _ _ _ _ hc =>
        rw [hc]
        refine (hasVal_literal hs ⟨_, rfl⟩).imp ?_
        rintro e' es' ⟨s', h1, _, rfl⟩
        exact .any hn ht hk' h1
      | inline _ _ _ _ _ _ _ _ hc hcn => exact absurd hcn (hno _ hc)
      | sequence hn' => rw [hn] at hn'; exact absurd hn' (by decide)
      | choice hn' => rw [hn] at hn'; exact absurd hn' (by decide)
  -- complex types
  · intro d nd e hk' ha hk ed as hr hC
    generalize ed.content = ec at hC
    cases hC with
    | empty =>
      refine ⟨⟨0, [], ⟨rfl, rfl⟩, ?_⟩, ha⟩
      rintro j' e' es' ⟨_, rfl⟩ ha'
      exact .empty hk' ha'
    | once hc hn => exact absurd (by rw [hn]; decide) (hk' _ hc)
    | group hc hn => exact absurd (by rw [hn]; decide) (hk' _ hc)
    | all hc hn => exact absurd (by rw [hn]; decide) (hk' _ hc)
    | choice hc hn => exact absurd (by rw [hn]; decide) (hk' _ hc)
    | simpleContent hc hn => exact absurd (by rw [hn]; decide) (hk' _ hc)
    | complexContent hc hn => exact absurd (by rw [hn]; decide) (hk' _ hc)
    | extension hc hn => exact absurd (by rw [hn]; decide) (hk' _ hc)
  · intro d nd c e es hc hn ha _ ih hk ed as hr hC
    have hf := content_fields A hr
    have hcn : c.name ∈ contentNames := by rcases hn with hn | hn <;> rw [hn] <;> decide
    replace ih := ih (hk.kid hc)
    generalize ed.content = ec at hC hf
    cases hC with
    | empty hk' => exact absurd hcn (hk' _ hc)
    | once _ hn' hu hmn hmx h01 hL =>
      cases hu _ hc hcn
      have h1 := ih.2 _ hmn (by decide) _ hmx h01
      obtain ⟨j, fs, h, hb⟩ := (h1.1 (hk.kid hc)).1.1 hn' _ hL hf e
      exact ⟨⟨j, fs, ⟨es, h, .refl _ _⟩, fun j' e' es' h' ha' => .group hc hn ha' (h1.2 _ (hb _ _ _ (leaves_arranged hL.ord h')))⟩, ha⟩
    | group _ hn' hu hl =>
      cases hu _ hc hcn
      obtain ⟨⟨j, v, h, hb⟩, _⟩ := ih.1 _ hl e
      obtain ⟨f, hfi⟩ := hf _ (.head _)
      refine ⟨⟨j, [(f, v)], ⟨es, ⟨f, v, [], es, [], rfl, hfi, h, ⟨rfl, rfl⟩, (List.append_nil _).symm⟩, .refl _ _⟩, ?_⟩, ha⟩
      intro j' e' es' h' ha'
      obtain ⟨f', v', fs', es1, es2, h1, _, h3, ⟨_, rfl⟩, h5⟩ := leaves_arranged (by simpa using hl.ord) h'
      cases h1
      replace h5 : es' = es1 ++ [] := h5
      rw [h5, List.append_nil]
      exact .group hc hn ha' (hb _ _ _ h3)
    | choice _ hn' hu hmn hmx hg hL =>
      cases hu _ hc hcn
      have h1 := ih.2 _ hmn (by decide) _ hmx (.inr rfl)
      obtain ⟨j, v, h, hb⟩ := hasVal_root hg ((h1.1 (hk.kid hc)).1.2 hn' _ _ _ hL (fun l hl => A.idents _ _ hg l hl) (V _ _ _ _ hg) e)
      obtain ⟨f, hfi⟩ := hf
      refine ⟨⟨j, [(f, v)], ⟨f, v, rfl, hfi, h⟩, ?_⟩, ha⟩
      rintro j' e' es' ⟨f', v', h2, _, h3⟩ ha'
      cases h2
      exact .group hc hn ha' (h1.2 _ (hb _ _ _ h3))
    | all hc' hn' hu =>
      cases hu _ hc hcn
      rcases hn with hn | hn <;> (rw [hn] at hn'; exact absurd hn' (by decide))
    | simpleContent hc' hn' hu =>
      cases hu _ hc hcn
      rcases hn with hn | hn <;> (rw [hn] at hn'; exact absurd hn' (by decide))
    | complexContent hc' hn' hu =>
      cases hu _ hc hcn
      rcases hn with hn | hn <;> (rw [hn] at hn'; exact absurd hn' (by decide))
    | extension hc' hn' hu =>
      cases hu _ hc hcn
      rcases hn with hn | hn <;> (rw [hn] at hn'; exact absurd hn' (by decide))
  · intro d nd c e es js es' hc hn ho ha hV hj hp ht ih hk ed as hr hC
    have hjs := hj rfl
    subst hjs
    rw [List.append_nil] at hp ht
    have hf := content_fields A hr
    have hcn : c.name ∈ contentNames := by rw [hn]; decide
    generalize ed.content = ec at hC hf
    cases hC with
    | empty hk' => exact absurd hcn (hk' _ hc)
    | @all _ _ ls _ _ _ hu hmn hmx h01 hm hd hL =>
      cases hu _ hc hcn
      obtain ⟨j, fs, h, hb⟩ := ih (fun p hp => (hk.kid hc).kid (mem_particles hp)) ls hL
        (fun l hl => hf l.unordered (List.mem_map_of_mem hl)) e
      refine ⟨⟨j, fs, ⟨es, unordered_leaves hm hL h, ?_⟩, ?_⟩, ha⟩
      · rcases ht rfl with hreq | rfl
        · exact .inr ⟨unordered_anywhere hm hreq hL, .of_perm hp (seq_names hm hd hV).1⟩
        · exact .inl rfl
      rintro j' e' es2 ⟨es1, h1, h2⟩ ha'
      obtain ⟨es0, h3, h4, h5⟩ := leaves_unordered hm hL h1
      refine .all (js := []) hc hn ho ha' (hb _ _ _ h3) (fun _ => rfl) (by rw [List.append_nil]; exact h4.trans (arranged_perm h2)) fun _ => ?_
      rcases h2 with rfl | ⟨h2, _⟩
      · rw [List.append_nil]
        exact .inr (h5 rfl).symm
      · exact .inl (anywhere_required hL h2)
    | once _ hn' hu => cases hu _ hc hcn; rw [hn] at hn'; exact absurd hn' (by decide)
    | group _ hn' hu => cases hu _ hc hcn; rw [hn] at hn'; exact absurd hn' (by decide)
    | choice _ hn' hu => cases hu _ hc hcn; rw [hn] at hn'; exact absurd hn' (by decide)
    | simpleContent _ hn' hu => cases hu _ hc hcn; rw [hn] at hn'; exact absurd hn' (by decide)
    | complexContent _ hn' hu => cases hu _ hc hcn; rw [hn] at hn'; exact absurd hn' (by decide)
    | extension _ hn' hu => cases hu _ hc hcn; rw [hn] at hn'; exact absurd hn' (by decide)
  · intro d nd c r ty e es hc hn hr hrn hb ha _ ih hk ed as hr' hC
    have hf := content_fields A hr'
    have hcn : c.name ∈ contentNames := by rw [hn]; decide
    generalize ed.content = ec at hC hf
    cases hC with
    | empty hk' => exact absurd hcn (hk' _ hc)
    | simpleContent _ hn' hu hr2 hrn' hur hb' hub ht =>
      cases hu _ hc hcn
      cases hur _ hr
      cases hub _ hb
      obtain ⟨j, v, h, hback⟩ := ih _ ht
      obtain ⟨f, hfi⟩ := hf
      refine ⟨⟨j, [(f, v)], ⟨f, v, rfl, hfi, h⟩, ?_⟩, ha⟩
      rintro j' e' es' ⟨f', v', h2, _, h3⟩ ha'
      cases h2
      exact .simpleContent hc hn hr hrn hb ha' (hback _ _ _ h3)
    | once _ hn' hu => cases hu _ hc hcn; rw [hn] at hn'; exact absurd hn' (by decide)
    | group _ hn' hu => cases hu _ hc hcn; rw [hn] at hn'; exact absurd hn' (by decide)
    | all _ hn' hu => cases hu _ hc hcn; rw [hn] at hn'; exact absurd hn' (by decide)
    | choice _ hn' hu => cases hu _ hc hcn; rw [hn] at hn'; exact absurd hn' (by decide)
    | complexContent _ hn' hu => cases hu _ hc hcn; rw [hn] at hn'; exact absurd hn' (by decide)
    | extension _ hn' hu => cases hu _ hc hcn; rw [hn] at hn'; exact absurd hn' (by decide)
  · intro d nd c r ty e es hc hn hr hrn hb ha hg _ ih hk ed as hr' hC
    have hf := content_fields A hr'
    have hcn : c.name ∈ contentNames := by rw [hn]; decide
    generalize ed.content = ec at hC hf
    cases hC with
    | empty hk' => exact absurd hcn (hk' _ hc)
    | complexContent _ hn' hu hr2 hrn' hur hb' hub ht =>
      cases hu _ hc hcn
      cases hur _ hr
      cases hub _ hb
      obtain ⟨j, v, h, hback⟩ := ih _ ht
      obtain ⟨f, hfi⟩ := hf
      refine ⟨⟨j, [(f, v)], ⟨f, v, rfl, hfi, h⟩, ?_⟩, ha⟩
      rintro j' e' es' ⟨f', v', h2, _, h3⟩ ha'
      cases h2
      exact .complexContent hc hn hr hrn hb ha' hg (hback _ _ _ h3)
    | once _ hn' hu => cases hu _ hc hcn; rw [hn] at hn'; exact absurd hn' (by decide)
    | group _ hn' hu => cases hu _ hc hcn; rw [hn] at hn'; exact absurd hn' (by decide)
    | all _ hn' hu => cases hu _ hc hcn; rw [hn] at hn'; exact absurd hn' (by decide)
    | choice _ hn' hu => cases hu _ hc hcn; rw [hn] at hn'; exact absurd hn' (by decide)
    | simpleContent _ hn' hu => cases hu _ hc hcn; rw [hn] at hn'; exact absurd hn' (by decide)
    | extension _ hn' hu hr2 hrn' hur _ _ hg' hgn =>
      cases hu _ hc hcn
      cases hur _ hr
      exact absurd (by rw [hgn]; decide) (hg _ hg')
  · intro d nd c r g ty e es es' hc hn hr hrn hb ha hg hgn _ _ ih ih' hk ed as hr' hC
    have hf := content_fields A hr'
    have hcn : c.name ∈ contentNames := by rw [hn]; decide
    have hgc : g.name ∈ contentNames := by rw [hgn]; decide
    generalize ed.content = ec at hC hf
    cases hC with
    | empty hk' => exact absurd hcn (hk' _ hc)
    | complexContent _ hn' hu hr2 hrn' hur hb' hub ht hg' =>
      cases hu _ hc hcn
      cases hur _ hr
      exact absurd hgc (hg' _ hg)
    | once _ hn' hu => cases hu _ hc hcn; rw [hn] at hn'; exact absurd hn' (by decide)
    | group _ hn' hu => cases hu _ hc hcn; rw [hn] at hn'; exact absurd hn' (by decide)
    | all _ hn' hu => cases hu _ hc hcn; rw [hn] at hn'; exact absurd hn' (by decide)
    | choice _ hn' hu => cases hu _ hc hcn; rw [hn] at hn'; exact absurd hn' (by decide)
    | simpleContent _ hn' hu => cases hu _ hc hcn; rw [hn] at hn'; exact absurd hn' (by decide)
    | @extension _ _ _ _ _ lb l _ hn' hu hr2 hrn' hur hb' hub hg' hgn' hug hlb ht hla hl =>
      cases hu _ hc hcn
      cases hur _ hr
      cases hub _ hb
      cases hug _ hg hgc
      obtain ⟨j, v, h, hb1⟩ := ih _ ht
      obtain ⟨⟨j', v', h', hb2⟩, _⟩ := (ih' (((hk.kid hc).kid hr).kid hg)).1 _ hl e
      obtain ⟨f, hfi⟩ := hf _ (.head _)
      obtain ⟨f', hfi'⟩ := hf _ (.tail _ (.head _))
      have h3 : ∀ T w e es, ROcc x .exact S T lb w e es ↔ RVal x .exact S T lb.definition.content w e es := by
        intro T w e es
        unfold ROcc
        have h1 : lb.repeats = false := by unfold Leaf.repeats; rw [hlb.2.2.1]; rfl
        have h2 : lb.mayMiss = false := by unfold Leaf.mayMiss; rw [hlb.2.1]; rfl
        rw [h1, h2, if_neg (by decide), if_neg (by decide)]
        unfold RItem
        rw [hlb.1, if_pos rfl]
      refine ⟨⟨max j j', [(f, v), (f', v')], ⟨_, ⟨f, v, _, es, es', rfl, hfi,
        (h3 _ _ _ _).2 (h.mono fun _ _ _ _ h' => TRepr.mono (Nat.le_max_left j j') h'), ⟨f', v', [], es', [], rfl, hfi',
        h'.mono fun _ _ _ _ h' => TRepr.mono (Nat.le_max_right j j') h', ⟨rfl, rfl⟩, (List.append_nil _).symm⟩, rfl⟩, .refl _ _⟩, ?_⟩, ha⟩
      intro j2 e2 es2 h0 ha'
      obtain ⟨f1, v1, fs1, ea, eb, h4, _, h5, ⟨f2, v2, fs2, ec, ed, h6, _, h7, ⟨_, rfl⟩, h8⟩, h9⟩ := leaves_arranged (by simpa using ⟨hlb.2.2.2, hl.ord⟩) h0
      cases h4
      cases h6
      replace h8 : eb = ec ++ [] := h8
      replace h9 : es2 = ea ++ eb := h9
      rw [h9, h8, List.append_nil]
      exact .extension hc hn hr hrn hb ha' hg hgn (hb1 _ _ _ ((h3 _ _ _ _).1 h5)) (hb2 _ _ _ h7)
  -- one occurrence
  · intro d p v q d' c e es js hn hr hq hq' ht hc he hkk hj _ ih
    have hjs := hj rfl
    subst hjs
    rw [List.append_nil] at hkk
    refine claim_one_element hn fun l hl e0 => ?_
    cases hl with
    | ref _ _ hv hr' _ hu _ hna hcl _ _ =>
      rw [hr] at hr'
      cases hr'
      have := hu _ hq
      subst this
      obtain ⟨r, hr2, hR⟩ := A.top ht hna
      have hval := hasVal_root hr2 ((ih (A.nodes _ _ _ ht)).1 r ⟨_, hr2⟩ hR)
      rw [← hcl, ← hkk] at hval
      obtain ⟨j, v, h1, h2⟩ := elem_item A hv hna he hval e0
      refine ⟨j, v, h1, fun j' e' es' h' => ?_⟩
      obtain ⟨ch, rfl, h3, h4⟩ := h2 j' e' es' h'
      exact .ref hn hr hq hq' ht hc h3 (List.append_nil _).symm (fun _ => rfl) h4
    | typed _ _ _ hr' => rw [hr] at hr'; cases hr'
    | any _ _ _ hr' => rw [hr] at hr'; cases hr'
    | inline _ _ _ hr' => rw [hr] at hr'; cases hr'
    | sequence hn' => rw [hn] at hn'; exact absurd hn' (by decide)
    | choice hn' => rw [hn] at hn'; exact absurd hn' (by decide)
  · intro d p n ns e es js hn hr hna hns he hkk hj _ ih
    have hjs := hj rfl
    subst hjs
    rw [List.append_nil] at hkk
    intro hk
    refine claim_one_element hn (fun l hl e0 => ?_) hk
    have hval := (ih hk).2 l hn hr hl
    rw [← hkk] at hval
    have hname : ∀ {n' ns'}, p.value c!"name" = some n' → LocalNs d ns' → (⟨n', ns'⟩ : QName) = ⟨n, ns⟩ := by
      intro n' ns' h1 h2
      rw [hna] at h1
      cases h1
      rw [localNs_functional h2 hns]
    have key : l.isVirtual = false → Names S.namespaces l.name ⟨n, ns⟩ → HasItem x S l e0 [e] (VOne x F path false OccursTidy d p) := by
      intro hv hq
      obtain ⟨j, v, h1, h2⟩ := elem_item A hv hq he hval e0
      refine ⟨j, v, h1, fun j' e' es' h' => ?_⟩
      obtain ⟨ch, rfl, h3, h4⟩ := h2 j' e' es' h'
      exact .element hn hr hna hns h3 (List.append_nil _).symm (fun _ => rfl) h4
    cases hl with
    | ref _ _ _ hr' => rw [hr] at hr'; cases hr'
    | typed _ _ hv _ hna' hns' hq => exact key hv (hname hna' hns' ▸ hq)
    | any _ _ hv _ hna' hns' hq => exact key hv (hname hna' hns' ▸ hq)
    | inline _ _ hv _ hna' hns' hq => exact key hv (hname hna' hns' ▸ hq)
    | sequence hn' => rw [hn] at hn'; exact absurd hn' (by decide)
    | choice hn' => rw [hn] at hn'; exact absurd hn' (by decide)
  · intro d p es hn _ ih hk
    have hg : ClaimGroup x F path S d p es := by
      refine ⟨fun _ ls hL hi e => ?_, fun hn' => by rw [hn] at hn'; exact absurd hn' (by decide)⟩
      obtain ⟨j, fs, h, hb⟩ := ih (fun c hc => hk.kid (mem_particles hc)) ls hL hi e
      exact ⟨j, fs, h, fun _ _ _ h' => .sequence hn (hb _ _ _ h')⟩
    exact ⟨hg, fun l hl e => group_item A V hg hl (group_virtual hl (by rw [hn]; decide)) e⟩
  · intro d p c es hn hc h hf ih hk
    have hg : ClaimGroup x F path S d p es := by
      refine ⟨fun hn' => by rw [hn] at hn'; exact absurd hn' (by decide), fun _ vs b dc hL hi hnd e => ?_⟩
      obtain ⟨l, hl, hcl⟩ := leavesFor_mem' hL hc
      obtain ⟨i, hi⟩ := hi l hl
      obtain ⟨j, v, h, hb⟩ := ((ih (hk.kid (mem_particles hc))).1 l hcl e).2 (hf rfl) (hk.node.choice hn c hc)
      refine ⟨j, .variant i v, ⟨l, hl, i, v, hi, rfl, h⟩, ?_⟩
      rintro j' e' es' ⟨l', hl', i', w, hi', hv, h'⟩
      cases hv
      cases nodup_map_inj hnd hl hl' (hi.trans hi'.symm)
      exact .choice hn hc (hb _ _ _ h').1 (fun _ => (hb _ _ _ h').2)
    exact ⟨hg, fun l hl e => group_item A V hg hl (group_virtual hl (by rw [hn]; decide)) e⟩
  -- sequences
  · intro d _ ls hL _ e
    cases hL
    refine ⟨0, [], ⟨rfl, rfl⟩, ?_⟩
    rintro j' e' es' ⟨_, rfl⟩
    exact .nil
  · intro d p ps es es' _ _ ih ih' hk ls hL hi e
    cases hL with
    | @cons _ _ l ls hl hL =>
      obtain ⟨⟨j, v, h1, hb1⟩, _⟩ := (ih (hk p (.head _))).1 l hl e
      obtain ⟨j', fs, h2, hb2⟩ := ih' (fun p hp => hk p (.tail _ hp)) ls hL (fun l hl => hi l (.tail _ hl)) e
      obtain ⟨f, hf⟩ := hi l (.head _)
      refine ⟨max j j', (f, v) :: fs, ⟨f, v, fs, es, es', rfl, hf, h1.mono fun _ _ _ _ h' => TRepr.mono (Nat.le_max_left j j') h',
        h2.mono fun _ _ _ _ h' => TRepr.mono (Nat.le_max_right j j') h', rfl⟩, ?_⟩
      rintro j2 e2 es2 ⟨f1, v1, fs1, ea, eb, h4, _, h5, h6, h7⟩
      cases h4
      replace h7 : es2 = ea ++ eb := h7
      rw [h7]
      exact .cons (hb1 _ _ _ h5) (hb2 _ _ _ h6)
  -- occurrences
  · intro d p hk
    refine ⟨fun l _ e => ⟨0, [], rfl, ?_⟩, nofun⟩
    rintro j' e' es' rfl
    exact .zero
  · intro d p n es es' h hs ih ih'
    exact claim_many_succ h ih hs ih'
  · intro d p n es h ho ih
    exact claim_occ h ih ho

/-- A valid document represents a value, and whatever represents that value is valid. -/
theorem valid_represents (V : VariantsDistinct x S) {q : QName} {n : Name} (hn : Names S.namespaces n q) {e : Elem}
    (h : ValidDoc x F path false OccursTidy q e) :
    ∃ v, DocRepr x .exact S n v e ∧ ∀ e', DocRepr x .exact S n v e' → ValidDoc x F path false OccursTidy q e' := by
  cases h with
  | @mk d c es js ht he hk hj h =>
    have := hj rfl
    subst this
    obtain ⟨r, hr, hR⟩ := A.top ht hn
    obtain ⟨j, v, h1, hb⟩ := ((valid_claims A V h) (A.nodes _ _ _ ht)).1 r ⟨_, hr⟩ hR
    have hx := hn.expanded A.inv
    have key : ∃ w, TRepr x .exact S (j + 1) n w e es ∧ ∀ j' e' es', TRepr x .exact S j' n w e' es' → VDefn x F path false OccursTidy d c e' es' := by
      have inv : ∀ {j' w e' es'}, TRepr x .exact S j' n w e' es' → ∃ i, RRoot x .exact S (TRepr x .exact S i) r w e' es' := by
        intro j' w e' es' h'
        cases j' with
        | zero => cases h'
        | succ j' =>
          obtain ⟨r', hr', h'⟩ := h'
          rw [hr] at hr'
          cases hr'
          exact ⟨j', h'⟩
      cases r with
      | leaf df =>
        refine ⟨.newtype v, ⟨_, hr, v, rfl, h1⟩, fun j' e' es' h' => ?_⟩
        obtain ⟨i, w, hw, h'⟩ := inv h'
        cases hw
        exact hb _ _ _ h'
      | enum ns => exact ⟨v, ⟨_, hr, h1⟩, fun j' e' es' h' => (inv h').elim fun i h' => hb i _ _ h'⟩
      | element df => exact ⟨v, ⟨_, hr, h1⟩, fun j' e' es' h' => (inv h').elim fun i h' => hb i _ _ h'⟩
      | choice vs b dc => exact ⟨v, ⟨_, hr, h1⟩, fun j' e' es' h' => (inv h').elim fun i h' => hb i _ _ h'⟩
    obtain ⟨w, h2, hb⟩ := key
    refine ⟨w, ⟨by rw [hx, he], j + 1, es, [], hk, fun _ => rfl, h2⟩, ?_⟩
    rintro e' ⟨h3, j', es', junk, h4, h5, h6⟩
    rw [hx] at h3
    injection h3 with h3
    exact .mk ht h3.symm h4 (fun _ => h5 rfl) (hb _ _ _ h6)

end
end Xsd.Tree
