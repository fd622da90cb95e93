import Verif.Lemmas.TreeLoose
/-!
# What represents a value is valid, up to the number of repetitions
-/
namespace Xsd.Tree
open Xsd.Flat (Typ RefersTo TypeAttr LocalNs SimpleType Lexical attributeNodes Names TypIs DocOK hasText_iff cat_append ritem_one)

/-- The children `es2` are `es`, or in case of members in any order `es` with others among them. -/
def Extra (m : Mode) (loose : Prop) (es es2 : List Elem) : Prop :=
  es2 = es ∨ m.strict = false ∧ loose ∧ ∃ js, (es ++ js).Perm es2

theorem Extra.mono {m : Mode} {l l' : Prop} {es es2 : List Elem} (h : Extra m l es es2) (hl : l → l') : Extra m l' es es2 :=
  h.imp_right fun ⟨h1, h2, h3⟩ => ⟨h1, hl h2, h3⟩

theorem Extra.tight {m : Mode} {l : Prop} {es es2 : List Elem} (h : Extra m l es es2) (hl : ¬ l) : es2 = es :=
  h.elim id fun ⟨_, h2, _⟩ => absurd h2 hl

/-- What is left over is at the end, or taken as being among the members. -/
theorem cat_extra {m : Mode} {loose : Prop} {es junk kids : List Elem} (h : Cat loose m es junk kids) (hs : m.strict = true → junk = []) :
    ∃ es2 js, kids = es2 ++ js ∧ (m.strict = true → js = []) ∧ Extra m loose es es2 := by
  obtain ⟨b, n⟩ := m
  cases b with
  | true => exact ⟨es, junk, h, hs, .inl rfl⟩
  | false =>
    by_cases hl : loose
    · exact ⟨kids, [], (List.append_nil _).symm, fun _ => rfl, .inr ⟨rfl, hl, junk, h.1.perm.symm⟩⟩
    · exact ⟨es, junk, h.2 hl, hs, .inl rfl⟩

section
variable {x : Ext} {F : Files} {path : Str} {S : SchemaContext} (A : Parsed x F path S) {m : Mode}
include A

/-- The claim for a depth: definitions, and the leaves made of particles. -/
structure Sound (x : Ext) (F : Files) (path : Str) (S : SchemaContext) (m : Mode) (j : Nat) : Prop where
  defn : ∀ {d nd r v e es}, RootFor F path S.namespaces S.get d nd r → RDefn x m S (TRepr x m S j) r v e es →
    ∀ {es2}, Extra m (LooseRoot S r) es es2 → VDefn x F path (!m.strict) (Loosely m.ne) d nd e es2
  leaf : ∀ {d p l v e es}, LeafFor F path S.namespaces S.get d p l → RItem x m S (TRepr x m S j) l v e es →
    VOne x F path (!m.strict) (Loosely m.ne) d p es

omit A in
/-- Text. -/
theorem literal_valid {T : Name → Val → Elem → List Elem → Prop} {l : LiteralType} {v : Val} {e : Elem} {es : List Elem}
    (h : RVal x m S T (.literal l) v e es) : ∃ s, Flat.HasText (!m.strict) e s ∧ Lexical x l s ∧ es = [] := by
  obtain ⟨c', hm, hc⟩ := h
  cases hm
  obtain ⟨s, h1, h2, h3⟩ := hc
  exact ⟨s, hasText_iff.2 h1, ⟨v, h2⟩, h3⟩

omit A in
/-- Simple types. -/
theorem simple_valid {T : Name → Val → Elem → List Elem → Prop} {d : XDoc} {nd : Nd} {r : Root} (hn : nd.name = c!"simpleType")
    (hr : SimpleFor d nd r) {v : Val} {e : Elem} {es : List Elem} (h : RDefn x m S T r v e es) {occ : Rule} :
    VDefn x F path (!m.strict) occ d nd e es := by
  cases hr with
  | @text l rs docs h1 hu =>
    obtain ⟨s, h2, h3, rfl⟩ := literal_valid h
    exact .simple hn h2 (.text h1 h3)
  | @enumeration vs h1 hu =>
    obtain ⟨tab, vn, s, h2, h3, h4, _, rfl⟩ := h
    obtain ⟨tab', h5, _, h6⟩ := enum_table x vs
    rw [h5] at h2
    cases h2
    exact .simple hn (hasText_iff.2 h4) (.enumeration h1 (h6 _ _ h3))

section
variable {j : Nat} (ih : ∀ i, i < j → Sound x F path S m i)
include ih

theorem typ_valid {ty : Typ} {c : LeafContent} (ht : TypFor F path S.namespaces ty c) {v : Val} {e : Elem} {es : List Elem}
    (h : RVal x m S (TRepr x m S j) c v e es) {es2 : List Elem} (hE : Extra m (LooseVal S c) es es2) :
    VTyp x F path (!m.strict) (Loosely m.ne) ty e es2 := by
  cases ht with
  | builtin =>
    cases hE.tight not_looseVal_literal
    obtain ⟨s, h2, h3, rfl⟩ := literal_valid h
    exact .builtin h2 h3
  | fixed =>
    cases hE.tight not_looseVal_fixed
    obtain ⟨c', hm, hc⟩ := h
    cases hm
    obtain ⟨h1, _, rfl⟩ := hc
    exact .fixed (hasText_iff.2 h1)
  | @own q n d c hn ht hc =>
    obtain ⟨r, hr, hR⟩ := A.top ht hn
    refine .own ht hc ?_
    have hE' := hE.mono (looseVal_root hr)
    rcases defn_of_named hr h with ⟨df, rfl, h⟩ | ⟨hno, i, hi, h⟩
    · cases hR with
      | typed hn' => exact absurd hn' hc
      | inline hn' => exact absurd hn' hc
      | text hn' h1 hu =>
        cases hE'.tight not_looseVal_literal
        exact simple_valid hn' (.text h1 hu) h
    · refine (ih i hi).defn hR (v := v) ?_ hE'
      cases r with
      | leaf df => exact absurd rfl (hno df)
      | _ => exact h

/-- Types and elements that are leaves. -/
theorem leafRoot_valid {d : XDoc} {nd : Nd} {r : Root} (hR : RootFor F path S.namespaces S.get d nd r) {df : LeafDef} (hr : r = .leaf df)
    {v : Val} {e : Elem} {es : List Elem} (h : RVal x m S (TRepr x m S j) df.content v e es) {es2 : List Elem}
    (hE : Extra m (LooseVal S df.content) es es2) : VDefn x F path (!m.strict) (Loosely m.ne) d nd e es2 := by
  match hR with
  | .typed hn ht hu hc =>
    cases hr
    exact .typed hn ht (typ_valid A ih hc h hE)
  | .inline hn ht hc hcn hu hR' => exact .inline hn ht hc hcn (leafRoot_valid hR' hr h hE)
  | .text hn h1 hu =>
    cases hr
    cases hE.tight not_looseVal_literal
    exact simple_valid hn (.text h1 hu) h
  | .enumeration .. => cases hr
  | .complex .. => cases hr

theorem named_valid {d : XDoc} {nd : Nd} {r : Root} (hR : RootFor F path S.namespaces S.get d nd r) {n : Name} (hr : S.get n = some r)
    {v : Val} {e : Elem} {es : List Elem} (h : RVal x m S (TRepr x m S j) (.named n) v e es) {es2 : List Elem}
    (hE : Extra m (LooseVal S (.named n)) es es2) : VDefn x F path (!m.strict) (Loosely m.ne) d nd e es2 := by
  replace hE := hE.mono (looseVal_root hr)
  rcases defn_of_named hr h with ⟨df, rfl, h⟩ | ⟨hno, i, hi, h⟩
  · exact leafRoot_valid A ih hR rfl h hE
  · refine (ih i hi).defn hR (v := v) ?_ hE
    cases r with
    | leaf df => exact absurd rfl (hno df)
    | _ => exact h

end

omit A in
theorem OccFor.repeats {p : Nd} {l : Leaf} (ho : OccFor p l) {mx : MaxOccurs} (hm : MaxOf p mx) :
    l.repeats = true ↔ ¬ (mx = .number 0 ∨ mx = .number 1) := by
  unfold Leaf.repeats
  rw [maxOf_functional ho.max hm]
  simp only [ne_eq, decide_eq_true_eq, not_or]

omit A in
theorem LeafFor.occ {d : XDoc} {p : Nd} {l : Leaf} {t : Namespaces} {G : Name → Option Root} (h : LeafFor F path t G d p l) : OccFor p l := by
  cases h <;> assumption

section
variable {T : Name → Val → Elem → List Elem → Prop} {d : XDoc} {p : Nd} {l : Leaf} {e : Elem}
  (hitem : ∀ {v es}, RItem x m S T l v e es → VOne x F path (!m.strict) (Loosely m.ne) d p es)
include hitem

omit A in
theorem many_valid (hord : ¬ LooseLeaf S l) {vs : List Val} {es : List Elem} (h : RMany x m S T l vs e es) :
    VMany x F path (!m.strict) (Loosely m.ne) d p vs.length es := by
  induction vs generalizing es with
  | nil => rw [show es = [] from h]; exact .zero
  | cons v vs ih =>
    obtain ⟨es1, es2, h1, _, h3, h4⟩ := h
    rw [(cat_append hord).1 h4]
    exact .succ (hitem h1) (ih h3)

omit A in
theorem one_valid {v : Val} {es : List Elem} (h : RItem x m S T l v e es) :
    VMany x F path (!m.strict) (Loosely m.ne) d p 1 es := by
  have := VMany.succ (hitem h) .zero
  rwa [List.append_nil] at this

omit A in
theorem occ_valid (ho : OccFor p l) (hord : ¬ LooseLeaf S l) {v : Val} {es : List Elem} (h : ROcc x m S T l v e es) :
    VOcc x F path (!m.strict) (Loosely m.ne) d p es := by
  unfold ROcc at h
  split at h
  · next hr =>
    obtain ⟨vs, h1, _⟩ := h
    exact .mk (many_valid hitem hord h1) fun mn mx hmn hmx h01 => absurd h01 ((OccFor.repeats ho hmx).1 hr)
  · next hr =>
    split at h
    · next hm =>
      rcases h with ⟨_, rfl⟩ | ⟨w, _, h, _⟩
      · refine .mk .zero fun mn mx hmn hmx h01 => ⟨by omega, fun h0 => ?_⟩
        have : l.minOccurs = 0 := of_decide_eq_true hm
        exact absurd (minOf_functional hmn (this ▸ ho.min)) h0
      · exact .mk (one_valid hitem h) fun mn mx hmn hmx h01 => ⟨by omega, fun _ => rfl⟩
    · exact .mk (one_valid hitem h) fun mn mx hmn hmx h01 => ⟨by omega, fun _ => rfl⟩

omit A in
theorem variant_valid (ho : OccFor p l) (hord : ¬ LooseLeaf S l) {v : Val} {es : List Elem} (h : RVariant x m S T l v e es) :
    VOcc x F path (!m.strict) (Loosely m.ne) d p es := by
  unfold RVariant at h
  split at h
  · exact .mk (one_valid hitem h.1) fun mn mx hmn hmx h01 => ⟨by omega, fun _ => rfl⟩
  · split at h
    · next hr =>
      obtain ⟨vs, _, _, h1⟩ := h
      exact .mk (many_valid hitem hord h1) fun mn mx hmn hmx h01 => absurd h01 ((OccFor.repeats ho hmx).1 hr)
    · exact .mk (one_valid hitem h) fun mn mx hmn hmx h01 => ⟨by omega, fun _ => rfl⟩

end

omit A in
/-- The alternative that is taken is not empty. -/
theorem variant_nonempty {T : Name → Val → Elem → List Elem → Prop} {l : Leaf} {e : Elem} (hord : ¬ LooseLeaf S l) {v : Val} {es : List Elem}
    (h : RVariant x m S T l v e es) (hm : m.ne = true) : es ≠ [] := by
  unfold RVariant at h
  split at h
  · exact h.2 hm
  · next hv =>
    split at h
    · obtain ⟨vs, _, h1, h2⟩ := h
      cases vs with
      | nil => exact absurd rfl (h1 (by rintro rfl; cases hm))
      | cons v vs =>
        obtain ⟨es1, es2, _, h3, _, h4⟩ := h2
        rw [(cat_append hord).1 h4]
        exact fun h' => h3 hm (List.append_eq_nil_iff.1 h').1
    · unfold RItem at h
      rw [if_neg hv] at h
      obtain ⟨ch, rfl, _⟩ := h
      exact nofun

omit A in
theorem leaves_valid {T : Name → Val → Elem → List Elem → Prop} {d : XDoc} {e : Elem}
    (hitem : ∀ {p l v es}, LeafFor F path S.namespaces S.get d p l → RItem x m S T l v e es → VOne x F path (!m.strict) (Loosely m.ne) d p es)
    {ps : List Nd} {ls : List Leaf} (hL : LeavesFor F path S.namespaces S.get d ps ls) {fs : List (Str × Val)} {es : List Elem}
    (h : RLeaves x m S T ls fs e es) : VSeq x F path (!m.strict) (Loosely m.ne) d ps es := by
  induction ps generalizing ls fs es with
  | nil =>
    cases hL
    rw [h.2]
    exact .nil
  | cons p ps ih =>
    cases hL with
    | cons hl hL =>
      obtain ⟨f, v, fs', es1, es2, _, _, h3, h4, h5⟩ := h
      rw [(cat_append (leaf_tight hl)).1 h5]
      exact .cons (occ_valid (hitem hl) (LeafFor.occ hl) (leaf_tight hl) h3) (ih hL h4)

omit A in
/-- The members are in order. -/
theorem leaves_arranged {T : Name → Val → Elem → List Elem → Prop} {ls : List Leaf} (ho : ∀ l ∈ ls, l.isUnordered = false)
    {fs : List (Str × Val)} {e : Elem} {es : List Elem} (h : RContent x m S T (some (.leaves ls)) fs e es) : RLeaves x m S T ls fs e es := by
  obtain ⟨es', h, ha⟩ := h
  cases ls with
  | nil =>
    cases ha.nil_iff.2 h.2
    cases h.2
    exact h
  | cons l ls => exact ha.eq (.head _) (Flat.ordered_anywhere (ho l (.head _))) ▸ h

omit A in
theorem leavesFor_mem {d : XDoc} {ps : List Nd} {ls : List Leaf} {t : Namespaces} {G : Name → Option Root} (h : LeavesFor F path t G d ps ls)
    {l : Leaf} (hl : l ∈ ls) : ∃ p ∈ ps, LeafFor F path t G d p l := by
  induction ps generalizing ls with
  | nil => cases h; cases hl
  | cons p ps ih =>
    cases h with
    | cons h hs =>
      rcases List.mem_cons.1 hl with rfl | hl
      · exact ⟨p, .head _, h⟩
      · obtain ⟨p', hp, h'⟩ := ih hs hl
        exact ⟨p', .tail _ hp, h'⟩

omit A in
theorem single_leaf {p : Nd} {l : Leaf} (ho : OccFor p l) (h : Single p) : l.repeats = false := by
  obtain ⟨mx, h2, h3⟩ := h
  rw [Bool.eq_false_iff]
  exact fun h => (OccFor.repeats ho h2).1 h h3

omit A in
theorem required_leaf {p : Nd} {l : Leaf} (ho : OccFor p l) : Required p ↔ l.mayMiss = false := by
  unfold Leaf.mayMiss
  constructor
  · rintro ⟨m, hm, h⟩
    rw [minOf_functional ho.min hm]
    simpa using h
  · intro h
    exact ⟨_, ho.min, by simpa using h⟩

omit A in
theorem rocc_unordered {T : Name → Val → Elem → List Elem → Prop} {l : Leaf} (h : l.repeats = false) {v : Val} {e : Elem}
    {es : List Elem} : ROcc x m S T l.unordered v e es ↔ ROcc x m S T l v e es := by
  unfold ROcc
  rw [show l.unordered.repeats = false from h, h]
  exact Iff.rfl

omit A in
/-- The members of an `xs:all` taken as those of a sequence. -/
theorem leaves_unordered {T : Name → Val → Elem → List Elem → Prop} {d : XDoc} {e : Elem} {ps : List Nd} {ls : List Leaf}
    (ho : ∀ p ∈ ps, p.name = c!"element" ∧ Single p) (hL : LeavesFor F path S.namespaces S.get d ps ls) {fs : List (Str × Val)} {es : List Elem}
    (h : RLeaves x m S T (ls.map Leaf.unordered) fs e es) : ∃ es0, RLeaves x m S T ls fs e es0 ∧ es0.Perm es ∧ (m.strict = true → es0 = es) := by
  induction ps generalizing ls fs es with
  | nil =>
    cases hL
    exact ⟨es, h, .refl _, fun _ => rfl⟩
  | cons p ps ih =>
    cases hL with
    | @cons _ _ l ls hl hL =>
      obtain ⟨f, v, fs', es1, es2, h1, h2, h3, h4, h5⟩ := h
      obtain ⟨es0, h6, h7, h8⟩ := ih (fun p hp => ho p (.tail _ hp)) hL h4
      have hs := single_leaf (LeafFor.occ hl) (ho p (.head _)).2
      refine ⟨es1 ++ es0, ⟨f, v, fs', es1, es0, h1, h2, (rocc_unordered hs).1 h3, h6, cat_of_append⟩, (h7.append_left es1).trans (cat_perm h5).symm, fun hm => ?_⟩
      rw [h8 hm]
      obtain ⟨b, n⟩ := m
      cases hm
      exact h5.symm

theorem content_valid {j : Nat} (ih : ∀ i, i < j → Sound x F path S m i) {d : XDoc} {nd : Nd}
    (hitem : ∀ {d p l v e es}, LeafFor F path S.namespaces S.get d p l → RItem x m S (TRepr x m S j) l v e es →
      VOne x F path (!m.strict) (Loosely m.ne) d p es)
    {c : Option ElementContent} {as : List Nd} (hC : ContentFor F path S.namespaces S.get d nd c as) {e : Elem} {fs : List (Str × Val)} {es : List Elem}
    (ha : ∀ a ∈ as, ValidAttr x F path (!m.strict) d a e.1) (h : RContent x m S (TRepr x m S j) c fs e es) {es2 : List Elem}
    (hE : Extra m (LooseContent S c) es es2) : VComplex x F path (!m.strict) (Loosely m.ne) d nd e es2 := by
  cases hC with
  | empty hk =>
    cases hE.tight id
    rw [h.2]
    exact .empty hk ha
  | once hc hn hu hmn hmx hmx' hL =>
    cases hE.tight (leaves_tight hL)
    have := VMany.succ (.sequence hn (leaves_valid hitem hL (leaves_arranged hL.ord h))) (.zero (x := x) (F := F) (path := path) (occ := (Loosely m.ne)))
    rw [List.append_nil] at this
    exact .group hc (.inl hn) ha (.mk this fun _ _ _ _ _ => ⟨by omega, fun _ => rfl⟩)
  | @all _ c ls mx hc hn hu hmn hmx hmx' ho hp hL =>
    obtain ⟨es1, h, hA⟩ := h
    obtain ⟨es0, h, hP, _⟩ := leaves_unordered ho hL h
    have hP := hP.trans (arranged_perm hA)
    have hV := leaves_valid hitem hL h
    have ho : Loosely m.ne c 1 := fun _ _ _ _ _ => ⟨by omega, fun _ => rfl⟩
    rcases hE with rfl | ⟨hs, _, js, hJ⟩
    · exact .all (js := []) hc hn ho ha hV (fun _ => rfl) (by rw [List.append_nil]; exact hP) nofun
    · exact .all hc hn ho ha hV (fun h => absurd h (by rw [hs]; decide)) ((hP.append_right js).trans hJ) nofun
  | @group _ c l hc hn hu hl =>
    have ht : ¬ ∃ l' ∈ [l], LooseLeaf S l' := fun ⟨_, h, h'⟩ => leaf_tight hl (List.mem_singleton.1 h ▸ h')
    cases hE.tight ht
    replace h := leaves_arranged (by simpa using hl.ord) h
    obtain ⟨f, v, fs', es1, es2, _, _, h3, h4, h5⟩ := h
    rw [(cat_append (leaf_tight hl)).1 h5, h4.2, List.append_nil]
    exact .group hc (.inl hn) ha (occ_valid (hitem hl) (LeafFor.occ hl) (leaf_tight hl) h3)
  | @choice _ c vs ln mm rs docs hc hn hu hmn hmx hg hL =>
    cases hE.tight fun h => leaves_tight hL (looseVal_root hg h)
    obtain ⟨f, v, _, _, h⟩ := h
    rcases defn_of_named hg h with ⟨_, h, _⟩ | ⟨_, i, hi, h⟩
    · cases h
    · obtain ⟨l, hl, _, w, _, _, h⟩ := h
      obtain ⟨p, hp, hpl⟩ := leavesFor_mem hL hl
      have := VMany.succ (.choice hn hp (variant_valid ((ih i hi).leaf hpl) (LeafFor.occ hpl) (leaf_tight hpl) h)
          (variant_nonempty (leaf_tight hpl) h))
        (.zero (x := x) (F := F) (path := path) (occ := (Loosely m.ne)))
      rw [List.append_nil] at this
      exact .group hc (.inr hn) ha (.mk this fun _ _ _ _ _ => ⟨by omega, fun _ => rfl⟩)
  | simpleContent hc hn hu hr hrn hur hb hub ht =>
    obtain ⟨f, v, _, _, h⟩ := h
    exact .simpleContent hc hn hr hrn hb ha (typ_valid A ih ht h hE)
  | complexContent hc hn hu hr hrn hur hb hub ht hg =>
    obtain ⟨f, v, _, _, h⟩ := h
    exact .complexContent hc hn hr hrn hb ha hg (typ_valid A ih ht h hE)
  | @extension _ c r g ty lb l hc hn hu hr hrn hur hb hub hg hgn hug hlb ht hla hl =>
    have htb : ¬ LooseLeaf S lb := by
      rintro (h | ⟨_, h⟩)
      · simp [Leaf.anywhere, hlb.1] at h
      · exact base_tight A ht hla h
    have htl : ¬ ∃ l' ∈ [lb, l], LooseLeaf S l' := by
      rintro ⟨l', h, h'⟩
      rcases List.mem_cons.1 h with rfl | h
      · exact htb h'
      · exact leaf_tight hl (List.mem_singleton.1 h ▸ h')
    cases hE.tight htl
    replace h := leaves_arranged (by simpa using ⟨hlb.2.2.2, hl.ord⟩) h
    obtain ⟨f, v, fs', es1, es2, _, _, h3, ⟨f', v', fs'', es1', es2', _, _, h3', h4', h5'⟩, h5⟩ := h
    rw [(cat_append htb).1 h5, (cat_append (leaf_tight hl)).1 h5', h4'.2, List.append_nil]
    refine .extension hc hn hr hrn hb ha hg hgn ?_ (occ_valid (hitem hl) (LeafFor.occ hl) (leaf_tight hl) h3')
    refine typ_valid A ih ht (v := v) ?_ (.inl rfl)
    unfold ROcc at h3
    have h1 : lb.repeats = false := by unfold Leaf.repeats; rw [hlb.2.2.1]; rfl
    have h2 : lb.mayMiss = false := by unfold Leaf.mayMiss; rw [hlb.2.1]; rfl
    rw [h1, h2, if_neg (by decide), if_neg (by decide)] at h3
    unfold RItem at h3
    rw [hlb.1, if_pos rfl] at h3
    exact h3

theorem defn_valid {j : Nat} (ih : ∀ i, i < j → Sound x F path S m i)
    (hitem : ∀ {d p l v e es}, LeafFor F path S.namespaces S.get d p l → RItem x m S (TRepr x m S j) l v e es →
      VOne x F path (!m.strict) (Loosely m.ne) d p es)
    {d : XDoc} {nd : Nd} {r : Root} (hR : RootFor F path S.namespaces S.get d nd r) {v : Val} {e : Elem} {es : List Elem}
    (h : RDefn x m S (TRepr x m S j) r v e es) {es2 : List Elem} (hE : Extra m (LooseRoot S r) es es2) :
    VDefn x F path (!m.strict) (Loosely m.ne) d nd e es2 := by
  match hR with
  | .typed hn ht hu hc => exact .typed hn ht (typ_valid A ih hc h hE)
  | .inline hn ht hc hcn hu hR' => exact .inline hn ht hc hcn (defn_valid ih hitem hR' h hE)
  | .text hn h1 hu =>
    cases hE.tight not_looseVal_literal
    exact simple_valid hn (.text h1 hu) h
  | .enumeration hn h1 hu =>
    cases hE.tight id
    exact simple_valid hn (.enumeration h1 hu) h
  | .complex hn hC hA =>
    obtain ⟨fc, fa, _, h1, h2⟩ := h
    exact .complex hn (content_valid A ih hitem hC (valid_of_attrs A hA e h2) h1 hE)

theorem sound (j : Nat) : Sound x F path S m j := by
  induction j using Nat.strongRecOn with
  | ind j ih =>
    have hleaf : ∀ {d p l v e es}, LeafFor F path S.namespaces S.get d p l → RItem x m S (TRepr x m S j) l v e es →
        VOne x F path (!m.strict) (Loosely m.ne) d p es := by
      intro d p l v e es hl h
      -- one child element
      have elem : l.isVirtual = false → ∀ {q}, Names S.namespaces l.name q → ∃ ch es' es2 js, es = [ch] ∧ ch.1.name = q ∧
          elemKids ch.2 = es2 ++ js ∧ ((!m.strict) = false → js = []) ∧ Extra m (LooseVal S l.definition.content) es' es2 ∧
          RVal x m S (TRepr x m S j) l.definition.content v ch es' := by
        intro hv q hq
        obtain ⟨ch, h1, h2, es', junk, h3, h4, h5⟩ := (ritem_one hv).1 h
        rw [hq.expanded A.inv] at h2
        injection h2 with h2
        obtain ⟨es2, js, h6, h7, h8⟩ := cat_extra h3 h4
        exact ⟨ch, es', es2, js, h1, h2.symm, h6, fun hs => h7 (by simpa using hs), h8, h5⟩
      cases hl with
      | ref hn ho hv hr hq hu hq' hna hc ht hcn =>
        obtain ⟨ch, es', es2, js, rfl, h1, h2, h3, hE, h4⟩ := elem hv hna
        obtain ⟨r, hr', hR⟩ := A.top ht hna
        rw [hc] at h4 hE
        exact .ref hn hr hq hq' ht hcn h1 h2 h3 (named_valid A ih hR hr' h4 hE)
      | typed hn ho hv hr hna hns hl' ht hu hc =>
        obtain ⟨ch, es', es2, js, rfl, h1, h2, h3, hE, h4⟩ := elem hv hl'
        exact .element hn hr hna hns h1 h2 h3 (.typed hn ht (typ_valid A ih hc h4 hE))
      | any hn ho hv hr hna hns hl' ht hk hc =>
        obtain ⟨ch, es', es2, js, rfl, h1, h2, h3, hE, h4⟩ := elem hv hl'
        rw [hc] at h4 hE
        cases hE.tight not_looseVal_literal
        obtain ⟨s, h5, h6, rfl⟩ := literal_valid h4
        exact .element hn hr hna hns h1 h2 h3 (.any hn ht hk h5)
      | inline hn ho hv hr hna hns hl' ht hc hcn hu hm hg hR =>
        obtain ⟨ch, es', es2, js, rfl, h1, h2, h3, hE, h4⟩ := elem hv hl'
        rw [hm] at h4 hE
        exact .element hn hr hna hns h1 h2 h3 (.inline hn ht hc hcn (named_valid A ih hR hg h4 hE))
      | sequence hn ho hv hm hg hL =>
        unfold RItem at h
        rw [hv, if_pos rfl, hm] at h
        rcases defn_of_named hg h with ⟨_, h, _⟩ | ⟨_, i, hi, h⟩
        · cases h
        · obtain ⟨fc, fa, _, h, _⟩ := h
          exact .sequence hn (leaves_valid (fun hl h => (ih i hi).leaf hl h) hL (leaves_arranged hL.ord h))
      | choice hn ho hv hm hg hL =>
        unfold RItem at h
        rw [hv, if_pos rfl, hm] at h
        rcases defn_of_named hg h with ⟨_, h, _⟩ | ⟨_, i, hi, h⟩
        · cases h
        · obtain ⟨l', hl', _, w, _, _, h⟩ := h
          obtain ⟨p', hp', hpl⟩ := leavesFor_mem hL hl'
          exact .choice hn hp' (variant_valid ((ih i hi).leaf hpl) (LeafFor.occ hpl) (leaf_tight hpl) h) (variant_nonempty (leaf_tight hpl) h)
    exact ⟨by intro d nd r v e es hR h es2 hE; exact defn_valid A ih hleaf hR h hE, hleaf⟩

/-- A document that represents a value is valid, up to the number of repetitions. -/
theorem represents_valid {q : QName} {d : XDoc} {c : Nd} (ht : Top F path q d c) {n : Name} (hn : Names S.namespaces n q) {v : Val} {e : Elem}
    (h : DocRepr x m S n v e) : ValidDoc x F path (!m.strict) (Loosely m.ne) q e := by
  obtain ⟨h1, j, es, junk, h2, h3, h4⟩ := h
  obtain ⟨r, hr, hR⟩ := A.top ht hn
  obtain ⟨i, w, h5⟩ := defn_of_trepr hr h4
  rw [hn.expanded A.inv] at h1
  injection h1 with h1
  obtain ⟨es2, js, h6, h7, h8⟩ := cat_extra h2 h3
  exact .mk ht h1.symm h6 (fun hs => h7 (by simpa using hs)) ((sound A i).defn hR h5 (h8.mono (loose_root hr)))

end
end Xsd.Tree
