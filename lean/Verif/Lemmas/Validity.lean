import Verif.Spec.Validity
import Verif.Lemmas.FlatParse
/-!
# Valid documents and the values they represent
-/
namespace Xsd

/-! ## Representation by deeper types -/

section
variable {x : Ext} {m : Mode} {S : SchemaContext} {T T' : Name → Val → Elem → List Elem → Prop} (hT : ∀ n v e es, T n v e es → T' n v e es)
include hT

theorem RVal.mono {c : LeafContent} {v : Val} {e : Elem} {es : List Elem} (h : RVal x m S T c v e es) : RVal x m S T' c v e es := by
  obtain ⟨c', h1, h2⟩ := h
  refine ⟨c', h1, ?_⟩
  cases c' with
  | literal t => exact h2
  | fixed f => exact h2
  | named n => exact hT _ _ _ _ h2

theorem RChild.mono {c : LeafContent} {v : Val} {e : Elem} (h : RChild x m S T c v e) : RChild x m S T' c v e := by
  obtain ⟨es, junk, h1, h2, h3⟩ := h
  exact ⟨es, junk, h1, h2, h3.mono hT⟩

theorem RItem.mono {l : Leaf} {v : Val} {e : Elem} {es : List Elem} (h : RItem x m S T l v e es) : RItem x m S T' l v e es := by
  unfold RItem at *
  split
  · next hl => rw [if_pos hl] at h; exact h.mono hT
  · next hl =>
    rw [if_neg hl] at h
    obtain ⟨ch, h1, h2, h3⟩ := h
    exact ⟨ch, h1, h2, h3.mono hT⟩

theorem RMany.mono {l : Leaf} {vs : List Val} {e : Elem} {es : List Elem} (h : RMany x m S T l vs e es) : RMany x m S T' l vs e es := by
  induction vs generalizing es with
  | nil => exact h
  | cons v vs ih =>
    obtain ⟨es1, es2, h1, h2, h3, h4⟩ := h
    exact ⟨es1, es2, h1.mono hT, h2, ih h3, h4⟩

theorem ROcc.mono {l : Leaf} {v : Val} {e : Elem} {es : List Elem} (h : ROcc x m S T l v e es) : ROcc x m S T' l v e es := by
  unfold ROcc at *
  split
  · next hl =>
    rw [if_pos hl] at h
    obtain ⟨vs, h1, h2⟩ := h
    exact ⟨vs, h1.mono hT, h2⟩
  · next hl =>
    rw [if_neg hl] at h
    split
    · next hm =>
      rw [if_pos hm] at h
      rcases h with h | ⟨w, h1, h2, h3⟩
      · exact .inl h
      · exact .inr ⟨w, h1, h2.mono hT, h3⟩
    · next hm =>
      rw [if_neg hm] at h
      exact h.mono hT

theorem RLeaves.mono {ls : List Leaf} {fs : List (Str × Val)} {e : Elem} {es : List Elem} (h : RLeaves x m S T ls fs e es) :
    RLeaves x m S T' ls fs e es := by
  induction ls generalizing fs es with
  | nil => exact h
  | cons l ls ih =>
    obtain ⟨f, v, fs', es1, es2, h1, h2, h3, h4, h5⟩ := h
    exact ⟨f, v, fs', es1, es2, h1, h2, h3.mono hT, ih h4, h5⟩

theorem RContent.mono {c : Option ElementContent} {fs : List (Str × Val)} {e : Elem} {es : List Elem} (h : RContent x m S T c fs e es) :
    RContent x m S T' c fs e es := by
  match c, h with
  | none, h => exact h
  | some (.leaf n d), h =>
    obtain ⟨f, v, h1, h2, h3⟩ := h
    exact ⟨f, v, h1, h2, h3.mono hT⟩
  | some (.leaves ls), ⟨es', h, ha⟩ => exact ⟨es', RLeaves.mono hT h, ha⟩

theorem RVariant.mono {l : Leaf} {v : Val} {e : Elem} {es : List Elem} (h : RVariant x m S T l v e es) : RVariant x m S T' l v e es := by
  unfold RVariant at *
  split
  · next hl => rw [if_pos hl] at h; exact ⟨h.1.mono hT, h.2⟩
  · next hl =>
    rw [if_neg hl] at h
    split
    · next hm =>
      rw [if_pos hm] at h
      obtain ⟨vs, h1, h2, h3⟩ := h
      exact ⟨vs, h1, h2, h3.mono hT⟩
    · next hm =>
      rw [if_neg hm] at h
      exact h.mono hT

theorem RRoot.mono {r : Root} {v : Val} {e : Elem} {es : List Elem} (h : RRoot x m S T r v e es) : RRoot x m S T' r v e es := by
  cases r with
  | leaf d =>
    obtain ⟨w, h1, h2⟩ := h
    exact ⟨w, h1, h2.mono hT⟩
  | enum ns => exact h
  | element d =>
    obtain ⟨fc, fa, h1, h2, h3⟩ := h
    exact ⟨fc, fa, h1, h2.mono hT, h3⟩
  | choice vs b d =>
    obtain ⟨l, hl, i, w, h1, h2, h3⟩ := h
    exact ⟨l, hl, i, w, h1, h2, h3.mono hT⟩

end

theorem TRepr.mono {x : Ext} {m : Mode} {S : SchemaContext} {j k : Nat} (hjk : j ≤ k) {n : Name} {v : Val} {e : Elem} {es : List Elem}
    (h : TRepr x m S j n v e es) : TRepr x m S k n v e es := by
  induction j generalizing k n v e es with
  | zero => cases h
  | succ j ih =>
    cases k with
    | zero => omega
    | succ k =>
      obtain ⟨r, h1, h2⟩ := h
      exact ⟨r, h1, h2.mono fun n v e es h => ih (by omega) h⟩

namespace Flat

/-! ## Occurrences -/

/-- The value of an element in a record, from the values of its occurrences. -/
def OccShape (rep miss : Bool) (ws : List Val) (v : Val) : Prop :=
  if rep then (if miss then (ws = [] ∧ v = .none) ∨ v = .some (.vec ws) else v = .vec ws)
  else if miss then (v = .none ∧ ws = []) ∨ ∃ w, v = .some w ∧ ws = [w]
  else ws = [v]

theorem OccShape.unique {rep miss : Bool} {ws ws' : List Val} {v : Val} (h : OccShape rep miss ws v) (h' : OccShape rep miss ws' v) :
    ws = ws' := by
  unfold OccShape at *
  cases rep <;> cases miss <;> simp only [if_true, if_false, Bool.false_eq_true] at h h'
  · rw [h, h']
  · rcases h with ⟨rfl, rfl⟩ | ⟨w, rfl, rfl⟩ <;> rcases h' with ⟨h1, rfl⟩ | ⟨w', h1, rfl⟩ <;> cases h1 <;> rfl
  · cases h; cases h'; rfl
  · rcases h with ⟨rfl, rfl⟩ | rfl <;> rcases h' with ⟨rfl, h1⟩ | h1 <;> cases h1 <;> rfl

section
variable {x : Ext} {m : Mode} {S : SchemaContext} {T : Name → Val → Elem → List Elem → Prop}

/-- One occurrence. -/
def OneOf (x : Ext) (m : Mode) (S : SchemaContext) (T : Name → Val → Elem → List Elem → Prop) (l : Leaf) (w : Val) (ch : Elem) : Prop :=
  S.expanded l.name = .ok ch.1.name ∧ RChild x m S T l.definition.content w ch

theorem ritem_one {l : Leaf} (hl : l.isVirtual = false) {v : Val} {e : Elem} {es : List Elem} :
    RItem x m S T l v e es ↔ ∃ ch, es = [ch] ∧ OneOf x m S T l v ch := by
  unfold RItem
  rw [hl, if_neg (by decide)]
  exact Iff.rfl

theorem merge_append {α : Type} (as bs : List α) : Merge as bs (as ++ bs) := by
  induction as with
  | nil =>
    induction bs with
    | nil => exact .nil
    | cons b bs ih => exact .right ih
  | cons a as ih => exact .left ih

theorem cat_append {u : Prop} (ho : ¬ u) {as bs cs : List Elem} : Cat u m as bs cs ↔ cs = as ++ bs := by
  obtain ⟨b, n⟩ := m
  cases b with
  | true => exact Iff.rfl
  | false =>
    constructor
    · exact fun h => h.2 ho
    · intro h
      exact ⟨h ▸ merge_append as bs, fun _ => h⟩

/-- No `xs:all` in the schema. -/
def Ordered (S : SchemaContext) : Prop := ∀ p ∈ S.elements, ∀ l ∈ p.2.leaves, l.isUnordered = false

theorem Ordered.not_loose (ho : Ordered S) {n : Name} : ¬ Loose S n := by
  intro h
  induction h with
  | member h hl ha => simp [Leaf.anywhere, ho _ (alookup_mem h) _ hl] at ha
  | group _ _ _ _ _ ih => exact ih
  | value _ _ _ _ ih => exact ih

theorem Ordered.not_looseVal (ho : Ordered S) {c : LeafContent} : ¬ LooseVal S c := fun ⟨_, _, h⟩ => ho.not_loose h

theorem Ordered.not_looseLeaf (ho : Ordered S) {l : Leaf} (hl : l.isUnordered = false) : ¬ LooseLeaf S l := by
  rintro (h | ⟨_, h⟩)
  · simp [Leaf.anywhere, hl] at h
  · exact ho.not_looseVal h

theorem not_looseLeaf {l : Leaf} (hl : l.isVirtual = false) (ha : l.anywhere = false) : ¬ LooseLeaf S l := by
  simp [LooseLeaf, hl, ha]

theorem repeats_anywhere {l : Leaf} (hr : l.repeats = true) : l.anywhere = false := by simp [Leaf.anywhere, hr]

theorem ordered_anywhere {l : Leaf} (hr : l.isUnordered = false) : l.anywhere = false := by simp [Leaf.anywhere, hr]

theorem rmany_each {l : Leaf} (hl : l.isVirtual = false) (hr : l.repeats = true) {vs : List Val} {e : Elem} {es : List Elem} :
    RMany x m S T l vs e es ↔ Each (OneOf x m S T l) vs es := by
  induction vs generalizing es with
  | nil =>
    constructor
    · intro h; rw [show es = [] from h]; exact .nil
    · intro h; cases h; rfl
  | cons v vs ih =>
    constructor
    · rintro ⟨es1, es2, h1, h2, h3, h4⟩
      obtain ⟨ch, rfl, h1'⟩ := (ritem_one hl).1 h1
      rw [(cat_append (not_looseLeaf hl (repeats_anywhere hr))).1 h4]
      exact .cons h1' (ih.1 h3)
    · intro h
      cases h with
      | @cons _ ch _ es2 h hs => exact ⟨[ch], es2, (ritem_one hl).2 ⟨ch, rfl, h⟩, fun _ => nofun, ih.2 hs, (cat_append (not_looseLeaf hl (repeats_anywhere hr))).2 rfl⟩

theorem rocc_shape {l : Leaf} (hl : l.isVirtual = false) {v : Val} {e : Elem} {es : List Elem} (h : ROcc x m S T l v e es) :
    ∃ ws, OccShape l.repeats l.mayMiss ws v ∧ Each (OneOf x m S T l) ws es := by
  unfold ROcc at h
  unfold OccShape
  cases rep : l.repeats <;> cases miss : l.mayMiss <;> simp only [rep, miss, if_true, if_false, Bool.false_eq_true] at h ⊢
  · obtain ⟨ch, rfl, h'⟩ := (ritem_one hl).1 h
    exact ⟨_, rfl, .cons h' .nil⟩
  · rcases h with ⟨rfl, rfl⟩ | ⟨w, rfl, h, _⟩
    · exact ⟨[], .inl ⟨rfl, rfl⟩, .nil⟩
    · obtain ⟨ch, rfl, h'⟩ := (ritem_one hl).1 h
      exact ⟨[w], .inr ⟨w, rfl, rfl⟩, .cons h' .nil⟩
  · obtain ⟨vs, h1, rfl⟩ := h
    exact ⟨vs, rfl, (rmany_each hl rep).1 h1⟩
  · obtain ⟨vs, h1, ⟨rfl, rfl⟩ | ⟨_, rfl⟩⟩ := h
    · exact ⟨[], .inl ⟨rfl, rfl⟩, (rmany_each hl rep).1 h1⟩
    · exact ⟨vs, .inr rfl, (rmany_each hl rep).1 h1⟩

theorem shape_rocc {l : Leaf} (hl : l.isVirtual = false) {v : Val} {e : Elem} {es : List Elem} {ws : List Val}
    (hs : OccShape l.repeats l.mayMiss ws v) (hne : l.mayMiss = true → v = .some (.vec ws) → ws ≠ []) (h : Each (OneOf x m S T l) ws es) :
    ROcc x m S T l v e es := by
  unfold ROcc
  unfold OccShape at hs
  cases rep : l.repeats <;> cases miss : l.mayMiss <;> simp only [rep, miss, if_true, if_false, Bool.false_eq_true] at hs ⊢
  · cases hs
    cases h with
    | cons h hs => cases hs; exact (ritem_one hl).2 ⟨_, rfl, h⟩
  · rcases hs with ⟨rfl, rfl⟩ | ⟨w, rfl, rfl⟩
    · cases h; exact .inl ⟨rfl, rfl⟩
    · cases h with
      | cons h hs => cases hs; exact .inr ⟨w, rfl, (ritem_one hl).2 ⟨_, rfl, h⟩, fun _ => nofun⟩
  · exact ⟨ws, (rmany_each hl rep).2 h, hs⟩
  · rcases hs with ⟨rfl, rfl⟩ | rfl
    · exact ⟨[], (rmany_each hl rep).2 h, .inl ⟨rfl, rfl⟩⟩
    · exact ⟨ws, (rmany_each hl rep).2 h, .inr ⟨fun _ => hne miss rfl, rfl⟩⟩

end

/-! ## Values with the right number of occurrences -/

/-- The declaration is of a repeated element. -/
def ElementDecl.rep (l : ElementDecl) : Bool := decide (l.max ≠ .number 0 ∧ l.max ≠ .number 1)
/-- The declaration is of an optional element. -/
def ElementDecl.miss (l : ElementDecl) : Bool := decide (l.min = 0)

section
variable (F : Files) (path : Str) (occ : ElementDecl → Nat → Prop)

mutual
/-- In a value of a type, elements occur as often as they should. -/
inductive CountTyp : Typ → Val → Prop where
  | builtin {t v} : CountTyp (.builtin t) v
  | fixed {s v} : CountTyp (.fixed s) v
  | own {q D v} (hc : Component F path q D) (h : CountDef D v) : CountTyp (.own q) v
/-- So in the value of a definition, without the struct around a simple type. -/
inductive CountDef : Def → Val → Prop where
  | text {t v} : CountDef (.text t) v
  | fixed {s v} : CountDef (.fixed s) v
  | enumeration {vs v} : CountDef (.enumeration vs) v
  | sameAs {q D v} (hc : Component F path q D) (h : CountDef D v) : CountDef (.sameAs q) v
  | record {c as fc fa} (h : CountContent c fc) : CountDef (.record c as) (.struct (fc ++ fa))
/-- So in the fields for the content. -/
inductive CountContent : Content → List (Str × Val) → Prop where
  | empty : CountContent .empty []
  | text {t f v} : CountContent (.text t) [(f, v)]
  | elements {ls fs} (h : CountSeq ls fs) : CountContent (.elements ls) fs
/-- So in the fields for a sequence. -/
inductive CountSeq : List ElementDecl → List (Str × Val) → Prop where
  | nil : CountSeq [] []
  | cons {l ls f v fs ws} (hw : ∀ w ∈ ws, CountTyp l.typ w) (ho : occ l ws.length) (hs : OccShape l.rep l.miss ws v)
      (h : CountSeq ls fs) : CountSeq (l :: ls) ((f, v) :: fs)
end
end

theorem Names.expanded {S : SchemaContext} (hi : S.namespaces.Inv) {n : Name} {q : QName} (h : Names S.namespaces n q) :
    S.expanded n = .ok q := by
  obtain ⟨n, ns⟩ := n
  obtain ⟨loc, u⟩ := q
  obtain ⟨h1, h2⟩ := h
  cases h1
  unfold SchemaContext.expanded SchemaContext.uriOf
  cases ns with
  | none =>
    cases u with
    | none => rfl
    | some u => cases h2
  | id i =>
    cases u with
    | none => cases h2
    | some u =>
      obtain ⟨p, hp⟩ := (hi.agree u i).1 h2
      simp only [hp]
      rfl

theorem hasText_iff {m : Mode} {e : Elem} {s : Str} : HasText (!m.strict) e s ↔ TextIs m e s := by
  obtain ⟨b, n⟩ := m
  cases b with
  | true =>
    constructor
    · rintro (h | h | ⟨h, _⟩)
      · exact .inl ⟨h, rfl⟩
      · exact .inr h
      · cases h
    · rintro (⟨h, rfl⟩ | h)
      · exact .none h
      · exact .some h
  | false =>
    constructor
    · rintro (h | h | ⟨_, h⟩)
      · exact .inl ⟨h, rfl⟩
      · exact .inr ⟨_, h⟩
      · exact .inr ⟨_, h⟩
    · rintro (⟨h, rfl⟩ | ⟨rest, h⟩)
      · exact .none h
      · exact .more rfl h

theorem HasText.kids {e : Elem} {s : Str} (h : HasText false e s) : elemKids e.2 = [] := by
  cases h with
  | none h => rw [h]; rfl
  | some h => rw [h]; rfl
  | more h _ => cases h

/-- The child elements are `es`, and if not strict any others after that. -/
def Seg (m : Mode) (es : List Elem) (e : Elem) : Prop := ∃ js, elemKids e.2 = es ++ js ∧ (m.strict = true → js = [])

theorem seg_all {m : Mode} {e : Elem} : Seg m (elemKids e.2) e := ⟨[], (List.append_nil _).symm, fun _ => rfl⟩

/-! ## Valid documents represent values -/

section
variable {x : Ext} {F : Files} {path : Str} {k : Nat} {P : PSchema} (h : parseFile x F k path = .ok P) (B : FlatFile x F path) {m : Mode}
include h B

theorem FlatFile.ordered : Ordered P.context := by
  rintro ⟨n, r⟩ hp l hl
  obtain ⟨q, D, hD, hn, hR⟩ := B.component h (alookup_of_mem (B.schema h).keys hp)
  cases hR with
  | record hcon _ _ =>
    replace hl : l ∈ (match ElementDef.content _ with | some (.leaves ls) => ls | _ => []) := hl
    generalize ElementDef.content _ = ec at hcon hl
    cases hcon with
    | elements hE =>
      obtain ⟨d, _, hd⟩ := each_mem_right hE hl
      exact hd.ord
    | _ => cases hl
  | _ => cases hl

/-- A value inside an element is one of the definition. -/
theorem rval_of_root {j : Nat} {n : Name} {r : Root} (hr : P.context.get n = some r) {v : Val} {e : Elem} {es : List Elem}
    (hv : TRepr x m P.context j n v e es) :
    (r.Structured ∧ RVal x m P.context (TRepr x m P.context j) (.named n) v e es) ∨
    (¬ r.Structured ∧ ∃ w, v = .newtype w ∧ RVal x m P.context (TRepr x m P.context j) (.named n) w e es) := by
  have hS := B.schema h
  cases r with
  | leaf d =>
    refine .inr ⟨fun h => h, ?_⟩
    cases j with
    | zero => cases hv
    | succ j =>
      obtain ⟨r, hr', hv⟩ := hv
      rw [hr] at hr'
      cases hr'
      obtain ⟨w, rfl, c', hm, hc⟩ := hv
      refine ⟨w, rfl, RVal.mono (fun n v e es h => TRepr.mono (Nat.le_succ j) h) ⟨c', .alias hr hm, hc⟩⟩
  | enum ns => exact .inl ⟨trivial, _, .name (by rw [hr]; nofun), hv⟩
  | element d => exact .inl ⟨trivial, _, .name (by rw [hr]; nofun), hv⟩
  | choice vs b d => exact absurd hr (hS.choices _ _ _ _)

theorem root_of_rval {j : Nat} {n : Name} {r : Root} (hr : P.context.get n = some r) {v : Val} {e : Elem} {es : List Elem}
    (hv : RVal x m P.context (TRepr x m P.context j) (.named n) v e es) :
    (r.Structured ∧ TRepr x m P.context j n v e es) ∨ (¬ r.Structured ∧ TRepr x m P.context (j + 1) n (.newtype v) e es) := by
  have hS := B.schema h
  obtain ⟨c', hm, hc⟩ := hv
  cases hm with
  | alias hg hm =>
    rw [hr] at hg
    cases hg
    exact .inr ⟨fun h => h, _, hr, v, rfl, _, hm, hc⟩
  | name hno =>
    cases r with
    | leaf d => exact absurd hr (hno d)
    | enum ns => exact .inl ⟨trivial, hc⟩
    | element d => exact .inl ⟨trivial, hc⟩
    | choice vs b d => exact absurd hr (hS.choices _ _ _ _)

/-- The values of attributes. -/
theorem value_str {ty : Typ} {s : Str} {c : LeafContent} (hc : TypIs P.context.namespaces ty c)
    (hok : ∀ q, ty = .own q → ∃ D, Component F path q D ∧ ((∃ t, D = .text t ∧ t.prim = .string) ∨ ∃ vs, D = .enumeration vs)) :
    ValidValue x F path (!m.strict) ty s ↔ ∃ v, RStr x m P.context c s v := by
  cases hc with
  | builtin =>
    constructor
    · intro hs; cases hs with | builtin hs => exact hs
    · rintro hv; exact .builtin hv
  | fixed =>
    constructor
    · intro hs
      cases hs with
      | fixed hj => exact ⟨.unit, rfl, fun hs => hj (by rw [hs]; rfl)⟩
    · rintro ⟨v, hv⟩
      exact .fixed fun hs => hv.2 (by simpa using hs)
  | @own q n hn =>
    obtain ⟨D, hD, hcase⟩ := hok q rfl
    obtain ⟨n', r, hn', hr, hR⟩ := B.definition h hD
    cases hn.same hn'
    have huniq : ∀ D', Component F path q D' → RootIs P.context.namespaces n D' r := by
      intro D' hD'
      obtain ⟨n', r', hn', hr', hR'⟩ := B.definition h hD'
      cases hn.same hn'
      rw [hr] at hr'
      cases hr'
      exact hR'
    rcases hcase with ⟨t, rfl, ht⟩ | ⟨vs, rfl⟩
    · cases hR
      constructor
      · intro _
        exact ⟨.str s, _, .alias hr (.literal _), ht, rfl⟩
      · intro _
        exact .text hD ⟨.str s, by rw [ht]; rfl⟩
    · cases hR
      obtain ⟨tab, h1, h2, _, _⟩ := C25_variants (x := x) (vs.map (fun v => (⟨v, .none⟩ : Name)))
      rw [List.map_map] at h2
      constructor
      · intro hs
        cases hs with
        | text hcomp hs => cases huniq _ hcomp
        | @enumeration _ ws _ hcomp hs =>
          have : vs = ws := by
            have hu := huniq _ hcomp
            generalize hr' : Root.enum (vs.map (fun v => (⟨v, .none⟩ : Name))) = r' at hu
            cases hu with
            | enumeration _ =>
              injection hr' with hr'
              exact (List.map_inj_right (fun a b hab => by injection hab)).1 hr'
          subst this
          have hmem : s ∈ tab.map Prod.snd := by
            rw [h2]
            exact List.mem_map.2 ⟨s, hs, rfl⟩
          obtain ⟨⟨vn, s'⟩, hp, rfl⟩ := List.mem_map.1 hmem
          exact ⟨.enumv vn, _, .name (by rw [hr]; nofun), _, tab, vn, hr, h1, hp, rfl⟩
      · rintro ⟨v, c', hm, hc⟩
        cases hm with
        | alias hg _ => rw [hr] at hg; cases hg
        | name hno =>
          obtain ⟨names, tab', vn, h3, h4, h5, _⟩ := hc
          rw [hr] at h3
          cases h3
          rw [h1] at h4
          cases h4
          refine .enumeration hD ?_
          have := List.mem_map_of_mem (f := Prod.snd) h5
          rw [h2] at this
          obtain ⟨w, hw, he⟩ := List.mem_map.1 this
          cases he
          exact hw

/-- The attributes of a record. -/
theorem attributes_valid {as : List AttributeDecl} {bs : List Attribute} (hE : Each (AttrIs P.context.namespaces) as bs)
    (hu : ∀ a ∈ as, Usable x (x.snake a.name))
    (hok : ∀ a ∈ as, ∀ q, a.typ = .own q → ∃ D, Component F path q D ∧ ((∃ t, D = .text t ∧ t.prim = .string) ∨ ∃ vs, D = .enumeration vs))
    (e : Elem) : (∀ a ∈ as, ValidAttribute x F path (!m.strict) a e.1) ↔ ∃ fs, RAttrs x m P.context bs fs e := by
  induction hE with
  | nil => exact ⟨fun _ => ⟨[], rfl⟩, fun _ => nofun⟩
  | @cons a b as bs hab hs ih =>
    replace ih := ih (fun a ha => hu a (.tail _ ha)) (fun a ha => hok a (.tail _ ha))
    have hval : ∀ s, _ := fun s => value_str h B (m := m) (s := s) hab.typ (hok a (.head _))
    obtain ⟨f, hf⟩ := (Good.escapeIdent_iff x).2 (hu a (.head _))
    have hf' : fieldIdent x b.name = .ok f := by rw [hab.name]; exact hf
    constructor
    · intro hv
      obtain ⟨fs, hfs⟩ := ih.1 (fun a ha => hv a (.tail _ ha))
      cases hv a (.head _) with
      | present hp hpv =>
        obtain ⟨w, hw⟩ := (hval _).1 hpv
        cases hopt : b.isOptional with
        | true =>
          refine ⟨_, f, .some w, fs, rfl, hf', hfs, ?_⟩
          rw [hopt, if_pos rfl]
          exact .inr ⟨_, w, by rw [hab.name]; exact hp, rfl, hw⟩
        | false =>
          refine ⟨_, f, w, fs, rfl, hf', hfs, ?_⟩
          rw [hopt, if_neg (by decide)]
          exact ⟨_, by rw [hab.name]; exact hp, hw⟩
      | missing hm hreq =>
        refine ⟨_, f, .none, fs, rfl, hf', hfs, ?_⟩
        rw [hab.req, hreq, if_pos (by rfl)]
        exact .inl ⟨rfl, by rw [hab.name]; exact hm⟩
    · rintro ⟨fs, f', v, fs', rfl, _, h2, h3⟩
      refine List.forall_mem_cons.2 ⟨?_, ih.2 ⟨_, h2⟩⟩
      split at h3
      · next hopt =>
        rcases h3 with ⟨_, h3⟩ | ⟨s, w, h3, _, h4⟩
        · refine .missing (by rw [hab.name] at h3; exact h3) ?_
          rw [hab.req] at hopt
          simpa using hopt
        · exact .present (by rw [hab.name] at h3; exact h3) ((hval s).2 ⟨w, h4⟩)
      · obtain ⟨s, h3, h4⟩ := h3
        exact .present (by rw [hab.name] at h3; exact h3) ((hval s).2 ⟨v, h4⟩)

end

theorem occShape_exists {l : ElementDecl} {ws : List Val} (h : OccursLoosely l ws.length) :
    ∃ v, OccShape l.rep l.miss ws v ∧ (l.miss = true → v = .some (.vec ws) → ws ≠ []) := by
  unfold OccShape
  cases hr : l.rep with
  | true =>
    simp only [if_true]
    cases l.miss with
    | false => exact ⟨_, rfl, nofun⟩
    | true =>
      simp only [if_true]
      cases ws with
      | nil => exact ⟨_, .inl ⟨rfl, rfl⟩, nofun⟩
      | cons w ws => exact ⟨_, .inr rfl, fun _ _ => nofun⟩
  | false =>
    simp only [Bool.false_eq_true, if_false]
    have hmx : l.max = .number 0 ∨ l.max = .number 1 := by
      unfold ElementDecl.rep at hr
      simp only [ne_eq, decide_eq_false_iff_not, not_and, Classical.not_not] at hr
      by_cases h0 : l.max = .number 0
      · exact .inl h0
      · exact .inr (hr h0)
    obtain ⟨h1, h2⟩ := h hmx
    cases hm : l.miss with
    | false =>
      have hmn : l.min ≠ 0 := by
        intro h0
        unfold ElementDecl.miss at hm
        rw [h0] at hm
        cases hm
      have := h2 hmn
      match ws, this with
      | [w], _ => exact ⟨w, rfl, nofun⟩
    | true =>
      simp only [if_true]
      match ws, h1 with
      | [], _ => exact ⟨_, .inl ⟨rfl, rfl⟩, nofun⟩
      | [w], _ => exact ⟨_, .inr ⟨w, rfl, rfl⟩, fun _ _ => nofun⟩

theorem occShape_loose {l : ElementDecl} {ws : List Val} {v : Val} (h : OccShape l.rep l.miss ws v) : OccursLoosely l ws.length := by
  intro hmx
  have hr : l.rep = false := by
    unfold ElementDecl.rep
    rcases hmx with h | h <;> rw [h] <;> decide
  unfold OccShape at h
  rw [hr, if_neg (by decide)] at h
  cases hm : l.miss with
  | false =>
    rw [hm, if_neg (by decide)] at h
    rw [h]
    exact ⟨Nat.le_refl _, fun _ => rfl⟩
  | true =>
    rw [hm, if_pos rfl] at h
    have hmn : l.min = 0 := of_decide_eq_true hm
    rcases h with ⟨_, rfl⟩ | ⟨w, _, rfl⟩
    · exact ⟨Nat.zero_le _, fun h => absurd hmn h⟩
    · exact ⟨Nat.le_refl _, fun _ => rfl⟩

theorem LeafIs.shape {t : Namespaces} {d : ElementDecl} {l : Leaf} (h : LeafIs t d l) : l.repeats = d.rep ∧ l.mayMiss = d.miss := by
  unfold Leaf.repeats Leaf.mayMiss ElementDecl.rep ElementDecl.miss
  rw [h.min, h.max]
  exact ⟨rfl, rfl⟩

theorem OneOf.mono {x : Ext} {m : Mode} {S : SchemaContext} {T T' : Name → Val → Elem → List Elem → Prop} (hT : ∀ n v e es, T n v e es → T' n v e es)
    {l : Leaf} {w : Val} {ch : Elem} (h : OneOf x m S T l w ch) : OneOf x m S T' l w ch := ⟨h.1, h.2.mono hT⟩

theorem each_length {α β : Type} {R : α → β → Prop} {as : List α} {bs : List β} (h : Each R as bs) : as.length = bs.length := by
  induction h with
  | nil => rfl
  | cons h hs ih => rw [List.length_cons, List.length_cons, ih]

theorem Each.imp {α β : Type} {R R' : α → β → Prop} (hr : ∀ a b, R a b → R' a b) {as : List α} {bs : List β} (h : Each R as bs) : Each R' as bs := by
  induction h with
  | nil => exact .nil
  | cons h hs ih => exact .cons (hr _ _ h) ih

section
variable {x : Ext} {F : Files} {path : Str} {k : Nat} {P : PSchema} (h : parseFile x F k path = .ok P) (B : FlatFile x F path)
  {occ : ElementDecl → Nat → Prop} (hocc : ∀ l n, occ l n → OccursLoosely l n)

theorem trepr_le {m : Mode} {i j : Nat} (hij : i ≤ j) : ∀ n v e es, TRepr x m P.context i n v e es → TRepr x m P.context j n v e es :=
  fun _ _ _ _ h => TRepr.mono hij h

/-- The words for the content of a record. -/
def contentWords (q : QName) : Content → List Str
  | .empty => []
  | .text _ => [q.loc]
  | .elements ls => ls.map (fun l => l.name.loc)

include h

theorem children_repr {l : Leaf} {d : ElementDecl} (hl : LeafIs P.context.namespaces d l) {es : List Elem}
    (hn : ∀ e ∈ es, e.1.name = d.name) (hv : ∀ e ∈ es, ∃ v j, RVal x .exact P.context (TRepr x .exact P.context j) l.definition.content v e (elemKids e.2) ∧
      CountTyp F path occ d.typ v) :
    ∃ ws j, Each (OneOf x .exact P.context (TRepr x .exact P.context j) l) ws es ∧ ∀ w ∈ ws, CountTyp F path occ d.typ w := by
  induction es with
  | nil => exact ⟨[], 0, .nil, nofun⟩
  | cons e es ih =>
    obtain ⟨ws, j, h1, h2⟩ := ih (fun e he => hn e (.tail _ he)) (fun e he => hv e (.tail _ he))
    obtain ⟨v, j', h3, h4⟩ := hv e (.head _)
    refine ⟨v :: ws, max j j', .cons ⟨?_, _, [], (List.append_nil _).symm, fun _ => rfl, h3.mono (trepr_le (Nat.le_max_right j j'))⟩
      (Each.imp (fun a b hab => hab.mono (trepr_le (Nat.le_max_left j j'))) h1), List.forall_mem_cons.2 ⟨h4, h2⟩⟩
    rw [hn e (.head _)]
    exact hl.name.expanded (parsed_inv h)

include B hocc

mutual
theorem validTyp_repr {ty : Typ} {e : Elem} (hv : ValidTyp x F path false occ ty e) {c : LeafContent} (hc : TypIs P.context.namespaces ty c) :
    ∃ v j, RVal x .exact P.context (TRepr x .exact P.context j) c v e (elemKids e.2) ∧ CountTyp F path occ ty v := by
  match hv with
  | .builtin ht hl =>
    obtain ⟨v, hl⟩ := hl
    cases hc
    exact ⟨v, 0, ⟨_, .literal _, _, (hasText_iff (m := .exact)).1 ht, hl, ht.kids⟩, .builtin⟩
  | .fixed ht =>
    cases hc
    exact ⟨.unit, 0, ⟨_, .fixed _, (hasText_iff (m := .exact)).1 ht, rfl, ht.kids⟩, .fixed⟩
  | .own hD hd =>
    cases hc with
    | own hn =>
      obtain ⟨v, j, h1, h2⟩ := validDef_repr hd hD hn
      exact ⟨v, j, h1, .own hD h2⟩
theorem validDef_repr {D : Def} {e : Elem} (hv : ValidDef x F path false occ D e) {q : QName} {n : Name} (hD : Component F path q D)
    (hn : Names P.context.namespaces n q) :
    ∃ v j, RVal x .exact P.context (TRepr x .exact P.context j) (.named n) v e (elemKids e.2) ∧ CountDef F path occ D v := by
  obtain ⟨n', r, hn', hr, hR⟩ := B.definition h hD
  cases hn.same hn'
  match hv with
  | .text ht hl =>
    obtain ⟨v, hl⟩ := hl
    cases hR
    exact ⟨v, 0, ⟨_, .alias hr (.literal _), _, (hasText_iff (m := .exact)).1 ht, hl, ht.kids⟩, .text⟩
  | .fixed ht =>
    cases hR
    exact ⟨.unit, 0, ⟨_, .alias hr (.fixed _), (hasText_iff (m := .exact)).1 ht, rfl, ht.kids⟩, .fixed⟩
  | .enumeration (vs := vs) (s := s) ht hs =>
    cases hR
    obtain ⟨tab, h1, h2, _, _⟩ := C25_variants (x := x) (vs.map (fun v => (⟨v, .none⟩ : Name)))
    rw [List.map_map] at h2
    have hmem : s ∈ tab.map Prod.snd := by
      rw [h2]
      exact List.mem_map.2 ⟨s, hs, rfl⟩
    obtain ⟨⟨vn, s'⟩, hp, rfl⟩ := List.mem_map.1 hmem
    exact ⟨.enumv vn, 1, ⟨_, .name (by rw [hr]; nofun), _, hr, tab, vn, _, h1, hp, (hasText_iff (m := .exact)).1 ht, rfl, ht.kids⟩, .enumeration⟩
  | .sameAs hD' hd =>
    cases hR with
    | sameAs hm =>
      obtain ⟨v, j, ⟨c', h1, h2⟩, h3⟩ := validDef_repr hd hD' hm
      exact ⟨v, j, ⟨c', .alias hr h1, h2⟩, .sameAs hD' h3⟩
  | .record (c := c) (as := as) ha hc =>
    cases hR with
    | record hcon hat hvirt =>
      have hs := B.components _ _ hD
      have hus : ∀ w ∈ contentWords q c ++ as.map AttributeDecl.name, Usable x (x.snake w) := by
        intro w hw
        refine ((hs.fields c as rfl).2 w ?_).1
        unfold fieldWords
        cases c <;> exact hw
      obtain ⟨fc, j, h1, h2⟩ := validContent_repr hc hn hcon (fun w hw => hus w (List.mem_append_left _ hw))
      obtain ⟨fa, h3⟩ := (attributes_valid h B (m := .exact) hat (fun a ha => hus _ (List.mem_append_right _ (List.mem_map_of_mem ha)))
        (fun a ha => (hs.attributes c as rfl a ha).2.2) e).1 ha
      exact ⟨.struct (fc ++ fa), j + 1, ⟨_, .name (by rw [hr]; nofun), _, hr, fc, fa, rfl, h1, h3⟩, .record h2⟩
theorem validContent_repr {c : Content} {e : Elem} (hv : ValidContent x F path false occ c e) {q : QName} {n : Name}
    (hn : Names P.context.namespaces n q) {ec : Option ElementContent} (hc : ContentIs P.context.namespaces n c ec)
    (hu : ∀ w ∈ contentWords q c, Usable x (x.snake w)) :
    ∃ fs j, RContent x .exact P.context (TRepr x .exact P.context j) ec fs e (elemKids e.2) ∧ CountContent F path occ c fs := by
  match hv with
  | .empty hk =>
    cases hc
    exact ⟨[], 0, ⟨rfl, hk rfl⟩, .empty⟩
  | .text ht hl =>
    obtain ⟨v, hl⟩ := hl
    cases hc
    obtain ⟨f, hf⟩ := (Good.escapeIdent_iff x).2 (hu q.loc (.head _))
    refine ⟨[(f, v)], 0, ⟨f, v, rfl, by unfold fieldIdent; rw [hn.1]; exact hf, _, .literal _, _, (hasText_iff (m := .exact)).1 ht, hl, ht.kids⟩, .text⟩
  | .elements he hj hs =>
    cases hc with
    | elements hE =>
      rw [hj rfl, List.append_nil] at he
      rw [he]
      obtain ⟨fs, j, h1, h2⟩ := validSeq_repr hs hE (fun d hd => hu _ (List.mem_map_of_mem hd)) e
      exact ⟨fs, j, ⟨_, h1, .inl rfl⟩, .elements h2⟩
theorem validSeq_repr {ds : List ElementDecl} {es : List Elem} (hv : ValidSeq x F path false occ ds es) {ls : List Leaf}
    (hE : Each (LeafIs P.context.namespaces) ds ls) (hu : ∀ d ∈ ds, Usable x (x.snake d.name.loc)) (e : Elem) :
    ∃ fs j, RLeaves x .exact P.context (TRepr x .exact P.context j) ls fs e es ∧ CountSeq F path occ ds fs := by
  match hv with
  | .nil =>
    cases hE
    exact ⟨[], 0, ⟨rfl, rfl⟩, .nil⟩
  | .cons (l := d) hn hc ho hs =>
    cases hE with
    | @cons _ l _ ls hl hE =>
      obtain ⟨fs, j, h1, h2⟩ := validSeq_repr hs hE (fun d hd => hu d (.tail _ hd)) e
      obtain ⟨ws, j', h3, h4⟩ := children_repr h hl hn (fun e he => validTyp_repr (hc e he) hl.typ)
      have hlen := each_length h3
      obtain ⟨v, hsh, hne⟩ := occShape_exists (l := d) (ws := ws) (by rw [hlen]; exact hocc _ _ ho)
      obtain ⟨f, hf⟩ := (Good.escapeIdent_iff x).2 (hu d (.head _))
      refine ⟨(f, v) :: fs, max j j', ⟨f, v, fs, _, _, rfl, ?_, ?_, RLeaves.mono (trepr_le (Nat.le_max_left j j')) h1, rfl⟩, ?_⟩
      · unfold fieldIdent
        rw [hl.name.1]
        exact hf
      · refine shape_rocc hl.virt (by rw [hl.shape.1, hl.shape.2]; exact hsh) (by rw [hl.shape.2]; exact hne) ?_
        exact (Each.imp (fun a b hab => hab.mono (trepr_le (Nat.le_max_right j j'))) h3)
      · exact .cons h4 (by rw [hlen]; exact ho) hsh h2
end

end

/-! ## Represented values come from valid documents -/

/-- The members are in order. -/
theorem eachLeaf_arranged {x : Ext} {m : Mode} {S : SchemaContext} {T : Name → Val → Elem → List Elem → Prop} {t : Namespaces}
    {ds : List ElementDecl} {ls : List Leaf} (hE : Each (LeafIs t) ds ls) {fs : List (Str × Val)} {e : Elem} {es : List Elem}
    (h : RContent x m S T (some (.leaves ls)) fs e es) : RLeaves x m S T ls fs e es := by
  obtain ⟨es', h, ha⟩ := h
  cases hE with
  | nil =>
    have := h.2
    subst this
    cases ha.nil_iff.2 rfl
    exact h
  | cons hl _ => exact ha.eq (.head _) (ordered_anywhere hl.ord) ▸ h

theorem CountContent.length {F : Files} {path : Str} {occ : ElementDecl → Nat → Prop} {t : Namespaces} {n : Name} {c : Content}
    {ec : Option ElementContent} {fs fs' : List (Str × Val)} (hc : CountContent F path occ c fs) (hE : ContentIs t n c ec) {x : Ext} {m : Mode} {S : SchemaContext}
    {T : Name → Val → Elem → List Elem → Prop} {e : Elem} {es : List Elem} (h : RContent x m S T ec fs' e es) : fs.length = fs'.length := by
  have h1 : ∀ {ls fs}, CountSeq F path occ ls fs → fs.length = ls.length := by
    intro ls
    induction ls with
    | nil => intro fs h; cases h; rfl
    | cons l ls ih =>
      intro fs h
      cases h with
      | cons _ _ _ h => rw [List.length_cons, List.length_cons, ih h]
  have h2 : ∀ {ls fs es}, RLeaves x m S T ls fs e es → fs.length = ls.length := by
    intro ls
    induction ls with
    | nil => intro fs es h; rw [h.1]; rfl
    | cons l ls ih =>
      rintro fs es ⟨f, v, fs', es1, es2, rfl, _, _, h, _⟩
      rw [List.length_cons, List.length_cons, ih h]
  cases hE with
  | empty => cases hc; rw [h.1]
  | text =>
    cases hc
    obtain ⟨f, v, rfl, _⟩ := h
    rfl
  | elements hE =>
    cases hc with
    | elements hc => obtain ⟨_, h, _⟩ := h; rw [h1 hc, h2 h, each_length hE]

section
variable {x : Ext} {F : Files} {path : Str} {k : Nat} {P : PSchema} (h : parseFile x F k path = .ok P) (B : FlatFile x F path)
  {occ : ElementDecl → Nat → Prop} {m : Mode}
include h B

mutual
theorem countTyp_valid {ty : Typ} {v : Val} (hv : CountTyp F path occ ty v) {c : LeafContent} (hc : TypIs P.context.namespaces ty c)
    {j : Nat} {e : Elem} {es : List Elem} (hes : Seg m es e) (hr : RVal x m P.context (TRepr x m P.context j) c v e es) : ValidTyp x F path (!m.strict) occ ty e := by
  match hv with
  | .builtin =>
    cases hc
    obtain ⟨c', hm, hr⟩ := hr
    cases hm
    obtain ⟨s, h1, h2, _⟩ := hr
    exact .builtin (hasText_iff.2 h1) ⟨v, h2⟩
  | .fixed =>
    cases hc
    obtain ⟨c', hm, hr⟩ := hr
    cases hm
    exact .fixed (hasText_iff.2 hr.1)
  | .own hD hd =>
    cases hc with
    | own hn => exact .own hD (countDef_valid hd hD hn hes hr)
theorem countDef_valid {D : Def} {v : Val} (hv : CountDef F path occ D v) {q : QName} {n : Name} (hD : Component F path q D)
    (hn : Names P.context.namespaces n q) {j : Nat} {e : Elem} {es : List Elem} (hes : Seg m es e)
    (hr : RVal x m P.context (TRepr x m P.context j) (.named n) v e es) : ValidDef x F path (!m.strict) occ D e := by
  obtain ⟨n', r, hn', hg, hR⟩ := B.definition h hD
  cases hn.same hn'
  obtain ⟨c', hm, hr⟩ := hr
  match hv with
  | .text =>
    cases hR
    cases hm with
    | name hno => exact absurd hg (hno _)
    | alias hg' hm =>
      rw [hg] at hg'
      cases hg'
      cases hm
      obtain ⟨s, h1, h2, _⟩ := hr
      exact .text (hasText_iff.2 h1) ⟨v, h2⟩
  | .fixed =>
    cases hR
    cases hm with
    | name hno => exact absurd hg (hno _)
    | alias hg' hm =>
      rw [hg] at hg'
      cases hg'
      cases hm
      exact .fixed (hasText_iff.2 hr.1)
  | .enumeration (vs := vs) =>
    cases hR
    cases hm with
    | alias hg' hm => rw [hg] at hg'; cases hg'
    | name hno =>
      cases j with
      | zero => cases hr
      | succ j =>
        obtain ⟨r, hg', hr⟩ := hr
        rw [hg] at hg'
        cases hg'
        obtain ⟨tab, vn, s, h1, h2, h3, _⟩ := hr
        obtain ⟨tab', h4, h5, _, _⟩ := C25_variants (x := x) (vs.map (fun v => (⟨v, .none⟩ : Name)))
        rw [h1] at h4
        cases h4
        refine .enumeration (hasText_iff.2 h3) ?_
        have := List.mem_map_of_mem (f := Prod.snd) h2
        rw [h5, List.map_map] at this
        obtain ⟨w, hw, he⟩ := List.mem_map.1 this
        cases he
        exact hw
  | .sameAs hD' hd =>
    cases hR with
    | sameAs hn' =>
      cases hm with
      | name hno => exact absurd hg (hno _)
      | alias hg' hm =>
        rw [hg] at hg'
        cases hg'
        exact .sameAs hD' (countDef_valid hd hD' hn' hes ⟨c', hm, hr⟩)
  | .record (c := c) (as := as) (fc := fc) (fa := fa) hc =>
    cases hR with
    | record hcon hat hvirt =>
      cases hm with
      | alias hg' hm => rw [hg] at hg'; cases hg'
      | name hno =>
        cases j with
        | zero => cases hr
        | succ j =>
          obtain ⟨r, hg', hr⟩ := hr
          rw [hg] at hg'
          cases hg'
          obtain ⟨fc', fa', h1, h2, h3⟩ := hr
          injection h1 with h1
          obtain ⟨rfl, rfl⟩ := List.append_inj h1 (CountContent.length hc hcon h2)
          have hs := B.components _ _ hD
          have hus : ∀ a ∈ as, Usable x (x.snake a.name) := by
            intro a ha
            refine ((hs.fields c as rfl).2 _ ?_).1
            unfold fieldWords
            exact List.mem_append_right _ (List.mem_map_of_mem ha)
          exact .record ((attributes_valid h B hat hus (fun a ha => (hs.attributes c as rfl a ha).2.2) e).2 ⟨_, h3⟩)
            (countContent_valid hc hcon hes h2)
theorem countContent_valid {c : Content} {fs : List (Str × Val)} (hv : CountContent F path occ c fs) {n : Name}
    {ec : Option ElementContent} (hc : ContentIs P.context.namespaces n c ec) {j : Nat} {e : Elem} {es : List Elem} (hes : Seg m es e)
    (hr : RContent x m P.context (TRepr x m P.context j) ec fs e es) : ValidContent x F path (!m.strict) occ c e := by
  match hv with
  | .empty =>
    cases hc
    obtain ⟨js, h1, h2⟩ := hes
    refine .empty fun hs => ?_
    rw [h1, hr.2, h2 (by simpa using hs)]
    rfl
  | .text =>
    cases hc
    obtain ⟨f, v, h1, h2, c', hm, hr⟩ := hr
    cases hm
    obtain ⟨s, h3, h4, _⟩ := hr
    exact .text (hasText_iff.2 h3) ⟨_, h4⟩
  | .elements hs =>
    cases hc with
    | elements hE =>
      obtain ⟨js, h1, h2⟩ := hes
      exact .elements h1 (fun hs => h2 (by simpa using hs)) (countSeq_valid hs hE (eachLeaf_arranged hE hr))
theorem countSeq_valid {ds : List ElementDecl} {fs : List (Str × Val)} (hv : CountSeq F path occ ds fs) {ls : List Leaf}
    (hE : Each (LeafIs P.context.namespaces) ds ls) {j : Nat} {e : Elem} {es : List Elem}
    (hr : RLeaves x m P.context (TRepr x m P.context j) ls fs e es) : ValidSeq x F path (!m.strict) occ ds es := by
  match hv with
  | .nil =>
    cases hE
    rw [hr.2]
    exact .nil
  | .cons (l := d) (ws := ws) hw ho hsh hs =>
    cases hE with
    | @cons _ l _ ls hl hE =>
      obtain ⟨f', v', fs', es1, es2, h1, h2, h3, h4, h5⟩ := hr
      injection h1 with h1 h1'
      injection h1 with _ h1
      subst h1 h1'
      rw [(cat_append (not_looseLeaf hl.virt (ordered_anywhere hl.ord))).1 h5]
      replace h3 := rocc_shape hl.virt h3
      rw [hl.shape.1, hl.shape.2] at h3
      obtain ⟨ws', h6, h7⟩ := h3
      cases hsh.unique h6
      refine .cons (fun ch hch => ?_) (fun ch hch => ?_) (by rw [← each_length h7]; exact ho) (countSeq_valid hs hE h4)
      · obtain ⟨w, hw', h8⟩ := each_mem_right h7 hch
        have := h8.1
        rw [hl.name.expanded (parsed_inv h)] at this
        injection this with this
        exact this.symm
      · obtain ⟨w, hw', h8⟩ := each_mem_right h7 hch
        obtain ⟨es', js, h9, h10, h11⟩ := h8.2
        exact countTyp_valid (hw w hw') hl.typ ⟨js, (cat_append (B.ordered h).not_looseVal).1 h9, h10⟩ h11
end

/-- Every represented value has elements as often as the types of the fields say. -/
theorem rval_count (j : Nat) : ∀ {ty : Typ} {c : LeafContent}, TypIs P.context.namespaces ty c → ∀ {v : Val} {e : Elem} {es : List Elem},
    RVal x m P.context (TRepr x m P.context j) c v e es → CountTyp F path OccursLoosely ty v := by
  induction j with
  | zero =>
    intro ty c hc v e es hr
    obtain ⟨c', hm, hr⟩ := hr
    induction hm generalizing ty with
    | literal t => cases hc; exact .builtin
    | fixed s => cases hc; exact .fixed
    | name hno => cases hr
    | alias hg hm ih =>
      cases hc with
      | own hn =>
        obtain ⟨q, D, hD, hn', hR⟩ := B.component h hg
        cases Names.unique (parsed_inv h) hn hn'
        cases hR with
        | text => exact .own hD .text
        | fixed => exact .own hD .fixed
        | sameAs hn2 =>
          cases ih (.own hn2) hr with
          | own hD' hd => exact .own hD (.sameAs hD' hd)
  | succ j ihj =>
    intro ty c hc v e es hr
    obtain ⟨c', hm, hr⟩ := hr
    induction hm generalizing ty with
    | literal t => cases hc; exact .builtin
    | fixed s => cases hc; exact .fixed
    | name hno =>
      cases hc with
      | own hn =>
        obtain ⟨r, hg, hr⟩ := hr
        obtain ⟨q, D, hD, hn', hR⟩ := B.component h hg
        cases Names.unique (parsed_inv h) hn hn'
        refine .own hD ?_
        cases hR with
        | text => exact .text
        | fixed => exact .fixed
        | enumeration _ => exact .enumeration
        | sameAs _ => exact absurd hg (hno _)
        | record hcon hat hvirt =>
          obtain ⟨fc, fa, rfl, h2, h3⟩ := hr
          refine .record ?_
          generalize ElementDef.content _ = ec at hcon h2
          cases hcon with
          | empty => rw [h2.1]; exact .empty
          | text =>
            obtain ⟨f, v, rfl, _⟩ := h2
            exact .text
          | elements hE =>
            refine .elements ?_
            clear hD hg
            replace h2 := eachLeaf_arranged hE h2
            clear hat h3
            induction hE generalizing fc es with
            | nil => rw [h2.1]; exact .nil
            | cons hl hE ih =>
              obtain ⟨f, v, fs', es1, es2, rfl, _, h4, h5, _⟩ := h2
              replace h4 := rocc_shape hl.virt h4
              rw [hl.shape.1, hl.shape.2] at h4
              obtain ⟨ws, h6, h7⟩ := h4
              refine .cons (fun w hw => ?_) (occShape_loose h6) h6 (ih _ h5)
              obtain ⟨ch, _, h8⟩ := each_mem_left h7 hw
              obtain ⟨es', js, _, _, h11⟩ := h8.2
              exact ihj hl.typ h11
    | alias hg hm ih =>
      cases hc with
      | own hn =>
        obtain ⟨q, D, hD, hn', hR⟩ := B.component h hg
        cases Names.unique (parsed_inv h) hn hn'
        cases hR with
        | text => exact .own hD .text
        | fixed => exact .own hD .fixed
        | sameAs hn2 =>
          cases ih (.own hn2) hr with
          | own hD' hd => exact .own hD (.sameAs hD' hd)

end

end Flat
end Xsd
