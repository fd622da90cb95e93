import Verif.Lemmas.Flat
import Verif.Lemmas.FlatNodes
import Verif.Props.TableOrigin
/-!
# Files of records are parsed to schemas of records
-/
namespace Xsd.Flat

theorem each_mem_right {α β : Type} {R : α → β → Prop} {as : List α} {bs : List β} (h : Each R as bs) {b : β} (hb : b ∈ bs) :
    ∃ a ∈ as, R a b := by
  induction h with
  | nil => cases hb
  | cons h hs ih =>
    rcases List.mem_cons.1 hb with rfl | hb
    · exact ⟨_, .head _, h⟩
    · obtain ⟨a, ha, h⟩ := ih hb
      exact ⟨a, .tail _ ha, h⟩

theorem each_map_eq {α β γ : Type} {R : α → β → Prop} {f : α → γ} {g : β → γ} (hr : ∀ a b, R a b → f a = g b) {as : List α} {bs : List β}
    (h : Each R as bs) : as.map f = bs.map g := by
  induction h with
  | nil => rfl
  | cons h hs ih => rw [List.map_cons, List.map_cons, hr _ _ h, ih]

theorem Stands.same {t : Namespaces} {n n' : Namespace} {u : Option Str} (h : Stands t n u) (h' : Stands t n' u) : n = n' := by
  cases n <;> cases n' <;> cases u <;> simp_all [Stands]

theorem Names.same {t : Namespaces} {n n' : Name} {q : QName} (h : Names t n q) (h' : Names t n' q) : n = n' := by
  obtain ⟨a, b⟩ := n
  obtain ⟨a', b'⟩ := n'
  cases (h.1 : a = _).trans h'.1.symm
  cases Stands.same h.2 h'.2
  rfl

theorem Names.unique {t : Namespaces} (ht : t.Inv) {n : Name} {q q' : QName} (h : Names t n q) (h' : Names t n q') : q = q' := by
  obtain ⟨a, b⟩ := q
  obtain ⟨a', b'⟩ := q'
  cases (h.1.symm : a = _).trans h'.1
  cases Stands.unique ht h.2 h'.2
  rfl

/-- Each file that is read is supported. -/
theorem legal_reads {x : Ext} {F : Files} {path q : Str} {d : XDoc} (h : LegalFile x F path) (hr : Reads F path q d) : LegalFile x F q := by
  induction hr with
  | here _ => exact h
  | there hr hc hn hl hd ih =>
    cases ih with
    | mk h1 h2 h3 h4 h5 =>
      rw [hr.read] at h1
      cases h1
      exact h4 _ _ hc hn hl

section
variable {x : Ext} {F : Files} {path : Str}

theorem FlatForms.docOK (B : FlatForms x F path) {p : Str} {d : XDoc} (hr : Reads F path p d) : DocOK d :=
  ⟨(B.files p d hr).1, (B.files p d hr).2.2.1⟩

/-- A file of records is parsed. -/
theorem FlatForms.parsed (hx : x.SnakeAscii) (B : FlatForms x F path) : ∃ k P, parseFile x F k path = .ok P :=
  (C61_accepts_partial x hx F path (fun q d hr => (B.files q d hr).1) (fun q d hr => (B.files q d hr).2.1)).2 B.legal

theorem FlatForms.noAnonymous (B : FlatForms x F path) (q : Str) (d : XDoc) (hr : Reads F path q d) (c : Nd)
    (hc : c ∈ (Nd.of d.root).xsdKids) (k : Kind) (hk : topKind c.name = some k) (a : Nd) : ¬ AnonymousWithin k c a := by
  obtain ⟨D, hD⟩ := B.flat q d hr c hc (by rw [hk]; rfl)
  cases legal_reads B.legal hr with
  | mk h1 h2 h3 h4 h5 =>
    rw [hr.read] at h1
    cases h1
    obtain ⟨_, k', hk', hl⟩ := h5 c hc (topKind_not_include hk)
    rw [hk] at hk'
    cases hk'
    exact topLevel_none hl hk hD

variable {k : Nat} {P : PSchema} (h : parseFile x F k path = .ok P)
include h

theorem parsed_inv : P.context.namespaces.Inv := Namespaces.Reachable.inv (C32_table x F k path P h)

/-- Each component has a definition in the parsed schema. -/
theorem FlatForms.definition (B : FlatForms x F path) {q : QName} {D : Def} (hc : Component F path q D) :
    ∃ n r, Names P.context.namespaces n q ∧ P.context.get n = some r ∧ RootIs P.context.namespaces n D r := by
  cases hc with
  | mk hr hc hk hn hD =>
    obtain ⟨v, e, r, h1, h2, h3, h4, h5⟩ := C45_named_partial x F k path P h B.noAnonymous
      (fun q d q' d' hr hr' _ c hc c' hc' hk hk' hv => by
        have hname : ∀ {p d c}, Reads F path p d → c ∈ (Nd.of d.root).xsdKids → (topKind c.name).isSome → ∃ n, c.value c!"name" = some n := by
          intro p d c hr hc hk
          obtain ⟨k', hk'⟩ := Option.isSome_iff_exists.1 hk
          cases legal_reads B.legal hr with
          | mk h1 h2 h3 h4 h5 =>
            rw [hr.read] at h1
            cases h1
            exact Option.ne_none_iff_exists'.1 (h5 c hc (topKind_not_include hk')).1
        obtain ⟨n, hn⟩ := hname hr hc hk
        exact B.unique _ _ _ _ hr hr' c hc c' hc' hk hk' n n hn (hv ▸ hn) rfl) _ _ hr _ hc hk
    rw [hn] at h1
    cases h1
    exact ⟨_, r, ⟨rfl, h3⟩, h5, interpreted_root (B.docOK hr) h2 h3 h4 hD⟩

/-- Each definition of the parsed schema is that of a component. -/
theorem FlatForms.component (B : FlatForms x F path) {n : Name} {r : Root} (hr : P.context.get n = some r) :
    ∃ q D, Component F path q D ∧ Names P.context.namespaces n q ∧ RootIs P.context.namespaces n D r := by
  obtain ⟨log, hl, _, hg, _⟩ := C45_partial x F k path P h
  obtain ⟨b, hb, rfl, rfl⟩ := hg n r hr
  obtain ⟨q, d, e, top, k', hf⟩ := hl.entry (path := path) (fun d h => .here h) b hb
  rcases hf.own with ⟨ho, v, hv, hn⟩ | ⟨ho, _⟩
  · obtain ⟨D, hD⟩ := B.flat q d hf.reads top hf.kid (by rw [hf.kind]; rfl)
    refine ⟨_, D, .mk hf.reads hf.kid (by rw [hf.kind]; rfl) hv hD, ⟨by rw [hn], by rw [hn]; exact hf.target⟩, ?_⟩
    exact interpreted_root (B.docOK hf.reads) hf.env hf.target hf.made (ho ▸ hD)
  · exact absurd ho (B.noAnonymous _ _ hf.reads _ hf.kid _ hf.kind _)

end

/-- The word for a variant is what the generator computes. -/
theorem enumBase_eq (x : Ext) (v : Str) : enumBase x v = variantWord x v := by
  have key : v.filterMap (enumFilter x) =
      (v.filter (fun c => c = '_' ∨ c = '-' ∨ x.isAlphanumeric c = true)).map (fun c => if c = '-' then '_' else c) := by
    induction v with
    | nil => rfl
    | cons c v ih =>
      rw [List.filterMap_cons, ih, List.filter_cons]
      unfold enumFilter
      by_cases h1 : c = '_'
      · subst h1; rfl
      · by_cases h2 : c = '-'
        · subst h2; rfl
        · by_cases h3 : x.isAlphanumeric c = true
          · simp [h1, h2, h3]
          · simp [h1, h2, h3]
  unfold enumBase variantWord
  rw [key]
  generalize x.pascal _ = w
  cases w with
  | nil => rfl
  | cons c w =>
    show (if x.isAlphabetic c = true then c :: w else 'V' :: c :: w) = if x.isAlphabetic c = true then c :: w else 'V' :: c :: w
    rfl

section
variable {x : Ext} {F : Files} {path : Str} {k : Nat} {P : PSchema}

/-- If the first file has qualified elements, no component is without a namespace. -/
theorem FlatFile.qualified_ns (B : FlatFile x F path) (h : parseFile x F k path = .ok P)
    (hq : P.context.isQualified = true ∧ ∃ id, P.context.target = .id id) {q : QName} {D : Def} (hc : Component F path q D) : q.ns ≠ none := by
  obtain ⟨d, h1, h2, h3⟩ := parseFile_head h
  obtain ⟨id, hid⟩ := hq.2
  rw [hid] at h2
  cases hc with
  | mk hr _ _ _ _ =>
    refine (B.qualified d h1 (h3.1 hq.1) ?_ _ _ hr).2
    intro ht
    rw [ht] at h2
    cases h2

theorem FlatFile.local_ns (B : FlatFile x F path) (h : parseFile x F k path = .ok P)
    (hq : P.context.isQualified = true ∧ ∃ id, P.context.target = .id id) {q : QName} {ls : List ElementDecl} {as : List AttributeDecl}
    (hc : Component F path q (.record (.elements ls) as)) {l : ElementDecl} (hl : l ∈ ls) : l.name.ns ≠ none := by
  have hel := (B.components _ _ hc).elements ls as rfl l hl
  have key : ∀ {d p nd}, Reads F path p d → LocalElement d nd l → l.name.ns ≠ none := by
    intro d p nd hr hn
    obtain ⟨d0, h1, h2, h3⟩ := parseFile_head h
    obtain ⟨id, hid⟩ := hq.2
    rw [hid] at h2
    have hd := B.qualified d0 h1 (h3.1 hq.1) (fun ht => by rw [ht] at h2; cases h2) _ _ hr
    have hns : ∀ {ns}, LocalNs d ns → ns ≠ none := by
      intro ns hns
      cases hns with
      | qualified _ => exact hd.2
      | unqualified h => exact absurd hd.1 h
    cases hn with
    | ref hr' h' hq' hmn hmx =>
      obtain ⟨D', hD', _⟩ := hel.2 _ rfl
      exact B.qualified_ns h hq hD'
    | typed hr hf hn ht hns' hmn hmx => exact hns hns'
    | any hr hf hn ht hk hns' hmn hmx => exact hns hns'
  have key' : ∀ {d p nd}, Reads F path p d → ComplexType d nd (.record (.elements ls) as) → l.name.ns ≠ none := by
    intro d p nd hr hn
    cases hn with
    | elements hc hn hmn hmx he hl' ha =>
      obtain ⟨nd, _, hnd⟩ := each_mem_right hl' hl
      exact key hr hnd
  generalize hD : Def.record (.elements ls) as = D at hc
  cases hc with
  | mk hr hc hk hn hD' =>
    cases hD' with
    | complexType hn h => subst hD; exact key' hr h
    | simpleType hn h => subst hD; cases h
    | @typed ty hn h => cases ty <;> cases hD
    | inlineComplex hn ht hc hcn h => subst hD; exact key' hr h
    | inlineSimple hn ht hc hcn h => subst hD; cases h

theorem TypIs.own_name {t : Namespaces} {ty : Typ} {m : Name} (h : TypIs t ty (.named m)) : ∃ q, ty = .own q ∧ Names t m q := by
  cases h with
  | own h => exact ⟨_, rfl, h⟩

/-- What is inside of a value of the parsed schema is inside of the component. -/
theorem FlatFile.acc (B : FlatFile x F path) (h : parseFile x F k path = .ok P) {q : QName} (hq : Acc (InsideOf F path) q) :
    ∀ n, Names P.context.namespaces n q → Acc (fun m n => HoldsA P.context n m) n := by
  induction hq with
  | intro q _ ih =>
    intro n hn
    refine ⟨n, ?_⟩
    rintro m ⟨r, hr, c, hc, hm⟩
    obtain ⟨q', D, hD, hn', hR⟩ := B.component h hr
    cases Names.unique (parsed_inv h) hn hn'
    have step : ∀ {q1 n1}, InsideOf F path q1 q → Names P.context.namespaces n1 q1 → Means P.context (.named n1) (.named m) →
        Acc (fun m n => HoldsA P.context n m) m := by
      intro q1 n1 hi hn1 hm
      have := ih q1 hi n1 hn1
      cases hm with
      | name _ => exact this
      | alias hg hc => exact this.inv ⟨_, hg, _, .head _, hc⟩
    cases hR with
    | text => cases List.mem_singleton.1 hc; cases hm
    | fixed => cases List.mem_singleton.1 hc; cases hm
    | sameAs hm' => cases List.mem_singleton.1 hc; exact step (.sameAs hD) hm' hm
    | enumeration _ => cases hc
    | @record c' as e hcon hat hv =>
      have hsup := B.components _ _ hD
      rcases List.mem_append.1 hc with hc | hc
      · generalize e.content = ec at hcon hc
        cases hcon with
        | empty => cases hc
        | text => cases List.mem_singleton.1 hc; cases hm
        | @elements ds ls hE =>
          obtain ⟨l, hl, rfl⟩ := List.mem_map.1 hc
          obtain ⟨hl, hrep⟩ := List.mem_filter.1 hl
          obtain ⟨dl, hdl, hdl'⟩ := each_mem_right hE hl
          obtain ⟨k1, hk1⟩ := Means.named_source hm
          have hty := hdl'.typ
          rw [hk1] at hty hm
          obtain ⟨q1, hq1, hn1⟩ := hty.own_name
          refine step (.element hD hdl hq1 ?_) hn1 hm
          rw [← hdl'.max]
          simp only [Leaf.repeats, Bool.not_eq_true', decide_eq_false_iff_not, ne_eq, not_and, Classical.not_not] at hrep
          by_cases h0 : l.maxOccurs = .number 0
          · exact .inl h0
          · exact .inr (hrep h0)
      · obtain ⟨a, ha, rfl⟩ := List.mem_map.1 hc
        obtain ⟨da, hda, hda'⟩ := each_mem_right hat ha
        obtain ⟨k1, hk1⟩ := Means.named_source hm
        have hty := hda'.typ
        rw [hk1] at hty hm
        obtain ⟨q1, hq1, hn1⟩ := hty.own_name
        obtain ⟨D1, hD1, hcase⟩ := (hsup.attributes _ _ rfl da hda).2.2 q1 hq1
        obtain ⟨n2, r2, h2, h3, h4⟩ := B.definition h hD1
        cases hn1.same h2
        rcases hcase with ⟨t, rfl, _⟩ | ⟨vs, rfl⟩
        · cases h4
          cases hm with
          | name hno => exact absurd h3 (hno _)
          | alias hg hc =>
            rw [h3] at hg
            cases hg
            cases hc
        · cases h4
          cases hm with
          | alias hg hc => rw [h3] at hg; cases hg
          | name _ =>
            refine ⟨_, ?_⟩
            rintro m' ⟨r', hr', c', hc', _⟩
            rw [h3] at hr'
            cases hr'
            cases hc'

theorem RootIs.structured {t : Namespaces} {n : Name} {D : Def} {r : Root} (h : RootIs t n D r) (hD : D.Structured) : r.Structured := by
  cases h <;> first | trivial | exact hD.elim

/-- The schema that is parsed from a file of records is one of records. -/
theorem FlatFile.schema (B : FlatFile x F path) (h : parseFile x F k path = .ok P) : FlatSchema x P.context := by
  have hinv := parsed_inv h
  have hknows := C32 x F k path P h
  have hroots := (parseFileWith_names k path _ _ P ⟨[], rfl⟩ h).roots
  have hget : ∀ {n r}, P.context.get n = some r → (n, r) ∈ P.context.elements := fun hr => alookup_mem hr
  refine ⟨(parseFileWith_log k path _ _ P ⟨[], rfl⟩ h).1, C32_table x F k path P h, ?_, (parseFileWith_names k path _ _ P ⟨[], rfl⟩ h).target,
    ?_, ?_, ?_, ?_, ?_, ?_, ?_, ?_⟩
  · intro i nd hi
    obtain ⟨q, d, hr, hu⟩ := C32_origin x F k path P h i nd hi
    obtain ⟨_, _, _, h4, h5⟩ := B.files q d hr
    rcases hu with hu | ⟨p, hu⟩
    · intro he; rw [he] at hu; exact h5 hu
    · exact h4 _ _ hu
  · intro n r hr
    obtain ⟨q, D, hD, hn, hR⟩ := B.component h hr
    refine ⟨?_, (hroots _ (hget hr)).1, ?_⟩
    · have := (B.components _ _ hD).name.1
      unfold Name.Plain
      rw [hn.1]
      exact this
    · intro hns hq
      have := B.qualified_ns h hq hD
      have h2 := hn.2
      rw [hns] at h2
      cases hqn : q.ns with
      | none => exact this hqn
      | some u => rw [hqn] at h2; cases h2
  · intro n m hn hm he
    obtain ⟨r, hr⟩ := Option.isSome_iff_exists.1 hn
    obtain ⟨r', hr'⟩ := Option.isSome_iff_exists.1 hm
    obtain ⟨q, D, hD, hnq, _⟩ := B.component h hr
    obtain ⟨q', D', hD', hnq', _⟩ := B.component h hr'
    cases hD with
    | mk h1 h2 h3 h4 h5 =>
      cases hD' with
      | mk h1' h2' h3' h4' h5' =>
        have he' := he
        rw [hnq.1, hnq'.1] at he'
        obtain ⟨rfl, rfl⟩ := B.unique _ _ _ _ h1 h1' _ h2 _ h2' h3 h3' _ _ h4 h4' he'
        rw [h4] at h4'
        cases h4'
        exact hnq.same hnq'
  · intro n r hr
    obtain ⟨q, D, hD, hn, hR⟩ := B.component h hr
    rw [hn.1]
    exact (B.components _ _ hD).name.2
  · intro n d hr
    obtain ⟨q, D, hD, hn, hR⟩ := B.component h hr
    have hs := B.components _ _ hD
    constructor
    · rw [hn.1]
      refine hs.newtype ?_
      cases hR <;> exact fun h => h
    · rintro m hm
      cases hR with
      | text => cases hm
      | fixed => cases hm
      | sameAs hm' =>
        cases hm
        obtain ⟨D', hD', hst⟩ := hs.sameAs _ rfl
        obtain ⟨n2, r2, h2, h3, h4⟩ := B.definition h hD'
        cases hm'.same h2
        exact ⟨r2, h3, h4.structured hst⟩
  · intro n vs hr
    obtain ⟨q, D, hD, hn, hR⟩ := B.component h hr
    have hs := B.components _ _ hD
    cases hR with
    | @enumeration ws hne =>
      obtain ⟨h1, h2⟩ := hs.enumeration ws rfl
      refine ⟨fun he => hne (List.map_eq_nil_iff.1 he), ?_, ?_⟩
      · rw [List.map_map]
        have : ws.map (Name.name ∘ fun v => (⟨v, .none⟩ : Name)) = ws := by
          rw [show (Name.name ∘ fun v => (⟨v, .none⟩ : Name)) = id from rfl, List.map_id]
        rw [this]
        exact h1
      · intro v hv
        obtain ⟨w, hw, rfl⟩ := List.mem_map.1 hv
        rw [enumBase_eq]
        exact h2 w hw
  · intro n vs b d hr
    obtain ⟨q, D, hD, hn, hR⟩ := B.component h hr
    cases hR
  · intro n e hr
    obtain ⟨q, D, hD, hn, hR⟩ := B.component h hr
    have hs := B.components _ _ hD
    have hr' := hroots _ (hget hr)
    cases hR with
    | @record c as _ hcon hat hv =>
      refine ⟨hv, ?_, ?_, ?_⟩
      · generalize hec : e.content = ec at hcon
        cases hcon with
        | empty => trivial
        | text => exact nofun
        | @elements ds ls hE =>
          intro l hl
          obtain ⟨dl, hdl, hdl'⟩ := each_mem_right hE hl
          obtain ⟨h1, h2⟩ := hs.elements ds as rfl dl hdl
          refine ⟨hdl'.virt, ⟨?_, ?_, ?_⟩, ?_⟩
          · unfold Name.Plain
            rw [hdl'.name.1]
            exact h1
          · refine hr'.2.1 l.name ?_
            simp only [Root.names, hec, List.mem_append, ElementContent.names, List.mem_flatMap]
            exact .inr ⟨l, hl, .head _⟩
          · intro hns hq
            have := B.local_ns h hq hD hdl
            have h2 := hdl'.name.2
            rw [hns] at h2
            cases hqn : dl.name.ns with
            | none => exact this hqn
            | some u => rw [hqn] at h2; cases h2
          · intro m hm
            have hty := hdl'.typ
            rw [hm] at hty
            obtain ⟨q1, hq1, hn1⟩ := hty.own_name
            obtain ⟨D', hD', hnf⟩ := h2 q1 hq1
            obtain ⟨n2, r2, h2, h3, h4⟩ := B.definition h hD'
            cases hn1.same h2
            refine ⟨r2, h3, ?_⟩
            rintro d s rfl hds
            cases h4 with
            | text => cases hds
            | fixed => exact hnf _ rfl
            | sameAs _ => cases hds
      · intro a ha
        obtain ⟨da, hda, hda'⟩ := each_mem_right hat ha
        obtain ⟨h1, h2, h3⟩ := hs.attributes c as rfl da hda
        refine ⟨by rw [hda'.name], by rw [hda'.name]; exact h1, by rw [hda'.name]; exact h2, ?_⟩
        intro m hm
        have hty := hda'.typ
        rw [hm] at hty
        obtain ⟨q1, hq1, hn1⟩ := hty.own_name
        obtain ⟨D', hD', hcase⟩ := h3 q1 hq1
        obtain ⟨n2, r2, h2, h3, h4⟩ := B.definition h hD'
        cases hn1.same h2
        rcases hcase with ⟨t, rfl, ht⟩ | ⟨vs, rfl⟩
        · cases h4
          exact .inl ⟨_, t, h3, rfl, ht⟩
        · cases h4
          exact .inr ⟨_, h3⟩
      · obtain ⟨h1, h2⟩ := hs.fields c as rfl
        have hf : e.fieldNames.map Name.name = fieldWords q c as := by
          unfold ElementDef.fieldNames fieldWords
          rw [List.map_append]
          congr 1
          · generalize e.content = ec at hcon
            cases hcon with
            | empty => rfl
            | text => show [n.name] = _; rw [hn.1]
            | elements hE =>
              show List.map _ (List.map _ _) = List.map _ _
              rw [List.map_map]
              exact (each_map_eq (fun a b hab => hab.name.1.symm) hE).symm
          · rw [List.map_map]
            exact (each_map_eq (fun a b hab => by show _ = (Name.name ∘ Attribute.name) b; rw [Function.comp, hab.name]) hat).symm
        rw [← hf] at h1 h2
        rw [List.map_map] at h1
        exact ⟨h1, fun m hm => h2 _ (List.mem_map_of_mem hm)⟩
  · refine ⟨fun n => ?_⟩
    cases hg : P.context.get n with
    | none =>
      refine ⟨n, ?_⟩
      rintro m ⟨r, hr, _⟩
      rw [hg] at hr
      cases hr
    | some r =>
      obtain ⟨q, D, hD, hn, hR⟩ := B.component h hg
      exact B.acc h (B.sized.apply q) n hn

end

theorem each_unique {α β : Type} {R : α → β → Prop} (hr : ∀ a a' b, R a b → R a' b → a = a') {as as' : List α} {bs : List β}
    (h : Each R as bs) (h' : Each R as' bs) : as = as' := by
  induction h generalizing as' with
  | nil => cases h'; rfl
  | cons h hs ih =>
    cases h' with
    | cons h' hs' => rw [hr _ _ _ h h', ih hs']

theorem TypIs.unique {t : Namespaces} (ht : t.Inv) {ty ty' : Typ} {c : LeafContent} (h : TypIs t ty c) (h' : TypIs t ty' c) : ty = ty' := by
  cases h with
  | builtin => cases h'; rfl
  | fixed => cases h'; rfl
  | own h =>
    cases h' with
    | own h' => rw [Names.unique ht h h']

theorem LeafIs.unique {t : Namespaces} (ht : t.Inv) {d d' : ElementDecl} {l : Leaf} (h : LeafIs t d l) (h' : LeafIs t d' l) : d = d' := by
  obtain ⟨n, ty, mn, mx⟩ := d
  obtain ⟨n', ty', mn', mx'⟩ := d'
  cases Names.unique ht h.name h'.name
  cases TypIs.unique ht h.typ h'.typ
  cases (h.min.symm : mn = _).trans h'.min
  cases (h.max.symm : mx = _).trans h'.max
  rfl

theorem AttrIs.unique {t : Namespaces} (ht : t.Inv) {d d' : AttributeDecl} {a : Attribute} (h : AttrIs t d a) (h' : AttrIs t d' a) : d = d' := by
  obtain ⟨n, ty, r⟩ := d
  obtain ⟨n', ty', r'⟩ := d'
  have h1 := h.name.symm.trans h'.name
  injection h1 with h1 _
  subst h1
  cases TypIs.unique ht h.typ h'.typ
  have h2 := h.req.symm.trans h'.req
  cases r <;> cases r' <;> first | rfl | cases h2

/-- The parser does not make the same of two different definitions. -/
theorem RootIs.unique {t : Namespaces} (ht : t.Inv) {n : Name} {D D' : Def} {r : Root} (h : RootIs t n D r) (h' : RootIs t n D' r) : D = D' := by
  cases h with
  | text => cases h'; rfl
  | fixed => cases h'; rfl
  | sameAs h =>
    cases h' with
    | sameAs h' => rw [Names.unique ht h h']
  | @enumeration vs _ =>
    generalize hr' : Root.enum (vs.map (fun v => (⟨v, .none⟩ : Name))) = r' at h'
    cases h' with
    | enumeration _ =>
      injection hr' with hr'
      rw [(List.map_inj_right (fun a b hab => by injection hab)).1 hr']
    | _ => cases hr'
  | @record c as e hc ha hv =>
    cases h' with
    | @record c' as' _ hc' ha' _ =>
      cases each_unique (R := AttrIs t) (fun _ _ _ h h' => AttrIs.unique ht h h') ha ha'
      have : c = c' := by
        generalize e.content = ec at hc hc'
        cases hc with
        | empty => cases hc'; rfl
        | text => cases hc'; rfl
        | elements hE =>
          cases hc' with
          | elements hE' => rw [each_unique (R := LeafIs t) (fun _ _ _ h h' => LeafIs.unique ht h h') hE hE']
      rw [this]

/-- A component has only one definition. -/
theorem FlatForms.unique_def {x : Ext} {F : Files} {path : Str} {k : Nat} {P : PSchema} (B : FlatForms x F path)
    (h : parseFile x F k path = .ok P) {q : QName} {D D' : Def} (hc : Component F path q D) (hc' : Component F path q D') : D = D' := by
  obtain ⟨n, r, h1, h2, h3⟩ := B.definition h hc
  obtain ⟨n', r', h1', h2', h3'⟩ := B.definition h hc'
  cases h1.same h1'
  rw [h2] at h2'
  cases h2'
  exact h3.unique (parsed_inv h) h3'

end Xsd.Flat
