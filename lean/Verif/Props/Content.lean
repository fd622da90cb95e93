import Verif.Lemmas.Eval
import Verif.Spec.Leads
import Verif.Props.Reader
/-!
# Child elements and attributes: presence, order, repetition (C19, C20, C21, C22)

All statements are about `i::from_xml_node` (`FromNode`) on a node in an arbitrary state: every element that is decoded,
at any depth, is decoded by such a call, and so is every group of a sequence or choice.
-/
namespace Xsd

variable {x : Ext} {S : SchemaContext} {P : List TypeDef}

/-- A child element that is required, not repeated, and not a group. -/
structure Leaf.Single (l : Leaf) : Prop where
  notVirtual : l.isVirtual = false
  notVec : l.repeats = false
  required : l.mayMiss = false

/-- The same, at a fixed position. -/
structure Leaf.Plain (l : Leaf) : Prop extends l.Single where
  ordered : l.isUnordered = false

/-- The children `chs` are, one by one, the elements `ls`, with the values `fs`. -/
inductive ReadsSeq (x : Ext) (S : SchemaContext) (P : List TypeDef) : List Leaf → List Elem → List (Str × Val) → Prop where
  | nil : ReadsSeq x S P [] [] []
  | cons {l : Leaf} {ls : List Leaf} {ch : Elem} {chs : List Elem} {f : Str} {v : Val} {fs : List (Str × Val)}
      (hq : S.expanded l.name = .ok ch.1.name) (hf : fieldIdent x l.name = .ok f)
      (hv : ReadsAs x S P l.definition.content ch (.ok v)) (h : ReadsSeq x S P ls chs fs) :
      ReadsSeq x S P (l :: ls) (ch :: chs) ((f, v) :: fs)

/-- The definition of an element with child elements `ls` and attributes `as`. -/
def IsElement (S : SchemaContext) (n : Name) (ls : List Leaf) (as : List Attribute) : Prop :=
  ∃ d, S.get n = some (.element d) ∧ d.content = some (.leaves ls) ∧ d.attributes = as

theorem readLeaves_append {σ : Type} {o : Ops σ} {cF : Str → σ → DRes σ Val} {cL : Str → σ → DRes σ Bool} {k : Nat}
    (a b : List (Str × LeafRead)) (s : σ) :
    readLeaves x o cF cL k (a ++ b) s = (do
      let r ← readLeaves x o cF cL k a s
      let r' ← readLeaves x o cF cL k b r.2
      .ok (r.1 ++ r'.1, r'.2)) := by
  induction a generalizing s with
  | nil =>
    simp only [List.nil_append, readLeaves, Res.bind_ok]
    cases readLeaves x o cF cL k b s <;> rfl
  | cons p a ih =>
    obtain ⟨f, l⟩ := p
    simp only [List.cons_append, readLeaves, ih]
    cases readLeaf x o cF cL k l s with
    | ok w =>
      simp only [Res.bind_ok]
      cases readLeaves x o cF cL k a w.2 with
      | ok r =>
        simp only [Res.bind_ok]
        cases readLeaves x o cF cL k b r.2 <;> rfl
      | _ => rfl
    | _ => rfl

/-- Everything needed about the code of an element. -/
theorem element_code (G : Generated x S P) {n : Name} {i : Str} (hi : typeIdent x n = .ok i) {ls : List Leaf}
    {as : List Attribute} (hd : IsElement S n ls as) :
    ∃ rs ras, mapRes (leafRead x S) ls = .ok rs ∧ mapRes (attrRead x S) as = .ok ras ∧
      ∀ (s : Queue) (r : Res DErr (Val × Queue)), FromNode x P i s r ↔
        Ret (fun k => do
          let c ← readLeaves x queueOps (fromNode x queueOps P k) (lookahead queueOps P k) k rs s
          let w ← readAttrs x queueOps P ras c.2
          .ok (.struct (c.1 ++ w), c.2)) r := by
  obtain ⟨d, hget, hc, rfl⟩ := hd
  obtain ⟨r0, t, hr, hft, hid, hg⟩ := G.find' hi (by rw [hget]; rfl)
  rw [hget] at hr; cases hr
  have hrd := hg.read
  simp only [rootRead, Res.bind_eq_ok] at hrd
  obtain ⟨c, hcr, ras, has, hrd⟩ := hrd
  rw [hc] at hcr
  simp only [elementContentRead, Res.bind_eq_ok] at hcr
  obtain ⟨rs, hrs, hcr⟩ := hcr
  refine ⟨rs, ras, hrs, has, fun s r => ?_⟩
  rw [FromNode.step hft]
  simp only [runFrom, ← Res.ok.inj hrd, ← Res.ok.inj hcr, readContent]

theorem tail_mono (ras : List AttrRead) (c : List (Str × Val) × Queue) :
    Mono (fun _ => (do let w ← readAttrs x queueOps P ras c.2; .ok (.struct (c.1 ++ w), c.2) : Res DErr (Val × Queue))) :=
  Mono.const _

theorem readLeaves_cons_mono (rs : List (Str × LeafRead)) (f : Str) (w : Val × Queue) :
    Mono (fun k => (do
      let r ← readLeaves x queueOps (fromNode x queueOps P k) (lookahead queueOps P k) k rs w.2
      .ok ((f, w.1) :: r.1, r.2) : Res DErr (List (Str × Val) × Queue))) :=
  Mono.bind (readLeaves_monoF rs w.2) (fun _ => Mono.const _)

/-- A plain leaf: take the next child if it has the name. -/
theorem readLeaf_plain {l : Leaf} (hp : l.Plain) {p : Str × LeafRead} (h : leafRead x S l = .ok p) :
    fieldIdent x l.name = .ok p.1 ∧ ∃ q, S.expanded l.name = .ok q ∧
      (∀ e ch rest r, ch.1.name = q →
        (Ret (fun k => readLeaf x queueOps (fromNode x queueOps P k) (lookahead queueOps P k) k p.2 ⟨e, ch :: rest⟩) r ↔
          ∃ r', ReadsAs x S P l.definition.content ch r' ∧
            r = (do let v ← r'; .ok (v, (⟨e, rest⟩ : Queue))))) ∧
      (∀ e pend, (∀ ch rest, pend = ch :: rest → ch.1.name ≠ q) → ∀ r,
        (Ret (fun k => readLeaf x queueOps (fromNode x queueOps P k) (lookahead queueOps P k) k p.2 ⟨e, pend⟩) r ↔
          r = .err (.missingElement q.loc q.ns))) := by
  obtain ⟨q, vr, hf, hq, hv, hl⟩ := leafRead_ok h
  have hpt : p.2 = .tryNext q vr := by
    generalize hp2 : p.2 = lr at hl
    cases hl with
    | tryNext => rfl
    | whileLook h1 => simp [hp.notVirtual] at h1
    | ifLook h1 => simp [hp.notVirtual] at h1
    | plain h1 => simp [hp.notVirtual] at h1
    | whileNext _ h2 => simp [hp.notVec] at h2
    | ifNext _ _ h3 => simp [hp.required] at h3
    | tryChild _ _ _ h4 => simp [hp.ordered] at h4
  refine ⟨hf, q, hq, ?_, ?_⟩
  · intro e ch rest r hch
    have hop : queueOps.tryNext ⟨e, ch :: rest⟩ q = (.ok ch, ⟨e, rest⟩) := by
      simp [queueOps, Queue.popIf, hch, Queue.orMissing]
    simp only [hpt, readLeaf, hop]
    rw [Ret.map_iff (readOn_monoF vr ch)]
    simp only [readOn_iff hv]
    constructor
    · rintro (⟨a, ha, h, _⟩ | ⟨e', he, rfl⟩ | ⟨he, rfl⟩)
      · exact ⟨_, ha, h⟩
      · exact ⟨_, he, rfl⟩
      · exact ⟨_, he, rfl⟩
    · rintro ⟨r', hr', rfl⟩
      cases r' with
      | ok a => exact .inl ⟨a, hr', rfl, by simp⟩
      | err e' => exact .inr (.inl ⟨e', hr', rfl⟩)
      | panic => exact .inr (.inr ⟨hr', rfl⟩)
      | diverge => exact absurd rfl ((readOn_iff hv).2 hr').1
  · intro e pend hne r
    have hop : (queueOps.tryNext ⟨e, pend⟩ q).1 = .error (.missingElement q.loc q.ns) := by
      cases pend with
      | nil => simp [queueOps, Queue.popIf, Queue.orMissing]
      | cons ch rest => simp [queueOps, Queue.popIf, hne ch rest rfl, Queue.orMissing]
    have : ∀ k, readLeaf x queueOps (fromNode x queueOps P k) (lookahead queueOps P k) k p.2 ⟨e, pend⟩ =
        .err (.missingElement q.loc q.ns) := by
      intro k
      rw [hpt]
      cases hh : queueOps.tryNext ⟨e, pend⟩ q with
      | mk a b => rw [hh] at hop; simp only at hop; subst hop; simp only [readLeaf, hh]
    simp only [this]
    exact Ret.const (by simp)

theorem readLeaves_plain_ok (ls : List Leaf) (hp : ∀ l ∈ ls, l.Plain) {rs : List (Str × LeafRead)}
    (hrs : mapRes (leafRead x S) ls = .ok rs) {e : Elem} {p : List Elem} {fs : List (Str × Val)} {s' : Queue} :
    Ret (fun k => readLeaves x queueOps (fromNode x queueOps P k) (lookahead queueOps P k) k rs ⟨e, p⟩) (.ok (fs, s')) ↔
      ∃ chs rest, p = chs ++ rest ∧ s' = ⟨e, rest⟩ ∧ ReadsSeq x S P ls chs fs := by
  induction ls generalizing rs p fs with
  | nil =>
    simp [mapRes] at hrs; subst hrs
    simp only [readLeaves]
    rw [Ret.const (by simp)]
    constructor
    · intro h; cases h; exact ⟨[], p, rfl, rfl, .nil⟩
    · rintro ⟨chs, rest, rfl, rfl, h⟩; cases h; rfl
  | cons l ls ih =>
    obtain ⟨pr, rs', hpr, hrs', rfl⟩ := mapRes_cons_ok.1 hrs
    obtain ⟨hf, q, hq, hit, hmiss⟩ := readLeaf_plain (P := P) (hp l (by simp)) hpr
    have ih := @ih (fun l hl => hp l (by simp [hl])) _ hrs'
    simp only [readLeaves]
    rw [Ret.bind_ok_iff (readLeaf_monoF _ _) (readLeaves_cons_mono rs' pr.1)]
    constructor
    · rintro ⟨⟨v, s1⟩, h1, h2⟩
      rw [Ret.map_ok_iff (readLeaves_monoF rs' _)] at h2
      obtain ⟨⟨fs', s2⟩, h2, h3⟩ := h2
      cases h3
      by_cases hh : ∃ ch rest, p = ch :: rest ∧ ch.1.name = q
      · obtain ⟨ch, rest, rfl, hch⟩ := hh
        rw [hit e ch rest _ hch] at h1
        obtain ⟨r', hr', h1⟩ := h1
        have h1 := Res.bind_eq_ok.1 h1.symm
        obtain ⟨v', rfl, h1⟩ := h1
        cases h1
        obtain ⟨chs, rest', rfl, rfl, hs⟩ := ih.1 h2
        exact ⟨ch :: chs, rest', rfl, rfl, .cons (hch ▸ hq) hf hr' hs⟩
      · rw [hmiss e p (fun ch rest hp hch => hh ⟨ch, rest, hp, hch⟩)] at h1
        cases h1
    · rintro ⟨chs, rest, rfl, rfl, h⟩
      cases h with
      | @cons _ _ ch chs f v fs hq' hf' hv h =>
        rw [hq] at hq'; have hq' := Res.ok.inj hq'
        rw [hf] at hf'; have hf' := Res.ok.inj hf'
        refine ⟨(v, ⟨e, chs ++ rest⟩), ?_, ?_⟩
        · simp only [List.cons_append]
          rw [hit e ch (chs ++ rest) _ hq'.symm]
          exact ⟨_, hv, rfl⟩
        · rw [Ret.map_ok_iff (readLeaves_monoF rs' _)]
          exact ⟨_, ih.2 ⟨chs, rest, rfl, rfl, h⟩, by rw [hf']⟩

theorem readLeaves_plain_missing {pre post : List Leaf} {l : Leaf} (hp : ∀ l' ∈ pre, l'.Plain) (hl : l.Plain)
    {rs : List (Str × LeafRead)} (hrs : mapRes (leafRead x S) (pre ++ l :: post) = .ok rs) {e : Elem}
    {chs rest : List Elem} {fs : List (Str × Val)} (hpre : ReadsSeq x S P pre chs fs) {q : QName}
    (hq : S.expanded l.name = .ok q) (hne : ∀ ch rest', rest = ch :: rest' → ch.1.name ≠ q) :
    Ret (fun k => readLeaves x queueOps (fromNode x queueOps P k) (lookahead queueOps P k) k rs ⟨e, chs ++ rest⟩)
      (.err (.missingElement q.loc q.ns)) := by
  have hsplit : ∃ r1 r2, mapRes (leafRead x S) pre = .ok r1 ∧ mapRes (leafRead x S) (l :: post) = .ok r2 ∧ rs = r1 ++ r2 := by
    clear hpre hp
    induction pre generalizing rs with
    | nil => exact ⟨[], rs, rfl, hrs, rfl⟩
    | cons a pre ih =>
      obtain ⟨b, rs', hb, hrs', rfl⟩ := mapRes_cons_ok.1 hrs
      obtain ⟨r1, r2, h1, h2, rfl⟩ := ih hrs'
      exact ⟨b :: r1, r2, mapRes_cons_ok.2 ⟨b, r1, hb, h1, rfl⟩, h2, rfl⟩
  obtain ⟨r1, r2, h1, h2, rfl⟩ := hsplit
  obtain ⟨pr, r2', hpr, h2', rfl⟩ := mapRes_cons_ok.1 h2
  simp only [readLeaves_append]
  rw [Ret.bind_of_ok (readLeaves_monoF r1 _) (fun a => Mono.bind (g := fun _ r' => .ok (a.1 ++ r'.1, r'.2))
    (readLeaves_monoF (pr :: r2') a.2) (fun _ => Mono.const _))
    ((readLeaves_plain_ok pre hp h1).2 ⟨chs, rest, rfl, rfl, hpre⟩)]
  rw [Ret.map_iff (readLeaves_monoF _ _)]
  refine .inr (.inl ⟨_, ?_, rfl⟩)
  simp only [readLeaves]
  rw [Ret.bind_iff (readLeaf_monoF _ _) (readLeaves_cons_mono _ _)]
  obtain ⟨_, q', hq', _, hmiss⟩ := readLeaf_plain (P := P) hl hpr
  rw [hq] at hq'; cases hq'
  exact .inr (.inl ⟨_, (hmiss e rest hne _).2 rfl, rfl⟩)

/-! ### C20 -/

/-- **C20.** An element whose children are required single elements in sequence is accepted only if its pending
children start with exactly those elements, in schema order; each field is read from the child in the same position,
and the rest is left over. -/
theorem C20_sequence_order (G : Generated x S P) {n : Name} {i : Str} (hi : typeIdent x n = .ok i) {ls : List Leaf}
    {as : List Attribute} (hd : IsElement S n ls as) (hp : ∀ l ∈ ls, l.Plain) {e : Elem} {p : List Elem} {v : Val}
    {s' : Queue} (h : FromNode x P i ⟨e, p⟩ (.ok (v, s'))) :
    ∃ chs rest fs fa, p = chs ++ rest ∧ s' = ⟨e, rest⟩ ∧ ReadsSeq x S P ls chs fs ∧ v = .struct (fs ++ fa) := by
  obtain ⟨rs, ras, hrs, _, heq⟩ := element_code G hi hd
  rw [heq, Ret.bind_ok_iff (readLeaves_monoF rs _) (tail_mono ras)] at h
  obtain ⟨⟨fs, s1⟩, h1, h2⟩ := h
  obtain ⟨_, _, h2⟩ := h2
  simp only [Res.bind_eq_ok] at h2
  obtain ⟨fa, _, h2⟩ := h2
  cases h2
  obtain ⟨chs, rest, rfl, rfl, hs⟩ := (readLeaves_plain_ok ls hp hrs).1 h1
  exact ⟨chs, rest, fs, fa, rfl, rfl, hs, rfl⟩

/-- The names of the children read in sequence. -/
theorem ReadsSeq.names {ls : List Leaf} {chs : List Elem} {fs : List (Str × Val)} (h : ReadsSeq x S P ls chs fs) :
    chs.map (fun ch => (.ok ch.1.name : Res Str QName)) = ls.map (fun l => S.expanded l.name) := by
  induction h with
  | nil => rfl
  | cons hq _ _ _ ih => simp [hq, ih]

/-- **C20**, for the document root: the children of the root element start with the declared names, in order. -/
theorem C20_root_children (G : Generated x S P) {n : Name} {i : Str} (hi : typeIdent x n = .ok i) {ls : List Leaf}
    {as : List Attribute} (hd : IsElement S n ls as) (hp : ∀ l ∈ ls, l.Plain) {d : Doc} {v : Val}
    (h : FromXml x P i d (.ok v)) :
    (elemKids d.root.2).map (fun ch => (.ok ch.1.name : Res Str QName)) |>.take ls.length |> (· = ls.map (fun l => S.expanded l.name)) := by
  have hn : (S.get n).isSome = true := by obtain ⟨_, h, _⟩ := hd; rw [h]; rfl
  obtain ⟨r, t, _, _, _, hg⟩ := G.find' hi hn
  obtain ⟨_, k, s', hk⟩ := (FromXml.ok_iff G hi hn hg.rootName).1 h
  obtain ⟨chs, rest, fs, fa, hp', _, hs, _⟩ := C20_sequence_order G hi hd hp (FromNode.queue.2 ⟨by simp, k, hk⟩)
  have hlen : chs.length = ls.length := by simpa using congrArg List.length hs.names
  show List.take _ _ = _
  rw [hp', List.map_append, List.take_append_of_le_length (by simp [hlen]), hs.names, ← List.length_map (as := ls) (f := fun l => S.expanded l.name), List.take_length]

/-! ### C19 -/

/-- The names of the required single child elements. -/
def requiredNames (S : SchemaContext) (ls : List Leaf) : List (Res Str QName) :=
  (ls.filter (fun l => !l.isVirtual && !l.repeats && !l.mayMiss)).map (fun l => S.expanded l.name)

theorem rleaves_required {T : Name → Val → Elem → List Elem → Prop} (ls : List Leaf) {fs : List (Str × Val)} {e : Elem}
    {es : List Elem} (h : RLeaves x .lenient S T ls fs e es) (q : QName) :
    (requiredNames S ls).count (.ok q) ≤ (es.map (fun ch => ch.1.name)).count q := by
  induction ls generalizing fs es with
  | nil => simp [requiredNames]
  | cons l ls ih =>
    obtain ⟨f, v, fs', es1, es2, rfl, hf, ho, hr, hm, _⟩ := h
    have ih := ih hr
    have hc : (es.map (fun ch => ch.1.name)).count q =
        (es1.map (fun ch => ch.1.name)).count q + (es2.map (fun ch => ch.1.name)).count q := by
      rw [(hm.perm.map _).count_eq, List.map_append, List.count_append]
    rw [hc]
    unfold requiredNames at ih ⊢
    rw [List.filter_cons]
    split
    · next hl =>
      simp only [Bool.and_eq_true, Bool.not_eq_true'] at hl
      obtain ⟨⟨h1, h2⟩, h3⟩ := hl
      unfold ROcc at ho
      rw [if_neg (by simp [h2]), if_neg (by simp [h3])] at ho
      unfold RItem at ho
      rw [if_neg (by simp [h1])] at ho
      obtain ⟨ch, rfl, hq, _⟩ := ho
      rw [List.map_cons, List.count_cons, hq]
      simp only [List.map_cons, List.map_nil, List.count_cons, List.count_nil]
      by_cases hqq : ch.1.name = q
      · subst hqq; simp; omega
      · have : ((Res.ok ch.1.name : Res Str QName) == .ok q) = false := by
          simp [hqq]
        simp [this, hqq]; omega
    · omega

theorem rattrs_required (as : List Attribute) {m : Mode} {fs : List (Str × Val)} {e : Elem} (h : RAttrs x m S as fs e) :
    ∀ a ∈ as, a.isOptional = false → (attrOf e.1 a.name.name).isSome = true := by
  induction as generalizing fs with
  | nil => simp
  | cons a as ih =>
    obtain ⟨f, v, fs', rfl, hf, hr, hv⟩ := h
    intro b hb hopt
    rcases List.mem_cons.1 hb with rfl | hb
    · rw [if_neg (by simp [hopt])] at hv
      obtain ⟨s, hs, _⟩ := hv
      rw [hs]; rfl
    · exact ih hr b hb hopt

/-- **C19, acceptance.** If reading an element succeeds, every required single child element was there (at least as
many of every name as are required), and so was every required attribute. -/
theorem C19_required_present (G : Generated x S P) {n : Name} {i : Str} (hi : typeIdent x n = .ok i) {ls : List Leaf}
    {as : List Attribute} (hd : IsElement S n ls as) {e : Elem} {p : List Elem} {v : Val} {s' : Queue}
    (h : FromNode x P i ⟨e, p⟩ (.ok (v, s'))) :
    (∀ q, (requiredNames S ls).count (.ok q) ≤ (p.map (fun ch => ch.1.name)).count q) ∧
    (∀ a ∈ as, a.isOptional = false → (attrOf e.1 a.name.name).isSome = true) := by
  obtain ⟨_, k, hk⟩ := FromNode.queue.1 h
  obtain ⟨d, hget, hc, rfl⟩ := hd
  obtain ⟨_, es, hes, hcat⟩ := fromNode_sound G k n i _ _ _ hi (by rw [hget]; rfl) hk
  cases k with
  | zero => cases hes
  | succ k =>
    obtain ⟨r, hr, hR⟩ := hes
    rw [hget] at hr; cases hr
    obtain ⟨fc, fa, rfl, hcont, hattrs⟩ := hR
    rw [hc] at hcont
    refine ⟨fun q => ?_, rattrs_required _ hattrs⟩
    obtain ⟨es0, hcont, har⟩ := hcont
    have h1 := rleaves_required ls hcont q
    rw [← har.count q] at h1
    have h2 : (p.map (fun ch => ch.1.name)).count q =
        (es.map (fun ch => ch.1.name)).count q + (s'.pending.map (fun ch => ch.1.name)).count q := by
      rw [(hcat.1.perm.map _).count_eq, List.map_append, List.count_append]
    omega

/-- **C19, first missing child element.** If the children before it are there and can be read, and the next pending child
is not the required one, the result is `MissingElement` for it. -/
theorem C19_first_missing_element (G : Generated x S P) {n : Name} {i : Str} (hi : typeIdent x n = .ok i)
    {pre post : List Leaf} {l : Leaf} {as : List Attribute} (hd : IsElement S n (pre ++ l :: post) as)
    (hp : ∀ l' ∈ pre, l'.Plain) (hl : l.Plain) {e : Elem} {chs rest : List Elem} {fs : List (Str × Val)}
    (hpre : ReadsSeq x S P pre chs fs) {q : QName} (hq : S.expanded l.name = .ok q)
    (hne : ∀ ch rest', rest = ch :: rest' → ch.1.name ≠ q) :
    FromNode x P i ⟨e, chs ++ rest⟩ (.err (.missingElement q.loc q.ns)) := by
  obtain ⟨rs, ras, hrs, _, heq⟩ := element_code G hi hd
  rw [heq, Ret.bind_iff (readLeaves_monoF rs _) (tail_mono ras)]
  exact .inr (.inl ⟨_, readLeaves_plain_missing hp hl hrs hpre hq hne, rfl⟩)

/-- An attribute that does not stop the reader: optional and absent, or present with a value of its type. -/
def AttrReadable (x : Ext) (S : SchemaContext) (e : Elem) (a : Attribute) : Prop :=
  match attrOf e.1 a.name.name with
  | none => a.isOptional = true
  | some s => ∃ v, RStr x .lenient S a.content s v

theorem readStr_of_rstr (G : Generated x S P) {a : Attribute} {r : AttrRead} (hr : attrRead x S a = .ok r)
    (hcl : ∀ n, Means S a.content (.named n) → (S.get n).isSome = true) {s : Str} {v : Val}
    (h : RStr x .lenient S a.content s v) : ∃ v', readStr x P r.inner s = .ok v' := by
  obtain ⟨_, _, _, hcase⟩ := attrRead_ok hr
  unfold RStr at h
  rcases hcase with ⟨t, ht, hi⟩ | ⟨f, hf, hi⟩ | ⟨n, ty, hn, hty, hi⟩
  · rw [ht] at h; rw [hi]; exact ⟨v, by simp [readStr, parseLit, h]⟩
  · rw [hi]; exact ⟨.unit, rfl⟩
  · rw [hn] at h hty hcl; rw [hi]
    obtain ⟨c', hm, h⟩ := h
    rcases contentTy_ok hty with ⟨t, hm', rfl⟩ | ⟨f, hm', rfl⟩ | ⟨n', i, hm', hi', rfl⟩
    · cases hm.functional hm'
      exact ⟨.str s, by simp [readStr, fromStrAt, h.1]⟩
    · cases hm.functional hm'; cases h
    · cases hm.functional hm'
      obtain ⟨names, tab, vn, hget, htab, hmem, rfl⟩ := h
      obtain ⟨r', t, hr', hft, hid, hg⟩ := G.find' hi' (by rw [hget]; rfl)
      rw [hget] at hr'; cases hr'
      obtain ⟨tab', htab', hdt, _⟩ := rootDecl_enum hg.decl
      rw [htab] at htab'; cases htab'
      simp only [readStr, fromStrAt, hft, hdt, enumFromStr]
      split
      · exact ⟨_, rfl⟩
      · next hnone =>
        have := List.find?_eq_none.1 hnone (vn, s) hmem
        simp at this

theorem readAttrs_missing (G : Generated x S P) {pre post : List Attribute} {a : Attribute} {ras : List AttrRead}
    (hras : mapRes (attrRead x S) (pre ++ a :: post) = .ok ras)
    (hcl : ∀ b ∈ pre, ∀ n, Means S b.content (.named n) → (S.get n).isSome = true) {s : Queue}
    (hpre : ∀ b ∈ pre, AttrReadable x S s.node b) (ha : a.isOptional = false)
    (hmiss : attrOf s.node.1 a.name.name = none) :
    readAttrs x queueOps P ras s = .err (.missingAttribute a.name.name) := by
  induction pre generalizing ras with
  | nil =>
    obtain ⟨r, ras', hr, _, rfl⟩ := mapRes_cons_ok.1 hras
    obtain ⟨_, hn, ho, _⟩ := attrRead_ok hr
    have : readAttr x queueOps P r s = .err (.missingAttribute a.name.name) := by
      unfold readAttr
      rw [ho, if_neg (by simp [ha]), hn]
      simp only [queueOps, attrVal_eq_attrOf, hmiss]
      rfl
    simp only [readAttrs, this]; rfl
  | cons b pre ih =>
    obtain ⟨r, ras', hr, hras', rfl⟩ := mapRes_cons_ok.1 hras
    obtain ⟨_, hn, ho, _⟩ := attrRead_ok hr
    have hb := hpre b (by simp)
    have ih := ih hras' (fun b hb => hcl b (by simp [hb])) (fun b hb => hpre b (by simp [hb]))
    have : ∃ w, readAttr x queueOps P r s = .ok w := by
      unfold readAttr
      unfold AttrReadable at hb
      rw [ho, hn]
      have hat : queueOps.attr s b.name.name = attrOf s.node.1 b.name.name := attrVal_eq_attrOf _ _
      cases hv : attrOf s.node.1 b.name.name with
      | none =>
        rw [hv] at hb
        rw [if_pos hb, hat, hv]
        exact ⟨_, rfl⟩
      | some sv =>
        rw [hv] at hb
        obtain ⟨v, hb⟩ := hb
        obtain ⟨v', hv'⟩ := readStr_of_rstr G hr (hcl b (by simp)) hb
        split
        · rw [hat, hv]
          simp only [hv', Res.bind_ok]
          exact ⟨_, rfl⟩
        · simp only [queueOps, attrVal_eq_attrOf, hv, ofExcept, Res.bind_ok]
          exact ⟨_, hv'⟩
    obtain ⟨w, hw⟩ := this
    simp only [readAttrs, hw, Res.bind_ok, ih, Res.bind_err]

/-- **C19, first missing attribute.** If the child elements are there and can be read, and the attributes declared before it
do not stop the reader, a missing required attribute gives `MissingAttribute` for it. -/
theorem C19_first_missing_attribute (G : Generated x S P) {n : Name} {i : Str} (hi : typeIdent x n = .ok i)
    {ls : List Leaf} {pre post : List Attribute} {a : Attribute} (hd : IsElement S n ls (pre ++ a :: post))
    (hp : ∀ l ∈ ls, l.Plain) {e : Elem} {chs rest : List Elem} {fs : List (Str × Val)}
    (hls : ReadsSeq x S P ls chs fs) (hpre : ∀ b ∈ pre, AttrReadable x S e b) (ha : a.isOptional = false)
    (hmiss : attrOf e.1 a.name.name = none) :
    FromNode x P i ⟨e, chs ++ rest⟩ (.err (.missingAttribute a.name.name)) := by
  obtain ⟨rs, ras, hrs, hras, heq⟩ := element_code G hi hd
  obtain ⟨d, hget, hc, hattr⟩ := hd
  rw [heq, Ret.bind_of_ok (readLeaves_monoF rs _) (tail_mono ras)
    ((readLeaves_plain_ok ls hp hrs).2 ⟨chs, rest, rfl, rfl, hls⟩)]
  have hm := readAttrs_missing (s := ⟨e, rest⟩) G hras (fun b hb m hm => G.closedAt hget (by
    simp only [Root.contents, List.mem_append, List.mem_map]
    exact .inr ⟨b, by rw [hattr]; simp [hb], rfl⟩) hm) hpre ha hmiss
  refine ⟨by simp, 0, ?_⟩
  simp only [hm]; rfl

/-! ### C22 -/

/-- The values of a list of children with the same content. -/
inductive ReadsAll (x : Ext) (S : SchemaContext) (P : List TypeDef) (c : LeafContent) : List Elem → List Val → Prop where
  | nil : ReadsAll x S P c [] []
  | cons {ch : Elem} {chs : List Elem} {v : Val} {vs : List Val} (hv : ReadsAs x S P c ch (.ok v))
      (h : ReadsAll x S P c chs vs) : ReadsAll x S P c (ch :: chs) (v :: vs)

theorem loopNext_run {c : LeafContent} {vr : ValRead} (hc : contentRead x S c = .ok vr) {q : QName} (K k : Nat)
    {e : Elem} {p : List Elem} {vs : List Val} {s' : Queue}
    (h : loopNext x queueOps (fromNode x queueOps P K) q vr k ⟨e, p⟩ = .ok (vs, s')) :
    ∃ run rest, MaximalRun q p run rest ∧ s' = ⟨e, rest⟩ ∧ ReadsAll x S P c run vs := by
  induction k generalizing p vs with
  | zero => cases h
  | succ k ih =>
    simp only [loopNext] at h
    split at h
    · next s1 hn =>
      cases h
      obtain ⟨rfl, hne⟩ := next_none hn
      exact ⟨[], p, ⟨rfl, by simp, hne⟩, rfl, .nil⟩
    · next ch s1 hn =>
      obtain ⟨hname, hnode, hpend⟩ := next_some hn
      simp only [Res.bind_eq_ok] at h
      obtain ⟨w, hw, ⟨vs', s2⟩, hr, h⟩ := h
      cases h
      obtain ⟨n1, p1⟩ := s1
      simp only at hnode hpend; subst hnode; subst hpend
      obtain ⟨run, rest, ⟨rfl, hall, hne⟩, rfl, hR⟩ := ih hr
      exact ⟨ch :: run, rest, ⟨rfl, by
        intro c hc; rcases List.mem_cons.1 hc with rfl | hc
        · exact hname
        · exact hall c hc, hne⟩, rfl, .cons ((readOn_iff hc).1 ⟨by simp, K, hw⟩) hR⟩

theorem mapRes_split {α β : Type} {f : α → Res Str β} {as bs : List α} {rs : List β} (h : mapRes f (as ++ bs) = .ok rs) :
    ∃ r1 r2, mapRes f as = .ok r1 ∧ mapRes f bs = .ok r2 ∧ rs = r1 ++ r2 := by
  induction as generalizing rs with
  | nil => exact ⟨[], rs, rfl, h, rfl⟩
  | cons a as ih =>
    obtain ⟨b, rs', hb, hrs', rfl⟩ := mapRes_cons_ok.1 h
    obtain ⟨r1, r2, h1, h2, rfl⟩ := ih hrs'
    exact ⟨b :: r1, r2, mapRes_cons_ok.2 ⟨b, r1, hb, h1, rfl⟩, h2, rfl⟩

/-- A list field: a `Vec`, or an `Option<Vec>` that is `None` when there is no item. -/
def listField (l : Leaf) (vs : List Val) : Val :=
  if l.mayMiss then (match vs with | [] => .none | _ => .some (.vec vs)) else .vec vs

/-- **C22 (partial), maximal run.** Missing: the number of items is not checked against the occurrence bounds
(`C22_bounds_false`). When an element is read, the field of a repeated child element holds the values of the maximal run
of children with that name, at the position the preceding fields have left (`pre` has consumed `es`, `mid` is what was
pending then), and reading goes on after the run. -/
theorem C22_maximal_run_partial (G : Generated x S P) {n : Name} {i : Str} (hi : typeIdent x n = .ok i)
    {pre post : List Leaf} {l : Leaf} {as : List Attribute} (hd : IsElement S n (pre ++ l :: post) as)
    (hl : l.isVirtual = false) (hvec : l.repeats = true) {e : Elem} {p : List Elem} {v : Val} {s' : Queue}
    (h : FromNode x P i ⟨e, p⟩ (.ok (v, s'))) :
    ∃ k q f es mid run rest es' vs fs1 fs2, S.expanded l.name = .ok q ∧ fieldIdent x l.name = .ok f ∧
      RLeaves x .lenient S (TRepr x .lenient S k) pre fs1 e es ∧ Cat (∃ l ∈ pre, LooseLeaf S l) .lenient es mid p ∧
      MaximalRun q mid run rest ∧ ReadsAll x S P l.definition.content run vs ∧
      RLeaves x .lenient S (TRepr x .lenient S k) post fs2 e es' ∧ Cat (∃ l ∈ post, LooseLeaf S l) .lenient es' s'.pending rest ∧
      ∃ fa, v = .struct (fs1 ++ (f, listField l vs) :: fs2 ++ fa) := by
  obtain ⟨rs, ras, hrs, _, heq⟩ := element_code G hi hd
  rw [heq] at h
  obtain ⟨_, k, h⟩ := h
  simp only [Res.bind_eq_ok] at h
  obtain ⟨⟨fs, s1⟩, hfs, fa, hfa, h⟩ := h
  cases h
  obtain ⟨d, hget, hc, hattr⟩ := hd
  obtain ⟨r1, r2, h1, h2, rfl⟩ := mapRes_split hrs
  obtain ⟨pr, r2', hpr, h2', rfl⟩ := mapRes_cons_ok.1 h2
  rw [readLeaves_append] at hfs
  simp only [Res.bind_eq_ok, readLeaves] at hfs
  obtain ⟨⟨fs1, s2⟩, hfs1, ⟨fs2, s3⟩, ⟨⟨w, s4⟩, hw, ⟨fs3, s5⟩, hfs3, h3⟩, h4⟩ := hfs
  cases h3; cases h4
  have hcl : ∀ l' ∈ pre ++ l :: post, ∀ m, Means S l'.definition.content (.named m) → (S.get m).isSome = true :=
    fun l' hl' m hm => G.closedAt hget (by
      simp only [Root.contents, hc, List.mem_append, List.mem_map]
      exact .inl ⟨l', List.mem_append.1 hl', rfl⟩) hm
  have hL := lookahead_pure (P := P) k
  obtain ⟨hn1, es, hes, hcat⟩ := readLeaves_sound (ne := false) (fromNode_sound G k) hL k pre (fun _ _ _ h => by cases h) h1
    (fun l' hl' => hcl l' (by simp [hl'])) hfs1
  obtain ⟨hn3, es', hes', hcat'⟩ := readLeaves_sound (ne := false) (fromNode_sound G k) hL k post (fun _ _ _ h => by cases h) h2'
    (fun l' hl' => hcl l' (by simp [hl'])) hfs3
  obtain ⟨q, vr, hf, hq, hv, hlr⟩ := leafRead_ok hpr
  have hpt : pr.2 = .whileNext q vr l.mayMiss := by
    generalize hp2 : pr.2 = lr at hlr
    cases hlr with
    | whileNext => rfl
    | whileLook h1 => simp [hl] at h1
    | ifLook h1 => simp [hl] at h1
    | plain h1 => simp [hl] at h1
    | ifNext _ h2 => simp [hvec] at h2
    | tryChild _ h2 => simp [hvec] at h2
    | tryNext _ h2 => simp [hvec] at h2
  rw [hpt] at hw
  simp only [readLeaf, Res.bind_eq_ok] at hw
  obtain ⟨⟨vs, s6⟩, hloop, hw⟩ := hw
  cases hw
  obtain ⟨n2, p2⟩ := s2
  simp only at hn1; subst hn1
  obtain ⟨run, rest, hrun, rfl, hall⟩ := loopNext_run hv k k hloop
  refine ⟨k, q, pr.1, es, p2, run, rest, es', vs, fs1, fs3, hq, hf, hes, hcat, hrun, hall, hes', hcat', fa, ?_⟩
  have : wrapVec l.mayMiss vs = listField l vs := by
    unfold wrapVec listField
    cases vs <;> simp
  rw [this]

/-! ### C21 -/

/-- Same value, states on the given elements with the same children by name. -/
def AllRel {α : Type} (e e' : Elem) (a a' : α × Queue) : Prop :=
  a'.1 = a.1 ∧ a.2.node = e ∧ a'.2.node = e' ∧ SameByName a.2.pending a'.2.pending

theorem readLeaves_all (K k : Nat) (ls : List Leaf) (hl : ∀ l ∈ ls, l.Single ∧ l.isUnordered = true)
    {rs : List (Str × LeafRead)} (hrs : mapRes (leafRead x S) ls = .ok rs) {e e' : Elem} {p p' : List Elem}
    (h : SameByName p p') :
    ResRel true (AllRel e e')
      (readLeaves x queueOps (fromNode x queueOps P K) (lookahead queueOps P K) k rs ⟨e, p⟩)
      (readLeaves x queueOps (fromNode x queueOps P K) (lookahead queueOps P K) k rs ⟨e', p'⟩) := by
  induction ls generalizing rs p p' with
  | nil =>
    simp [mapRes] at hrs; subst hrs
    exact .okk ⟨rfl, rfl, rfl, h⟩
  | cons l ls ih =>
    obtain ⟨pr, rs', hpr, hrs', rfl⟩ := mapRes_cons_ok.1 hrs
    obtain ⟨hs, hu⟩ := hl l (by simp)
    obtain ⟨q, vr, hf, hq, hv, hlr⟩ := leafRead_ok hpr
    have hpt : pr.2 = .tryChild q vr := by
      generalize hp2 : pr.2 = lr at hlr
      cases hlr with
      | tryChild => rfl
      | whileLook h1 => simp [hs.notVirtual] at h1
      | ifLook h1 => simp [hs.notVirtual] at h1
      | plain h1 => simp [hs.notVirtual] at h1
      | whileNext _ h2 => simp [hs.notVec] at h2
      | ifNext _ _ h3 => simp [hs.required] at h3
      | tryNext _ _ _ h4 => simp [hu] at h4
    obtain ⟨h1, h2⟩ := takeFirst_same h q
    obtain ⟨f, lr⟩ := pr
    simp only at hpt; subst hpt
    have hop : ∀ e p, queueOps.tryChild ⟨e, p⟩ q = (Queue.orMissing q (Queue.takeFirst q p).1, ⟨e, (Queue.takeFirst q p).2⟩) :=
      fun _ _ => rfl
    simp only [readLeaves]
    refine ResRel.bind (R := AllRel e e') ?_ ?_
    · simp only [readLeaf, hop, ← h1]
      cases (Queue.takeFirst q p).1 with
      | none => intro _; rfl
      | some ch =>
        simp only [Queue.orMissing]
        refine ResRel.bind (ResRel.self _) ?_
        rintro a _ rfl
        exact .okk ⟨rfl, rfl, rfl, h2⟩
    · rintro ⟨a, e1, p1⟩ ⟨a', e2, p2⟩ ⟨ha, he1, he2, hp⟩
      simp only at ha he1 he2 hp
      subst ha; subst he1; subst he2
      refine ResRel.bind (ih (fun l hl' => hl l (by simp [hl'])) hrs' hp) ?_
      rintro ⟨b, s⟩ ⟨b', s'⟩ ⟨hb, hh⟩
      simp only at hb; subst hb
      exact .okk ⟨rfl, hh⟩

/-- **C21 (partial).** An `xs:all` group whose elements are all required: reordering the children (without exchanging
children of the same name; so any permutation if the names are distinct) does not change the result of `from_xml`,
value or error. Missing: optional members, for which the claim is false (`C21_optional_false`). -/
theorem C21_any_order_partial (G : Generated x S P) {n : Name} {i : Str} (hi : typeIdent x n = .ok i) {ls : List Leaf}
    {as : List Attribute} (hd : IsElement S n ls as) (hl : ∀ l ∈ ls, l.Single ∧ l.isUnordered = true)
    {info : ElemInfo} {cs cs' : List XNode} (h : SameByName (elemKids cs) (elemKids cs')) (r : Res DErr Val) :
    FromXml x P i ⟨(info, cs)⟩ r ↔ FromXml x P i ⟨(info, cs')⟩ r := by
  have hn : (S.get n).isSome = true := by obtain ⟨_, h, _⟩ := hd; rw [h]; rfl
  obtain ⟨r0, t, hr0, hft, _, hg⟩ := G.find' hi hn
  obtain ⟨d, hget, hc, rfl⟩ := hd
  rw [hget] at hr0; cases hr0
  have hrd := hg.read
  simp only [rootRead, Res.bind_eq_ok] at hrd
  obtain ⟨c, hcr, ras, has, hrd⟩ := hrd
  rw [hc] at hcr
  simp only [elementContentRead, Res.bind_eq_ok] at hcr
  obtain ⟨rs, hrs, hcr⟩ := hcr
  have key : ∀ (k : Nat), ResRel true (fun a a' => a'.1 = a.1)
      (fromNode x queueOps P k i ⟨(info, cs), elemKids cs⟩) (fromNode x queueOps P k i ⟨(info, cs'), elemKids cs'⟩) := by
    intro k
    cases k with
    | zero => intro _; rfl
    | succ k =>
      simp only [fromNode, hft, runFrom, ← Res.ok.inj hrd, ← Res.ok.inj hcr, readContent]
      refine ResRel.bind (readLeaves_all k k ls hl hrs h) ?_
      rintro ⟨a, e1, p1⟩ ⟨a', e2, p2⟩ ⟨ha, he1, he2, hp⟩
      simp only at ha he1 he2 hp
      subst ha; subst he1; subst he2
      have : readAttrs x queueOps P ras ⟨(info, cs'), p2⟩ = readAttrs x queueOps P ras ⟨(info, cs), p1⟩ :=
        readAttrs_rel _ has (fun _ _ => rfl)
      simp only [this]
      refine ResRel.bind (ResRel.self _) ?_
      rintro b _ rfl
      exact .okk rfl
  have heq : ∀ k, fromXml x cursorOps P k i ⟨(info, cs)⟩ = fromXml x cursorOps P k i ⟨(info, cs')⟩ := by
    intro k
    rw [fromXml_eq G hi hn hg.rootName, fromXml_eq G hi hn hg.rootName]
    split
    · have := key k
      simp only at this ⊢
      cases hA : fromNode x queueOps P k i ⟨(info, cs), elemKids cs⟩ with
      | ok a => rw [hA] at this; obtain ⟨a', ha', hh⟩ := this; rw [ha']; simp [hh]
      | err e => rw [hA] at this; rw [this rfl]
      | panic => rw [hA] at this; rw [this rfl]
      | diverge => rw [hA] at this; rw [this rfl]
    · rfl
  unfold FromXml
  simp only [heq]

end Xsd
