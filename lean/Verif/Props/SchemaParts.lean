import Verif.Lemmas.Parse
import Verif.Props.Literals
/-!
# Occurrence attributes, type references, simple types, attribute declarations (C33, C34, C38, C53)
-/
namespace Xsd

/-! ## C34: occurrence attributes -/

theorem intText_unsigned {s : Str} {i : Int} {hi : Nat} (h : IntText false s i) (hi' : i ≤ hi) : Unsigned hi s i.toNat := by
  obtain ⟨ds, n, hn, h⟩ := h
  rcases h with ⟨rfl, rfl⟩ | ⟨rfl, rfl⟩ | ⟨hb, _⟩
  · exact ⟨by omega, s, hn, .inl rfl⟩
  · exact ⟨by omega, ds, hn, .inr rfl⟩
  · cases hb

theorem unsigned_intText {s : Str} {n hi : Nat} (h : Unsigned hi s n) : IntText false s n ∧ (n : Int) ≤ hi := by
  obtain ⟨hle, ds, hn, h⟩ := h
  refine ⟨⟨ds, n, hn, ?_⟩, by omega⟩
  rcases h with rfl | rfl
  · exact .inl ⟨rfl, rfl⟩
  · exact .inr (.inl ⟨rfl, rfl⟩)

theorem parseUInt_ok {hi n : Nat} {s : Str} :
    (∃ i, parseInt false 0 hi s = some i ∧ i.toNat = n) ↔ Unsigned hi s n := by
  constructor
  · rintro ⟨i, hi, rfl⟩
    obtain ⟨ht, h0, h1⟩ := (C26_integer_texts false 0 _ s i).1 hi
    exact intText_unsigned ht h1
  · intro h
    obtain ⟨ht, h1⟩ := unsigned_intText h
    exact ⟨n, (C26_integer_texts false 0 _ s n).2 ⟨ht, by omega, h1⟩, by omega⟩

theorem parseU32_ok {a : XAttr} {n : Nat} : parseU32 a = .ok n ↔ Unsigned 4294967295 a.value n := by
  rw [← parseUInt_ok]
  unfold parseU32
  show (match parseInt false 0 u32Max a.value with | some i => _ | none => _) = _ ↔ ∃ i, parseInt false 0 u32Max a.value = _ ∧ _
  cases parseInt false 0 u32Max a.value <;> simp

theorem parseUsize_ok {a : XAttr} {n : Nat} : parseUsize a = .ok n ↔ Unsigned 18446744073709551615 a.value n := by
  rw [← parseUInt_ok]
  unfold parseUsize
  show (match parseInt false 0 u64Max a.value with | some i => _ | none => _) = _ ↔ ∃ i, parseInt false 0 u64Max a.value = _ ∧ _
  cases parseInt false 0 u64Max a.value <;> simp

theorem parseU32_total (a : XAttr) : (∃ n, parseU32 a = .ok n) ∨ parseU32 a = .err (.parseInt a.start) := by
  unfold parseU32
  cases parseInt false 0 u32Max a.value with
  | some i => exact .inl ⟨_, rfl⟩
  | none => exact .inr rfl

/-- C34: `minOccurs` is 1 if it is missing, the number if the text is a `u32` numeral, and otherwise an error. -/
theorem C34_min_occurs (a : Option XAttr) :
    (a = none → parseMinOccurs a = .ok 1) ∧
    (∀ b, a = some b → (∀ n, parseMinOccurs a = .ok n ↔ Unsigned 4294967295 b.value n) ∧
      ((¬ ∃ n, Unsigned 4294967295 b.value n) → parseMinOccurs a = .err (.parseInt b.start))) := by
  refine ⟨fun h => h ▸ rfl, ?_⟩
  rintro b rfl
  refine ⟨fun n => parseU32_ok, fun h => ?_⟩
  rcases parseU32_total b with ⟨n, hn⟩ | h1
  · exact absurd ⟨n, parseU32_ok.1 hn⟩ h
  · exact h1

theorem not_unsigned_unbounded {hi n : Nat} : ¬ Unsigned hi c!"unbounded" n := by
  intro h
  have : ∃ i, parseInt false 0 hi c!"unbounded" = some i ∧ i.toNat = n := parseUInt_ok.2 h
  obtain ⟨i, hp, _⟩ := this
  have : parseSigned false c!"unbounded" = none := by decide
  unfold parseInt at hp
  rw [this] at hp
  cases hp

/-- C34: `maxOccurs` is 1 if it is missing, unbounded if it says so, the number if the text is a `u32` numeral, and otherwise
an error. -/
theorem C34_max_occurs (a : Option XAttr) :
    (a = none → parseMaxOccurs a = .ok (.number 1)) ∧
    (∀ b, a = some b →
      (parseMaxOccurs a = .ok .unbounded ↔ b.value = c!"unbounded") ∧
      (∀ n, parseMaxOccurs a = .ok (.number n) ↔ Unsigned 4294967295 b.value n) ∧
      (b.value ≠ c!"unbounded" → (¬ ∃ n, Unsigned 4294967295 b.value n) → parseMaxOccurs a = .err (.parseInt b.start))) := by
  refine ⟨fun h => h ▸ rfl, ?_⟩
  rintro b rfl
  unfold parseMaxOccurs
  by_cases hu : b.value = c!"unbounded"
  · simp only [hu, if_true, true_iff]
    exact ⟨trivial, fun n => ⟨(by intro h; cases h), fun h => absurd h not_unsigned_unbounded⟩, fun h => absurd rfl h⟩
  · simp only [hu, if_false, iff_false]
    rcases parseU32_total b with ⟨n, hn⟩ | h1
    · rw [hn]
      have hn' := parseU32_ok.1 hn
      refine ⟨(by intro h; cases h), fun m => ⟨?_, ?_⟩, fun _ h => absurd ⟨n, hn'⟩ h⟩
      · intro h
        cases h
        exact hn'
      · intro h
        have := parseU32_ok.2 h
        rw [hn] at this
        cases this
        rfl
    · rw [h1]
      refine ⟨(by intro h; cases h), fun m => ⟨(by intro h; cases h), fun h => ?_⟩, fun _ _ => rfl⟩
      rw [parseU32_ok.2 h] at h1
      cases h1

/-- The value of an attribute of a schema node. -/
def Nd.value (nd : Nd) (n : Str) : Option Str := (nd.attr n).map XAttr.value

/-- Specification: the number of times a particle has to occur, as written on it. -/
def MinOf (c : Nd) (n : Nat) : Prop :=
  (c.value c!"minOccurs" = none ∧ n = 1) ∨ ∃ v, c.value c!"minOccurs" = some v ∧ Unsigned 4294967295 v n

/-- Specification: the number of times a particle can occur, as written on it. -/
def MaxOf (c : Nd) (m : MaxOccurs) : Prop :=
  (c.value c!"maxOccurs" = none ∧ m = .number 1) ∨
  ∃ v, c.value c!"maxOccurs" = some v ∧ ((v = c!"unbounded" ∧ m = .unbounded) ∨ ∃ n, m = .number n ∧ Unsigned 4294967295 v n)

theorem parseMinOccurs_minOf {c : Nd} {n : Nat} (h : parseMinOccurs (c.attr c!"minOccurs") = .ok n) : MinOf c n := by
  unfold MinOf Nd.value
  cases ha : c.attr c!"minOccurs" with
  | none => rw [ha] at h; exact .inl ⟨rfl, (Res.ok.inj h).symm⟩
  | some a => rw [ha] at h; exact .inr ⟨a.value, rfl, (((C34_min_occurs _).2 a rfl).1 n).1 h⟩

theorem parseMaxOccurs_maxOf {c : Nd} {m : MaxOccurs} (h : parseMaxOccurs (c.attr c!"maxOccurs") = .ok m) : MaxOf c m := by
  unfold MaxOf Nd.value
  cases ha : c.attr c!"maxOccurs" with
  | none => rw [ha] at h; exact .inl ⟨rfl, (Res.ok.inj h).symm⟩
  | some a =>
    rw [ha] at h
    refine .inr ⟨a.value, rfl, ?_⟩
    cases m with
    | unbounded => exact .inl ⟨((C34_max_occurs _).2 a rfl).1.1 h, rfl⟩
    | number n => exact .inr ⟨n, rfl, (((C34_max_occurs _).2 a rfl).2.1 n).1 h⟩

/-- C34: a local element declaration keeps the numbers of its node. -/
theorem C34_leaf (x : Ext) (k : Nat) (nd : Nd) (parent : Name) (s s' : PCtx) (l : Leaf)
    (h : parseElementChild x k nd parent s = .ok (l, s')) :
    MinOf nd l.minOccurs ∧ MaxOf nd l.maxOccurs := by
  have key : parseMinOccurs (nd.attr c!"minOccurs") = .ok l.minOccurs ∧ parseMaxOccurs (nd.attr c!"maxOccurs") = .ok l.maxOccurs := by
    cases k with
    | zero => cases h
    | succ k =>
      cases parseElementChild_run x h with
      | ref mn mx a n s1 hmn hmx => exact ⟨hmn, hmx⟩
      | typed mn mx na docs a c nd' s' hmn hmx => exact ⟨hmn, hmx⟩
      | any mn mx na docs hmn hmx => exact ⟨hmn, hmx⟩
      | inline mn mx na docs v root s1 hmn hmx => exact ⟨hmn, hmx⟩
  exact ⟨parseMinOccurs_minOf key.1, parseMaxOccurs_maxOf key.2⟩

theorem contentTy_plain {x : Ext} {S : SchemaContext} {c : LeafContent} {t : Ty} (h : contentTy x S c = .ok t) :
    (∀ u, t ≠ .option u) ∧ ∀ u, t ≠ .vec u := by
  unfold contentTy at h
  rw [Res.bind_eq_ok] at h
  obtain ⟨c', _, h⟩ := h
  cases c' with
  | literal l => cases h; exact ⟨fun u => nofun, fun u => nofun⟩
  | fixed l => cases h; exact ⟨fun u => nofun, fun u => nofun⟩
  | named n =>
    dsimp only at h
    rw [Res.bind_eq_ok] at h
    obtain ⟨i, _, h⟩ := h
    cases h
    exact ⟨fun u => nofun, fun u => nofun⟩

/-- C34: the type of a field is an option iff `minOccurs` is 0, and (inside the option) a list iff `maxOccurs` is
unbounded or above 1. -/
theorem C34_field_type (x : Ext) (S : SchemaContext) (l : Leaf) (f : Str) (t : Ty) (h : leafDecl x S l = .ok (f, t)) :
    ((∃ u, t = .option u) ↔ l.minOccurs = 0) ∧
    ((∃ u, t = .vec u ∨ t = .option (.vec u)) ↔ l.maxOccurs = .unbounded ∨ ∃ n, l.maxOccurs = .number n ∧ 1 < n) := by
  unfold leafDecl at h
  rw [Res.bind_eq_ok] at h
  obtain ⟨f', _, h⟩ := h
  rw [Res.bind_eq_ok] at h
  obtain ⟨u, hu, h⟩ := h
  obtain ⟨h1, h2⟩ := contentTy_plain hu
  have hv : l.isVec = true ↔ (l.maxOccurs = .unbounded ∨ ∃ n, l.maxOccurs = .number n ∧ 1 < n) := by
    unfold Leaf.isVec
    cases l.maxOccurs with
    | unbounded => simp
    | number n => by_cases hn : n > 1 <;> simp [hn]
  have ho : l.isOptional = true ↔ l.minOccurs = 0 := by simp [Leaf.isOptional]
  have ht := (Prod.mk.inj (Res.ok.inj h)).2
  rw [← hv, ← ho]
  subst ht
  cases l.isVec <;> cases l.isOptional <;>
    simp [h1, h2]

example : Unsigned 4294967295 c!"+12" 12 :=
  ⟨by decide, c!"12", .snoc c!"1" 1 2 (.digit 1 (by decide)) (by decide), .inr rfl⟩

example : parseMinOccurs (some ⟨c!"minOccurs", none, c!"4294967296", 7⟩) = .err (.parseInt 7) := by decide +kernel

/-! ## C33: type references -/

/-- Specification: the built-in types that are supported. -/
def builtin : List (Str × LiteralType) :=
  [(c!"string", .string), (c!"boolean", .boolean), (c!"integer", .int64), (c!"long", .int64),
   (c!"nonNegativeInteger", .uint64), (c!"positiveInteger", .uint64), (c!"int", .int32), (c!"decimal", .decimal),
   (c!"float", .float32), (c!"time", .time), (c!"date", .date), (c!"dateTime", .dateTime), (c!"duration", .duration),
   (c!"base64Binary", .base64Binary), (c!"hexBinary", .hexBinary), (c!"any", .any), (c!"anyType", .any)]

theorem literalFromStr_builtin (n : Str) (t : LiteralType) : literalFromStr n = some t ↔ (n, t) ∈ builtin := by
  have e : literalFromStr n = alookup builtin n := by
    unfold literalFromStr
    simp only [builtin, alookup, @eq_comm _ n]
  rw [e]
  exact ⟨alookup_mem, alookup_of_mem (by decide)⟩

/-- Specification of `prefix:local`: the prefix is what precedes the first colon. -/
def Prefixed (v p n : Str) : Prop := v = p ++ ':' :: n ∧ ':' ∉ p

theorem splitn2_prefixed {v p n : Str} : splitn2 v = (p, some n) ↔ Prefixed v p n := by
  unfold Prefixed
  induction v generalizing p with
  | nil => simp [splitn2]
  | cons c cs ih =>
    unfold splitn2
    by_cases hc : c = ':'
    · subst hc
      rw [if_pos rfl]
      constructor
      · intro h; cases h; simp
      · rintro ⟨h, hp⟩
        cases p with
        | nil => cases h; rfl
        | cons d p => cases h; simp at hp
    · rw [if_neg hc]
      constructor
      · intro h
        obtain ⟨h1, h2⟩ := Prod.mk.inj h
        obtain ⟨e1, e2⟩ := ih.1 (Prod.ext rfl h2)
        rw [← h1]
        exact ⟨congrArg (c :: ·) e1, by simp [e2, Ne.symm hc]⟩
      · rintro ⟨h, hp⟩
        cases p with
        | nil => cases h; exact absurd rfl hc
        | cons d p =>
          cases h
          have := ih.2 ⟨rfl, fun hm => hp (List.mem_cons_of_mem _ hm)⟩
          rw [this]

theorem splitn2_unprefixed {v : Str} : ':' ∉ v → splitn2 v = (v, none) := by
  induction v with
  | nil => intro _; rfl
  | cons c cs ih =>
    intro h
    simp only [List.mem_cons, not_or] at h
    unfold splitn2
    rw [if_neg (Ne.symm h.1), ih h.2]

theorem splitn2_colon {v : Str} (h : ':' ∈ v) (u : Str) : splitn2 v ≠ (u, none) := by
  induction v generalizing u with
  | nil => cases h
  | cons c cs ih =>
    unfold splitn2
    by_cases hc : c = ':'
    · rw [if_pos hc]; nofun
    · rw [if_neg hc]
      intro hh
      obtain ⟨_, h2⟩ := Prod.mk.inj hh
      have hm : ':' ∈ cs := by
        rcases List.mem_cons.1 h with rfl | h
        · exact absurd rfl hc
        · exact h
      exact ih hm _ (Prod.ext rfl h2)

/-- C33 for references with a prefix that is declared for the XSD namespace: the built-in type, or `UnsupportedType`. -/
theorem C33_builtin (a : XAttr) (s : PCtx) (p n : Str) (hv : Prefixed a.value p n) (hp : alookup s.docNss p = some nsXsd) :
    (∀ t, (n, t) ∈ builtin → getTypeName a s = .ok (.literal t, s)) ∧
    ((∀ t, (n, t) ∉ builtin) → getTypeName a s = .err (.unsupportedType n a.start)) := by
  unfold getTypeName
  rw [splitn2_prefixed.2 hv]
  dsimp only
  rw [hp]
  dsimp only
  rw [if_pos rfl]
  unfold literalOr
  constructor
  · intro t ht
    rw [(literalFromStr_builtin n t).2 ht]
    rfl
  · intro hn
    cases hl : literalFromStr n with
    | some t => exact absurd ((literalFromStr_builtin n t).1 hl) (hn t)
    | none => rfl

/-- C33: `MissingNamespace` for a prefix that is not declared. -/
theorem C33_undeclared (a : XAttr) (s : PCtx) (p n : Str) (hv : Prefixed a.value p n) (hp : alookup s.docNss p = none) :
    getTypeName a s = .err (.missingNamespace p a.start) := by
  unfold getTypeName
  rw [splitn2_prefixed.2 hv]
  dsimp only
  rw [hp]

/-- C33 for references with a prefix that is declared for another namespace: the name with that local part and the
identifier of that namespace. The identifier is the one in the table afterwards, which keeps what it had. -/
theorem C33_named (a : XAttr) (s : PCtx) (p n uri : Str) (hv : Prefixed a.value p n)
    (hp : alookup s.docNss p = some uri) (hu : uri ≠ nsXsd) :
    ∃ id nss, getTypeName a s = .ok (.named ⟨n, .id id⟩, { s with nss := nss }) ∧ alookup nss.byUri uri = some id ∧
      ∀ u i, alookup s.nss.byUri u = some i → alookup nss.byUri u = some i := by
  unfold getTypeName
  rw [splitn2_prefixed.2 hv]
  dsimp only
  rw [hp]
  dsimp only
  rw [if_neg hu]
  unfold Namespaces.getOrInsert
  cases h : alookup s.nss.byUri uri with
  | some id => exact ⟨id, s.nss, rfl, h, fun _ _ h => h⟩
  | none =>
    refine ⟨_, _, rfl, ?_, ?_⟩
    · rw [alookup_ainsert, if_pos rfl]
    · intro u i hi
      rw [alookup_ainsert]
      split
      · next he => subst he; rw [h] at hi; cases hi
      · exact hi

/-- C33 for references without a prefix, when the default namespace is the XSD namespace. -/
theorem C33_default_builtin (a : XAttr) (s : PCtx) (hv : ':' ∉ a.value) (hd : s.defaultNs = some nsXsd) :
    (∀ t, (a.value, t) ∈ builtin → getTypeName a s = .ok (.literal t, s)) ∧
    ((∀ t, (a.value, t) ∉ builtin) → getTypeName a s = .err (.unsupportedType a.value a.start)) := by
  unfold getTypeName
  rw [splitn2_unprefixed hv]
  dsimp only
  rw [if_pos hd]
  unfold literalOr
  constructor
  · intro t ht
    rw [(literalFromStr_builtin _ t).2 ht]
    rfl
  · intro hn
    cases hl : literalFromStr a.value with
    | some t => exact absurd ((literalFromStr_builtin _ t).1 hl) (hn t)
    | none => rfl

/-- C33 for references without a prefix, when there is no default namespace: the name in no namespace. (`C33_false` shows
what happens with a default namespace other than XSD.) -/
theorem C33_unqualified (a : XAttr) (s : PCtx) (hv : ':' ∉ a.value) (hd : s.defaultNs = none) :
    getTypeName a s = .ok (.named ⟨a.value, .none⟩, s) := by
  unfold getTypeName
  rw [splitn2_unprefixed hv]
  dsimp only
  rw [if_neg (by rw [hd]; nofun)]

/-- Specification of the namespace a reference is meant in: the namespace of its prefix, or the default namespace. -/
def Denotes (defaultNs : Option Str) (decls : List (Str × Str)) (v n : Str) (uri : Option Str) : Prop :=
  (∃ p u, Prefixed v p n ∧ (p, u) ∈ decls ∧ uri = some u) ∨ (':' ∉ v ∧ v = n ∧ uri = defaultNs)

/-- The namespace an identifier of the table stands for. -/
def Stands (t : Namespaces) (n : Namespace) (uri : Option Str) : Prop :=
  match n, uri with
  | .none, none => True
  | .id i, some u => alookup t.byUri u = some i
  | _, _ => False

theorem firstColon {v : Str} (h : ':' ∈ v) : ∃ l r, v = l ++ ':' :: r ∧ ':' ∉ l := by
  induction v with
  | nil => cases h
  | cons c cs ih =>
    by_cases hc : c = ':'
    · subst hc; exact ⟨[], cs, rfl, by simp⟩
    · rcases List.mem_cons.1 h with h | h
      · exact absurd h.symm hc
      · obtain ⟨l, r, rfl, hl⟩ := ih h
        exact ⟨c :: l, r, rfl, by simp [hl, Ne.symm hc]⟩

/-- C33, both directions together: if every reference without a prefix has no or the XSD default namespace, then a
reference resolves to a built-in type iff it denotes a supported name of the XSD namespace, and to a name otherwise with the
namespace it denotes; and it is an error iff the prefix is not declared or the name of the XSD namespace is not
supported. Missing: a default namespace other than XSD. -/
theorem C33_partial (a : XAttr) (s : PCtx) (hdecls : (s.docNss.map Prod.fst).Nodup)
    (hd : ':' ∉ a.value → s.defaultNs = none ∨ s.defaultNs = some nsXsd) :
    (∀ t, (∃ s', getTypeName a s = .ok (.literal t, s')) ↔
      ∃ n, Denotes s.defaultNs s.docNss a.value n (some nsXsd) ∧ (n, t) ∈ builtin) ∧
    (∀ m s', getTypeName a s = .ok (.named m, s') →
      ∃ uri, Denotes s.defaultNs s.docNss a.value m.name uri ∧ uri ≠ some nsXsd ∧ Stands s'.nss m.ns uri) ∧
    (∀ p, (∃ i, getTypeName a s = .err (.missingNamespace p i)) ↔ ∃ n, Prefixed a.value p n ∧ ∀ u, (p, u) ∉ s.docNss) ∧
    (∀ n, (∃ i, getTypeName a s = .err (.unsupportedType n i)) ↔
      Denotes s.defaultNs s.docNss a.value n (some nsXsd) ∧ ∀ t, (n, t) ∉ builtin) := by
  have lk : ∀ {p u}, (p, u) ∈ s.docNss → alookup s.docNss p = some u := fun h => alookup_of_mem hdecls h
  have uniq : ∀ {p n p' n'}, Prefixed a.value p n → Prefixed a.value p' n' → p = p' ∧ n = n' := by
    intro p n p' n' h h'
    have := (splitn2_prefixed.2 h).symm.trans (splitn2_prefixed.2 h')
    cases this
    exact ⟨rfl, rfl⟩
  have col : ∀ {p n}, Prefixed a.value p n → ':' ∈ a.value := fun h => by rw [h.1]; simp
  rcases hsp : splitn2 a.value with ⟨p, o⟩
  cases o with
  | some n =>
    have hv := splitn2_prefixed.1 hsp
    cases hp : alookup s.docNss p with
    | none =>
      have hnot : ∀ u, (p, u) ∉ s.docNss := fun u hm => by rw [lk hm] at hp; cases hp
      have hnd : ∀ n' uri, ¬ Denotes s.defaultNs s.docNss a.value n' uri := by
        intro n' uri hden
        rcases hden with ⟨p', u, h1, h2, _⟩ | ⟨h1, _⟩
        · obtain ⟨rfl, rfl⟩ := uniq hv h1
          exact hnot u h2
        · exact h1 (col hv)
      have e := C33_undeclared a s p n hv hp
      rw [e]
      refine ⟨fun t => ⟨nofun, ?_⟩, nofun, fun q => ⟨?_, ?_⟩, fun m => ⟨nofun, ?_⟩⟩
      · rintro ⟨m, h, _⟩; exact (hnd _ _ h).elim
      · rintro ⟨i, h⟩; cases h; exact ⟨n, hv, hnot⟩
      · rintro ⟨m, h1, _⟩; obtain ⟨rfl, rfl⟩ := uniq hv h1; exact ⟨_, rfl⟩
      · rintro ⟨h, _⟩; exact (hnd _ _ h).elim
    | some uri =>
      have hmem := alookup_mem hp
      have hden : ∀ n' u', Denotes s.defaultNs s.docNss a.value n' u' ↔ n' = n ∧ u' = some uri := by
        intro n' u'
        constructor
        · rintro (⟨p', u, h1, h2, h3⟩ | ⟨h1, _⟩)
          · obtain ⟨rfl, rfl⟩ := uniq hv h1
            have := lk h2
            rw [hp] at this
            cases this
            exact ⟨rfl, h3⟩
          · exact (h1 (col hv)).elim
        · rintro ⟨rfl, rfl⟩
          exact .inl ⟨p, uri, hv, hmem, rfl⟩
      have hmiss : ∀ q, ¬ ∃ m, Prefixed a.value q m ∧ ∀ u, (q, u) ∉ s.docNss := by
        rintro q ⟨m, h1, h2⟩
        obtain ⟨rfl, rfl⟩ := uniq hv h1
        exact h2 uri hmem
      by_cases hu : uri = nsXsd
      · subst hu
        obtain ⟨c1, c2⟩ := C33_builtin a s p n hv hp
        by_cases hb : ∃ t, (n, t) ∈ builtin
        · obtain ⟨t, ht⟩ := hb
          rw [c1 t ht]
          refine ⟨fun t' => ⟨?_, ?_⟩, ?_, fun q => ⟨nofun, fun h => (hmiss q h).elim⟩, fun m => ⟨nofun, ?_⟩⟩
          · rintro ⟨s', h⟩; cases h; exact ⟨n, (hden _ _).2 ⟨rfl, rfl⟩, ht⟩
          · rintro ⟨m, h1, h2⟩
            obtain ⟨rfl, _⟩ := (hden _ _).1 h1
            have e1 := (literalFromStr_builtin _ _).2 ht
            rw [(literalFromStr_builtin _ _).2 h2] at e1
            cases e1
            exact ⟨_, rfl⟩
          · rintro m s' h; cases h
          · rintro ⟨h1, h2⟩
            obtain ⟨rfl, _⟩ := (hden _ _).1 h1
            exact (h2 t ht).elim
        · have hb' : ∀ t, (n, t) ∉ builtin := fun t h => hb ⟨t, h⟩
          rw [c2 hb']
          refine ⟨fun t' => ⟨nofun, ?_⟩, nofun, fun q => ⟨nofun, fun h => (hmiss q h).elim⟩, fun m => ⟨?_, ?_⟩⟩
          · rintro ⟨m, h1, h2⟩
            obtain ⟨rfl, _⟩ := (hden _ _).1 h1
            exact (hb' _ h2).elim
          · rintro ⟨i, h⟩; cases h; exact ⟨(hden _ _).2 ⟨rfl, rfl⟩, hb'⟩
          · rintro ⟨h1, _⟩
            obtain ⟨rfl, _⟩ := (hden _ _).1 h1
            exact ⟨_, rfl⟩
      · obtain ⟨id, nss, e, hid, _⟩ := C33_named a s p n uri hv hp hu
        rw [e]
        refine ⟨fun t' => ⟨nofun, ?_⟩, ?_, fun q => ⟨nofun, fun h => (hmiss q h).elim⟩, fun m => ⟨nofun, ?_⟩⟩
        · rintro ⟨m, h1, _⟩
          obtain ⟨_, h2⟩ := (hden _ _).1 h1
          exact (hu (Option.some.inj h2).symm).elim
        · rintro m s' h
          cases h
          exact ⟨some uri, (hden _ _).2 ⟨rfl, rfl⟩, fun h => hu (Option.some.inj h), hid⟩
        · rintro ⟨h1, _⟩
          obtain ⟨_, h2⟩ := (hden _ _).1 h1
          exact (hu (Option.some.inj h2).symm).elim
  | none =>
    have hnc : ':' ∉ a.value := by
      intro hm
      obtain ⟨l, r, e, hl⟩ := firstColon hm
      rw [splitn2_prefixed.2 ⟨e, hl⟩] at hsp
      cases hsp
    have hden : ∀ n' u', Denotes s.defaultNs s.docNss a.value n' u' ↔ n' = a.value ∧ u' = s.defaultNs := by
      intro n' u'
      constructor
      · rintro (⟨p', u, h1, _⟩ | ⟨_, h2, h3⟩)
        · exact (hnc (col h1)).elim
        · exact ⟨h2.symm, h3⟩
      · rintro ⟨rfl, rfl⟩
        exact .inr ⟨hnc, rfl, rfl⟩
    have hmiss : ∀ q, ¬ ∃ m, Prefixed a.value q m ∧ ∀ u, (q, u) ∉ s.docNss := fun q ⟨m, h1, _⟩ => hnc (col h1)
    rcases hd hnc with hd | hd
    · rw [C33_unqualified a s hnc hd]
      refine ⟨fun t' => ⟨nofun, ?_⟩, ?_, fun q => ⟨nofun, fun h => (hmiss q h).elim⟩, fun m => ⟨nofun, ?_⟩⟩
      · rintro ⟨m, h1, _⟩
        obtain ⟨_, h2⟩ := (hden _ _).1 h1
        rw [hd] at h2; cases h2
      · rintro m s' h
        cases h
        exact ⟨none, (hden _ _).2 ⟨rfl, hd.symm⟩, nofun, trivial⟩
      · rintro ⟨h1, _⟩
        obtain ⟨_, h2⟩ := (hden _ _).1 h1
        rw [hd] at h2; cases h2
    · obtain ⟨c1, c2⟩ := C33_default_builtin a s hnc hd
      by_cases hb : ∃ t, (a.value, t) ∈ builtin
      · obtain ⟨t, ht⟩ := hb
        rw [c1 t ht]
        refine ⟨fun t' => ⟨?_, ?_⟩, ?_, fun q => ⟨nofun, fun h => (hmiss q h).elim⟩, fun m => ⟨nofun, ?_⟩⟩
        · rintro ⟨s', h⟩; cases h; exact ⟨a.value, (hden _ _).2 ⟨rfl, hd.symm⟩, ht⟩
        · rintro ⟨m, h1, h2⟩
          obtain ⟨rfl, _⟩ := (hden _ _).1 h1
          have e1 := (literalFromStr_builtin _ _).2 ht
          rw [(literalFromStr_builtin _ _).2 h2] at e1
          cases e1
          exact ⟨_, rfl⟩
        · rintro m s' h; cases h
        · rintro ⟨h1, h2⟩
          obtain ⟨rfl, _⟩ := (hden _ _).1 h1
          exact (h2 t ht).elim
      · have hb' : ∀ t, (a.value, t) ∉ builtin := fun t h => hb ⟨t, h⟩
        rw [c2 hb']
        refine ⟨fun t' => ⟨nofun, ?_⟩, nofun, fun q => ⟨nofun, fun h => (hmiss q h).elim⟩, fun m => ⟨?_, ?_⟩⟩
        · rintro ⟨m, h1, h2⟩
          obtain ⟨rfl, _⟩ := (hden _ _).1 h1
          exact (hb' _ h2).elim
        · rintro ⟨i, h⟩; cases h; exact ⟨(hden _ _).2 ⟨rfl, hd.symm⟩, hb'⟩
        · rintro ⟨h1, _⟩
          obtain ⟨rfl, _⟩ := (hden _ _).1 h1
          exact ⟨_, rfl⟩

/-- The declarations that references are resolved with are those in scope at the `schema` element. -/
theorem C33_declared (schema : ElemInfo) (target : Option Str) (nss : Namespaces) (deps : List (Name × List Name))
    (h : (schema.nss.map Prod.fst).Nodup) :
    ((PCtx.new schema target nss deps).docNss.map Prod.fst).Nodup ∧
    (∀ p u, (p, u) ∈ (PCtx.new schema target nss deps).docNss ↔ (some p, u) ∈ schema.nss) ∧
    (∀ u, (PCtx.new schema target nss deps).defaultNs = some u ↔ (none, u) ∈ schema.nss) := by
  have key : ∀ (l : List (Option Str × Str)) (m : List (Str × Str)), (l.map Prod.fst).Nodup → (m.map Prod.fst).Nodup →
      (∀ p u v, (some p, u) ∈ l → (p, v) ∉ m) →
      let r := l.foldl (fun m p => match p.1 with | some pfx => ainsert m pfx p.2 | none => m) m
      (r.map Prod.fst).Nodup ∧ ∀ p u, (p, u) ∈ r ↔ (p, u) ∈ m ∨ (some p, u) ∈ l := by
    intro l
    induction l with
    | nil => intro m _ hm _; exact ⟨hm, by simp⟩
    | cons q l ih =>
      obtain ⟨k, v⟩ := q
      intro m hl hm hd
      simp only [List.map_cons, List.nodup_cons] at hl
      cases k with
      | none =>
        obtain ⟨i1, i2⟩ := ih m hl.2 hm (fun p u v h => hd p u v (List.mem_cons_of_mem _ h))
        exact ⟨i1, fun p u => by rw [List.foldl_cons]; exact (i2 p u).trans (by simp)⟩
      | some k =>
        have hm' := nodup_keys_ainsert hm k v
        have hmem : ∀ p u, (p, u) ∈ ainsert m k v ↔ (p, u) ∈ m ∨ (p = k ∧ u = v) := by
          intro p u
          have hno : ∀ w, (k, w) ∉ m := fun w => hd k v w List.mem_cons_self
          constructor
          · intro h
            have := alookup_of_mem hm' h
            rw [alookup_ainsert] at this
            split at this
            · next e => cases this; exact .inr ⟨e.symm, rfl⟩
            · exact .inl (alookup_mem this)
          · rintro (h | ⟨rfl, rfl⟩)
            · refine alookup_mem ?_
              rw [alookup_ainsert, if_neg (fun (e : k = p) => hno u (by rw [e]; exact h))]
              exact alookup_of_mem hm h
            · refine alookup_mem ?_
              rw [alookup_ainsert, if_pos rfl]
        obtain ⟨i1, i2⟩ := ih (ainsert m k v) hl.2 hm' (by
          intro p u w h hin
          rcases (hmem p w).1 hin with h' | ⟨rfl, rfl⟩
          · exact hd p u w (List.mem_cons_of_mem _ h) h'
          · exact hl.1 (List.mem_map_of_mem (f := Prod.fst) h))
        refine ⟨i1, fun p u => ?_⟩
        rw [List.foldl_cons]
        refine (i2 p u).trans ?_
        rw [hmem, List.mem_cons]
        constructor
        · rintro ((h | ⟨rfl, rfl⟩) | h)
          · exact .inl h
          · exact .inr (.inl rfl)
          · exact .inr (.inr h)
        · rintro (h | h | h)
          · exact .inl (.inl h)
          · cases h; exact .inl (.inr ⟨rfl, rfl⟩)
          · exact .inr h
  obtain ⟨k1, k2⟩ := key schema.nss [] h (by simp) (by simp)
  refine ⟨k1, fun p u => (k2 p u).trans (by simp), fun u => ?_⟩
  show ((schema.nss.find? (fun p => p.1 = none)).map Prod.snd) = some u ↔ _
  constructor
  · intro hh
    cases hf : schema.nss.find? (fun p => p.1 = none) with
    | none => rw [hf] at hh; cases hh
    | some q =>
      rw [hf] at hh
      cases hh
      have h1 := List.mem_of_find?_eq_some hf
      have h2 := List.find?_some hf
      have h3 : q.1 = none := by simpa using h2
      rw [← h3]
      exact h1
  · intro hm
    cases hf : schema.nss.find? (fun p => p.1 = none) with
    | none =>
      have := List.find?_eq_none.1 hf _ hm
      simp at this
    | some q =>
      have h1 := List.mem_of_find?_eq_some hf
      have h2 := List.find?_some hf
      have h3 : q.1 = none := by simpa using h2
      have e1 := alookup_of_mem h hm
      have e2 := alookup_of_mem h (show (none, q.2) ∈ schema.nss by rw [← h3]; exact h1)
      rw [e1] at e2
      rw [Option.map_some, ← Option.some.inj e2]

namespace TypeRef

/-- A context: prefix `xs` for XSD, `t` for `urn:t`, default namespace `urn:t`. -/
def ctx (d : Option Str) : PCtx :=
  { roots := [], defaultNs := d, target := .id 1, docNss := [(c!"xs", nsXsd), (c!"t", c!"urn:t")], isQualified := true,
    nss := ⟨[(c!"urn:t", 1)], [(1, ⟨c!"urn:t", c!"ns1"⟩)]⟩, deps := [] }

/-- A reference. -/
def at_ (v : Str) : XAttr := ⟨c!"type", none, v, 5⟩

example : ∃ m s', getTypeName (at_ c!"t:Person") (ctx none) = .ok (.named m, s') ∧
    Denotes none (ctx none).docNss c!"t:Person" m.name (some c!"urn:t") ∧ Stands s'.nss m.ns (some c!"urn:t") :=
  ⟨⟨c!"Person", .id 1⟩, ctx none, by decide +kernel, .inl ⟨c!"t", c!"urn:t", ⟨rfl, by decide⟩, by decide, rfl⟩, rfl⟩

example : (∃ s', getTypeName (at_ c!"xs:int") (ctx none) = .ok (.literal .int32, s')) :=
  ((C33_partial (at_ c!"xs:int") (ctx none) (by decide) (fun _ => .inl rfl)).1 .int32).2
    ⟨c!"int", .inl ⟨c!"xs", nsXsd, ⟨rfl, by decide⟩, by decide, rfl⟩, by decide⟩

/-- C33 without the hypothesis on the default namespace is false: with a default namespace other than XSD, a reference
without a prefix resolves to a name in no namespace, not to a name in the default namespace. (The code returns
`Namespace::None` for every reference without a prefix that is not an XSD type.) -/
theorem C33_false : ¬ ∀ (a : XAttr) (s : PCtx), (s.docNss.map Prod.fst).Nodup → ∀ m s', getTypeName a s = .ok (.named m, s') →
    ∃ uri, Denotes s.defaultNs s.docNss a.value m.name uri ∧ uri ≠ some nsXsd ∧ Stands s'.nss m.ns uri := by
  intro h
  obtain ⟨uri, h1, _, h3⟩ := h (at_ c!"Person") (ctx (some c!"urn:t")) (by decide) ⟨c!"Person", .none⟩ (ctx (some c!"urn:t"))
    (by decide +kernel)
  rcases h1 with ⟨p, u, h1, _⟩ | ⟨_, _, rfl⟩
  · have := h1.1
    have hc : ':' ∈ c!"Person" := by
      have e : c!"Person" = p ++ ':' :: c!"Person" := this
      rw [e]; simp
    revert hc
    decide
  · exact h3

end TypeRef

/-! ## C53: simple types -/

/-- Specification of one child of a restriction: an enumeration value or a facet with its value. -/
inductive FacetOf (x : Ext) : Nd → Str ⊕ Restriction → Prop where
  | enumeration (nd a) (hn : nd.name = c!"enumeration") (ha : nd.attr c!"value" = some a) : FacetOf x nd (.inl a.value)
  | length (nd a n) (hn : nd.name = c!"length") (ha : nd.attr c!"value" = some a)
      (h : Unsigned 18446744073709551615 a.value n) : FacetOf x nd (.inr (.length n))
  | minLength (nd a n) (hn : nd.name = c!"minLength") (ha : nd.attr c!"value" = some a)
      (h : Unsigned 18446744073709551615 a.value n) : FacetOf x nd (.inr (.minLength n))
  | maxLength (nd a n) (hn : nd.name = c!"maxLength") (ha : nd.attr c!"value" = some a)
      (h : Unsigned 18446744073709551615 a.value n) : FacetOf x nd (.inr (.maxLength n))
  | pattern (nd a) (hn : nd.name = c!"pattern") (ha : nd.attr c!"value" = some a) : FacetOf x nd (.inr (.pattern a.value))
  | minInclusive (nd a n) (hn : nd.name = c!"minInclusive") (ha : nd.attr c!"value" = some a)
      (h : x.parseDecimal a.value = some n) : FacetOf x nd (.inr (.minInclusive n))
  | maxInclusive (nd a n) (hn : nd.name = c!"maxInclusive") (ha : nd.attr c!"value" = some a)
      (h : x.parseDecimal a.value = some n) : FacetOf x nd (.inr (.maxInclusive n))
  | fractionDigits (nd a n) (hn : nd.name = c!"fractionDigits") (ha : nd.attr c!"value" = some a)
      (h : Unsigned 18446744073709551615 a.value n) : FacetOf x nd (.inr (.fractionDigits n))
  | totalDigits (nd a n) (hn : nd.name = c!"totalDigits") (ha : nd.attr c!"value" = some a)
      (h : Unsigned 18446744073709551615 a.value n) : FacetOf x nd (.inr (.totalDigits n))

theorem parseDec_ok {x : Ext} {a : XAttr} {n : Nat} : parseDec x a = .ok n ↔ x.parseDecimal a.value = some n := by
  unfold parseDec
  cases x.parseDecimal a.value <;> simp

theorem parseFacet_of {x : Ext} {c : Nd} {f : Str ⊕ Restriction} (h : parseFacet x c = .ok f) : FacetOf x c f := by
  unfold parseFacet at h
  split at h
  · next hn =>
    rw [Res.bind_eq_ok] at h
    obtain ⟨a, ha, h⟩ := h
    rw [tryAttr_ok] at ha
    cases h
    exact .enumeration c a hn ha
  split at h
  · next hn =>
    rw [Res.bind_eq_ok] at h
    obtain ⟨a, ha, h⟩ := h
    rw [tryAttr_ok] at ha
    rw [Res.bind_eq_ok] at h
    obtain ⟨n, hv, h⟩ := h
    cases h
    exact .length c a n hn ha (parseUsize_ok.1 hv)
  split at h
  · next hn =>
    rw [Res.bind_eq_ok] at h
    obtain ⟨a, ha, h⟩ := h
    rw [tryAttr_ok] at ha
    rw [Res.bind_eq_ok] at h
    obtain ⟨n, hv, h⟩ := h
    cases h
    exact .minLength c a n hn ha (parseUsize_ok.1 hv)
  split at h
  · next hn =>
    rw [Res.bind_eq_ok] at h
    obtain ⟨a, ha, h⟩ := h
    rw [tryAttr_ok] at ha
    rw [Res.bind_eq_ok] at h
    obtain ⟨n, hv, h⟩ := h
    cases h
    exact .maxLength c a n hn ha (parseUsize_ok.1 hv)
  split at h
  · next hn =>
    rw [Res.bind_eq_ok] at h
    obtain ⟨a, ha, h⟩ := h
    rw [tryAttr_ok] at ha
    cases h
    exact .pattern c a hn ha
  split at h
  · next hn =>
    rw [Res.bind_eq_ok] at h
    obtain ⟨a, ha, h⟩ := h
    rw [tryAttr_ok] at ha
    rw [Res.bind_eq_ok] at h
    obtain ⟨n, hv, h⟩ := h
    cases h
    exact .minInclusive c a n hn ha (parseDec_ok.1 hv)
  split at h
  · next hn =>
    rw [Res.bind_eq_ok] at h
    obtain ⟨a, ha, h⟩ := h
    rw [tryAttr_ok] at ha
    rw [Res.bind_eq_ok] at h
    obtain ⟨n, hv, h⟩ := h
    cases h
    exact .maxInclusive c a n hn ha (parseDec_ok.1 hv)
  split at h
  · next hn =>
    rw [Res.bind_eq_ok] at h
    obtain ⟨a, ha, h⟩ := h
    rw [tryAttr_ok] at ha
    rw [Res.bind_eq_ok] at h
    obtain ⟨n, hv, h⟩ := h
    cases h
    exact .fractionDigits c a n hn ha (parseUsize_ok.1 hv)
  split at h
  · next hn =>
    rw [Res.bind_eq_ok] at h
    obtain ⟨a, ha, h⟩ := h
    rw [tryAttr_ok] at ha
    rw [Res.bind_eq_ok] at h
    obtain ⟨n, hv, h⟩ := h
    cases h
    exact .totalDigits c a n hn ha (parseUsize_ok.1 hv)
  · cases h

/-- Two lists related element by element, in order. -/
inductive Each {α β : Type} (R : α → β → Prop) : List α → List β → Prop where
  | nil : Each R [] []
  | cons {a b as bs} (h : R a b) (hs : Each R as bs) : Each R (a :: as) (b :: bs)

/-- The enumeration values among the facets, in order. -/
def enumsOf (fs : List (Str ⊕ Restriction)) : List Str := fs.filterMap Sum.getLeft?

/-- The other facets, in order. -/
def facetsOf (fs : List (Str ⊕ Restriction)) : List Restriction := fs.filterMap Sum.getRight?

theorem parseFacets_each {x : Ext} {cs : List Nd} {r : List Str × List Restriction} (h : parseFacets x cs = .ok r) :
    ∃ fs, Each (FacetOf x) cs fs ∧ r = (enumsOf fs, facetsOf fs) := by
  induction cs generalizing r with
  | nil => cases h; exact ⟨[], .nil, rfl⟩
  | cons c cs ih =>
    unfold parseFacets at h
    rw [Res.bind_eq_ok] at h
    obtain ⟨f, hf, h⟩ := h
    rw [Res.bind_eq_ok] at h
    obtain ⟨r', hr, h⟩ := h
    obtain ⟨fs, hfs, rfl⟩ := ih hr
    refine ⟨f :: fs, .cons (parseFacet_of hf) hfs, ?_⟩
    cases f <;> (cases h; rfl)

/-- Specification: the type reference means the built-in type. -/
def BuiltinRef (s : PCtx) (v : Str) (t : LiteralType) : Prop :=
  (∃ p n, Prefixed v p n ∧ (p, nsXsd) ∈ s.docNss ∧ (n, t) ∈ builtin) ∨
  (':' ∉ v ∧ s.defaultNs = some nsXsd ∧ (v, t) ∈ builtin)

theorem getTypeName_builtinRef {a : XAttr} {s s' : PCtx} {t : LiteralType} (h : getTypeName a s = .ok (.literal t, s')) :
    BuiltinRef s a.value t ∧ s' = s := by
  have hl : ∀ {n}, P.lift (literalOr n a) s = .ok (.literal t, s') → (n, t) ∈ builtin ∧ s' = s := by
    intro n hh
    rw [P.lift_ok] at hh
    obtain ⟨hh, rfl⟩ := hh
    unfold literalOr at hh
    split at hh
    · next t' ht => cases hh; exact ⟨(literalFromStr_builtin _ _).1 ht, rfl⟩
    · cases hh
  unfold getTypeName at h
  split at h
  · next p n hs =>
    split at h
    · cases h
    · next uri hu =>
      split at h
      · next hx => exact ⟨.inl ⟨p, n, splitn2_prefixed.1 hs, hx ▸ alookup_mem hu, (hl h).1⟩, (hl h).2⟩
      · cases h
  · next n hs =>
    split at h
    · next hd =>
      have hnc : ':' ∉ a.value := by
        intro hc
        exact splitn2_colon hc _ hs
      have hv : n = a.value := by
        rw [splitn2_unprefixed hnc] at hs
        cases hs; rfl
      subst hv
      exact ⟨.inr ⟨hnc, hd, (hl h).1⟩, (hl h).2⟩
    · cases h

/-- C53: every simple type that is accepted is a restriction of a built-in type; each child of the restriction is an
enumeration value or a facet; with enumeration values it is the enumeration of exactly these in order, and without it is
the base type with exactly the facets in order. -/
theorem C53 (x : Ext) (nd : Nd) (s s' : PCtx) (r : Root) (h : parseSimpleType x nd s = .ok (r, s')) :
    ∃ restriction base t fs, restriction ∈ nd.xsdKids ∧ restriction.name = c!"restriction" ∧
      restriction.attr c!"base" = some base ∧ BuiltinRef s base.value t ∧ s' = s ∧
      Each (FacetOf x) restriction.xsdKids fs ∧
      (enumsOf fs ≠ [] → r = .enum ((enumsOf fs).map (fun v => ⟨v, .none⟩))) ∧
      (enumsOf fs = [] → ∃ docs, r = .leaf ⟨.literal t, facetsOf fs, docs⟩) := by
  cases parseSimpleType_run x h with
  | mk docs restriction rest attr t s' fs hp hd hr ha ht hc hf =>
    obtain ⟨fs', hfs, rfl⟩ := parseFacets_each hf
    obtain ⟨u, v, e1, _, e3, _⟩ := removeKid_some hr
    have hmem : restriction ∈ (removeKid c!"annotation" nd.xsdKids).2 := by rw [e1]; simp
    have hmem2 : restriction ∈ nd.xsdKids := by
      cases hk : removeKid c!"annotation" nd.xsdKids with
      | mk o rest' =>
        rw [hk] at hmem
        cases o with
        | none => rw [(removeKid_none hk).1] at hmem; exact hmem
        | some k =>
          obtain ⟨a, b, f1, f2, _⟩ := removeKid_some hk
          rw [f2] at hmem
          rw [f1]
          simp only [List.mem_append, List.mem_cons] at hmem ⊢
          rcases hmem with h | h
          · exact .inl h
          · exact .inr (.inr h)
    refine ⟨restriction, attr, t, fs', hmem2, ?_, ha, (getTypeName_builtinRef ht).1, (getTypeName_builtinRef ht).2, hfs, ?_, ?_⟩
    · show restriction.info.name.loc = _
      rw [e3]
    · intro hne
      exact if_neg hne
    · intro he
      exact ⟨docs, if_pos he⟩

/-- C53: a base that is not a built-in type is rejected. -/
theorem C53_base (x : Ext) (nd : Nd) (s s' : PCtx) (r : Root)
    (hb : ∀ c ∈ nd.xsdKids, c.name = c!"restriction" → ∀ base, c.attr c!"base" = some base → ∀ t, ¬ BuiltinRef s base.value t) :
    parseSimpleType x nd s ≠ .ok (r, s') := by
  intro h
  obtain ⟨c, base, t, _, h1, h2, h3, h4, _⟩ := C53 x nd s s' r h
  exact hb c h1 h2 base h3 t h4

/-! ## C38: the use of attributes -/

theorem typeAttr_attr {nd nd' : Nd} {a : XAttr} {parent : Name} {s s' : PCtx} {c : LeafContent}
    (h : TypeAttrRun nd a parent s c nd' s') (n : Str) : nd'.attr n = nd.attr n := by
  cases h <;> rfl

theorem attrContent_attr {x : Ext} {nd nd' : Nd} {name parent : Name} {s s' : PCtx} {child : Option Nd} {c : LeafContent}
    (h : AttrContentRun x nd name parent s child c nd' s') (n : Str) : nd'.attr n = nd.attr n := by
  cases h with
  | plain => rfl
  | inline => rfl
  | typed a c nd' s' ha h => rw [typeAttr_attr h]; rfl

/-- C38: an accepted attribute declaration has use required, optional, prohibited or none; a prohibited one
disappears; the others keep their name and default, are mandatory iff required, and a required one has no default. -/
theorem C38 (x : Ext) (nd : Nd) (parent : Name) (s s' : PCtx) (r : Option Attribute)
    (h : parseAttribute x nd parent s = .ok (r, s')) :
    (r = none ↔ nd.value c!"use" = some c!"prohibited") ∧
    (nd.value c!"use" = some c!"prohibited" ∨ nd.value c!"use" = some c!"required" ∨ nd.value c!"use" = some c!"optional" ∨
      nd.value c!"use" = none) ∧
    ∀ a, r = some a → some a.name.name = nd.value c!"name" ∧ a.name.ns = .none ∧ a.default = nd.value c!"default" ∧
      (a.isOptional = false ↔ nd.value c!"use" = some c!"required") ∧
      (nd.value c!"use" = some c!"required" → nd.value c!"default" = none) := by
  cases parseAttribute_run x h with
  | prohibited nameAttr docs content nd' s' hn hd hc hk hu =>
    have e : nd.value c!"use" = some c!"prohibited" := by
      rw [attrContent_attr hc] at hu; exact hu
    exact ⟨⟨fun _ => e, fun _ => rfl⟩, .inl e, fun a ha => by cases ha⟩
  | some nameAttr docs content nd' s' hn hd hc hk hu hx hp =>
    have eu : (nd'.attr c!"use").map XAttr.value = nd.value c!"use" := by rw [attrContent_attr hc]; rfl
    have ed : nd'.attr c!"default" = nd.attr c!"default" := by rw [attrContent_attr hc]; rfl
    rw [eu] at hu hx
    rw [ed] at hx
    refine ⟨⟨nofun, fun hpro => ?_⟩, ?_, ?_⟩
    · rw [hpro] at hu
      exact absurd hu (by decide)
    · rcases hu with h | h | h
      · exact .inr (.inl h)
      · exact .inr (.inr (.inl h))
      · exact .inr (.inr (.inr h))
    · rintro a ha
      cases ha
      refine ⟨?_, rfl, ?_, ?_, ?_⟩
      · show some nameAttr.value = _
        unfold Nd.value
        rw [hn]
        rfl
      · show (nd'.attr c!"default").map XAttr.value = _
        rw [ed]
        rfl
      · show decide ((nd'.attr c!"use").map XAttr.value ≠ some c!"required") = false ↔ _
        rw [eu, decide_eq_false_iff_not, Decidable.not_not]
      · intro hreq
        unfold Nd.value
        cases hdef : nd.attr c!"default" with
        | none => rfl
        | some d => exact absurd hreq (hx (by rw [hdef]; rfl))

/-- C38: the attributes of a type are the attribute declarations that are not prohibited, in order. -/
theorem C38_kept (x : Ext) (parent : Name) (cs : List Nd) (s s' : PCtx) (as : List Attribute)
    (h : parseAttributes x parent cs s = .ok (as, s')) :
    Each (fun c a => some a.name.name = c.value c!"name" ∧
        (a.isOptional = false ↔ c.value c!"use" = some c!"required"))
      (cs.filter (fun c => c.value c!"use" ≠ some c!"prohibited")) as := by
  induction cs generalizing s as with
  | nil =>
    unfold parseAttributes at h
    pret h
    exact .nil
  | cons c cs ih =>
    unfold parseAttributes at h
    pbind h with a s1 h1
    pbind h with as' s2 h2
    obtain ⟨c1, c2, c3⟩ := C38 x c parent s s1 a h1
    cases a with
    | none =>
      pret h
      rw [List.filter_cons_of_neg (by simp [c1.1 rfl])]
      exact ih _ _ h2
    | some a =>
      pret h
      have hne : c.value c!"use" ≠ some c!"prohibited" := fun hp => by cases c1.2 hp
      rw [List.filter_cons_of_pos (by simpa using hne)]
      obtain ⟨d1, _, _, d4, _⟩ := c3 a rfl
      exact .cons ⟨d1, d4⟩ (ih _ _ h2)

/-- C38: the field of an attribute is an option iff the attribute is not mandatory. -/
theorem C38_field_type (x : Ext) (S : SchemaContext) (a : Attribute) (f : Str) (t : Ty) (h : attrDecl x S a = .ok (f, t)) :
    (∃ u, t = .option u) ↔ a.isOptional = true := by
  unfold attrDecl at h
  rw [Res.bind_eq_ok] at h
  obtain ⟨f', _, h⟩ := h
  rw [Res.bind_eq_ok] at h
  obtain ⟨u, hu, h⟩ := h
  obtain ⟨h1, h2⟩ := contentTy_plain hu
  have ht := (Prod.mk.inj (Res.ok.inj h)).2
  subst ht
  cases a.isOptional <;> simp [h1]

end Xsd
