import Verif.Props.Text
import Verif.Props.Enums
import Verif.Props.SchemaParts
import Verif.Props.Definitions
import Verif.Props.Derive
import Verif.Props.Defects
import Verif.Props.Namespaces
/-!
# Exactly when properties hold that the code does not always have (C25, C27, C33, C45, C49, C54, C56, C57)

Each of these properties is false in general. The theorems here say for which inputs it is true.
-/
namespace Xsd
variable {x : Ext}

/-- **C25**: `as_str` and `from_str` are inverse to each other exactly if the enumeration values are distinct. -/
theorem C25_inverse_iff (ns : List Name) {tab vs : List (Str × Str)} (ht : escapeEnumNames x ns = .ok tab) (hp : vs.Perm tab) :
    ((∀ v s, asStr vs v = some s → enumFromStr vs s = .ok (.enumv v)) ∧
      ∀ v s, enumFromStr vs s = .ok (.enumv v) → asStr vs v = some s) ↔ (ns.map Name.name).Nodup := by
  constructor
  · rintro ⟨h, h'⟩
    obtain ⟨tab', ht', hs, hk, _⟩ := C25_variants (x := x) ns
    rw [ht] at ht'; cases ht'
    have hk' : (vs.map Prod.fst).Nodup := (hp.map Prod.fst).nodup_iff.2 hk
    have hs' : (vs.map Prod.snd).Perm (ns.map Name.name) := hs ▸ hp.map Prod.snd
    refine hs'.nodup_iff.1 ?_
    have key : ∀ p ∈ vs, ∀ q ∈ vs, p.2 = q.2 → p.1 = q.1 := by
      intro p hp q hq e
      have h1 := h _ _ (alookup_of_mem hk' (show (p.1, p.2) ∈ vs from hp))
      have h2 := h _ _ (alookup_of_mem hk' (show (q.1, q.2) ∈ vs from hq))
      rw [e, h2] at h1
      injection h1 with h1; injection h1 with h1; exact h1.symm
    clear h h' hp hs'
    induction vs with
    | nil => exact List.nodup_nil
    | cons p vs ih =>
      rw [List.map_cons, List.nodup_cons] at hk' ⊢
      refine ⟨fun hm => ?_, ih hk'.2 fun a ha b hb => key a (.tail _ ha) b (.tail _ hb)⟩
      obtain ⟨q, hq, e⟩ := List.mem_map.1 hm
      exact hk'.1 (key p (.head _) q (.tail _ hq) e.symm ▸ List.mem_map.2 ⟨q, hq, rfl⟩)
  · intro hd
    obtain ⟨h1, h2, _⟩ := C25_inverse_partial ns hd ht hp
    refine ⟨h1, fun v s h => ?_⟩
    obtain ⟨i, e, h⟩ := h2 _ _ h
    injection e with e
    exact e ▸ h

example : ¬((awkward ++ awkward).map Name.name).Nodup ∧ (awkward.map Name.name).Nodup := by decide +kernel

/-- **C33**: references to types of the schema resolve to the namespace they denote exactly if they have a prefix or the default namespace
is absent or that of XSD. -/
theorem C33_iff (a : XAttr) (s : PCtx) (hdecls : (s.docNss.map Prod.fst).Nodup) :
    (∀ m s', getTypeName a s = .ok (.named m, s') →
      ∃ uri, Denotes s.defaultNs s.docNss a.value m.name uri ∧ uri ≠ some nsXsd ∧ Stands s'.nss m.ns uri) ↔
    (':' ∉ a.value → s.defaultNs = none ∨ s.defaultNs = some nsXsd) := by
  refine ⟨fun h hv => ?_, fun h => (C33_partial a s hdecls h).2.1⟩
  by_cases hx : s.defaultNs = some nsXsd
  · exact .inr hx
  · left
    have hg : getTypeName a s = .ok (.named ⟨a.value, .none⟩, s) := by
      unfold getTypeName
      rw [splitn2_unprefixed hv]
      dsimp only
      rw [if_neg hx]
    obtain ⟨uri, h1, _, h3⟩ := h _ _ hg
    rcases h1 with ⟨p, u, h1, _⟩ | ⟨_, _, h1⟩
    · have e : a.value = p ++ ':' :: a.value := h1.1
      exact absurd (e ▸ by simp) hv
    · cases uri with
      | none => exact h1.symm
      | some u => exact absurd h3 id

/-- Both sides can hold and fail. -/
example : (':' ∉ (TypeRef.at_ c!"Person").value → (TypeRef.ctx none).defaultNs = none ∨ (TypeRef.ctx none).defaultNs = some nsXsd) ∧
    ¬(':' ∉ (TypeRef.at_ c!"Person").value → (TypeRef.ctx (some c!"urn:t")).defaultNs = none ∨
      (TypeRef.ctx (some c!"urn:t")).defaultNs = some nsXsd) := by decide +kernel

/-- **C45**: every definition and every anonymous type keeps its own type exactly if no two of them with the same name are given different types. -/
theorem C45_iff (x : Ext) (F : Files) (k : Nat) (path : Str) (P : PSchema) (h : parseFile x F k path = .ok P) :
    ∃ log, FileLog x F P.context.namespaces path log ∧ (∀ c, Defines F path c ↔ ∃ b ∈ log, b.node = c) ∧
      ((∀ b ∈ log, P.context.get b.name = some b.root) ↔ ∀ b ∈ log, ∀ b' ∈ log, b.name = b'.name → b.root = b'.root) := by
  obtain ⟨log, hl, hg⟩ := C39 x F k path P h
  refine ⟨log, hl, hl.nodes, fun hk b hb b' hb' e => ?_, fun hu b hb => ?_⟩
  · have h1 := hk b hb
    rw [e, hk b' hb'] at h1
    exact (Option.some.inj h1).symm
  · obtain ⟨b', hb', h1, h2⟩ := lastNamed_of_mem hb
    rw [hg, h2, hu b' hb' b hb h1]

theorem missed_facts : ∀ s ∈ missedKeywords, s ∉ escapedWords ∧ s ∈ rustKeywords ∧ ¬(c!"r#" <+: s) := by decide +kernel
theorem unraw_facts : ∀ s ∈ [c!"crate", c!"self", c!"Self", c!"super"], escapedWords.contains s = true ∧ noRawWords.contains s = true := by decide +kernel

/-- **C49**: the names that become legal identifiers are those that are identifiers, except for the keywords that the code does not know and the four
that have no raw form. -/
theorem C49_iff (s : Str) : (∃ i, escapeIdent x s = .ok i ∧ LegalIdent x i) ↔
    x.identOk s = true ∧ s ∉ missedKeywords ∧ s ∉ [c!"crate", c!"self", c!"Self", c!"super"] := by
  refine ⟨fun ⟨i, h, hl⟩ => ?_, fun ⟨h1, h2, h3⟩ => C49_legal_partial h1 h2 h3⟩
  refine ⟨(escapeIdent_ok h).1, fun hm => ?_, fun hm => ?_⟩
  · obtain ⟨hne, hkw, hr⟩ := missed_facts s hm
    rcases (escapeIdent_ok h).2 with ⟨h', _⟩ | ⟨_, rfl⟩
    · exact hne h'
    · rcases hl with ⟨_, hl⟩ | ⟨w, e, _⟩
      · exact hl hkw
      · exact hr ⟨w, e.symm⟩
  · unfold escapeIdent at h
    rw [if_pos (unraw_facts s hm).1, if_pos (by rw [(unraw_facts s hm).2, Bool.true_or])] at h
    cases h

/-- What is generated for a missed keyword is a keyword; for the four words there is nothing. -/
theorem C49_otherwise (s : Str) (hs : x.identOk s = true) :
    (s ∈ missedKeywords → escapeIdent x s = .ok s ∧ s ∈ rustKeywords) ∧
    (s ∈ [c!"crate", c!"self", c!"Self", c!"super"] → escapeIdent x s = .panic) := by
  refine ⟨fun hm => ⟨?_, (missed_facts s hm).2.1⟩, fun hm => ?_⟩
  · unfold escapeIdent formatIdent
    rw [if_neg (by simpa using (missed_facts s hm).1), if_pos hs]
  · unfold escapeIdent
    rw [if_pos (unraw_facts s hm).1, if_pos (by rw [(unraw_facts s hm).2, Bool.true_or])]

/-- **C56**: two schema names get the same type identifier exactly if they have the same Pascal case, whatever their namespaces. -/
theorem C56_iff (hx : x.IdentLaws) {n m : Name} {i j : Str} (hn : typeIdent x n = .ok i) (hm : typeIdent x m = .ok j) :
    i = j ↔ x.pascal n.name = x.pascal m.name := by
  constructor
  · rintro rfl
    exact C56_unique_partial hx hn hm
  · intro e
    unfold typeIdent at hn hm
    rw [e, hm] at hn
    injection hn with hn
    exact hn.symm

/-- **C57**: what the macro returns is a module exactly if the module it was applied to had no inner attributes. -/
theorem C57_iff (x : Ext) (F : Files) (k : Nat) (order : List (Name × Root) → List (Name × Root)) (dir : Str)
    (args : List (Str × Str)) (item : ItemMod) (ts : List Tok) (h : macroAll x F k order dir args item = .ok ts) :
    (∃ m, ReadsMod ts m) ↔ ∀ a ∈ item.attrs, a.inner = false := by
  obtain ⟨path, P, ds, h1, h2, h3, rfl⟩ := macroAll_ok h
  refine ⟨fun ⟨m, hm⟩ => ?_, fun hi => ⟨_, readsMod_quote item ds hi⟩⟩
  clear h h1 h2 h3
  obtain ⟨attrs, v, i, c⟩ := item
  induction attrs generalizing m with
  | nil => nofun
  | cons a attrs ih =>
    obtain ⟨b, s⟩ := a
    cases hm with
    | outer hm =>
      intro a ha
      rcases List.mem_cons.1 ha with rfl | ha
      · rfl
      · exact ih _ ⟨_, hm⟩ hm a ha

/-- **C27**: the name written for an element resolves to the name the reader looks for exactly if it is not a name without a namespace in a qualified
schema with a target namespace. -/
theorem C27_name_iff {S : SchemaContext} {N : List (Str × Str)} (hr : S.namespaces.Reachable) (hu : S.namespaces.NonEmptyUris) (hN : schemaNss S = .ok N)
    {n : Name} (hp : n.Plain) (hid : ∀ id, n.ns = .id id → (S.namespaces.getById id).isSome = true)
    (htarget : ∀ id, S.target = .id id → (S.namespaces.getById id).isSome = true) :
    (∃ w q, S.xmlName n = .ok w ∧ S.expanded n = .ok q ∧ resolveName N w = some q) ↔
      (n.ns = .none → ¬ (S.isQualified = true ∧ ∃ id, S.target = .id id)) := by
  refine ⟨?_, fun h => C27_name_resolves_partial hr hu hN hp h hid⟩
  rintro ⟨w, q, h1, h2, h3⟩ hn ⟨hq, id, ht⟩
  obtain ⟨_, h4, _⟩ := schemaNss_spec hr hN
  obtain ⟨d, hd⟩ := Option.isSome_iff_exists.1 (htarget id ht)
  obtain ⟨nm, ns⟩ := n
  cases hn
  cases h1
  cases h2
  unfold resolveName at h3
  rw [splitColon_none hp, h4 id d hd hq ht] at h3
  have := hu id d hd
  revert h3
  cases hd' : d.uri with
  | nil => exact absurd hd' this
  | cons c cs => intro h3; cases h3

theorem setNss_attrs {nss : List (Str × Str)} {c : Ctx} : (setNss nss c).inner.attrs = c.inner.attrs ∧ (setNss nss c).virt = c.virt := by
  unfold setNss
  induction nss generalizing c with
  | nil => exact ⟨rfl, rfl⟩
  | cons b nss ih =>
    rw [List.foldl_cons]
    obtain ⟨h1, h2⟩ := ih (c := if b.1 = [] then c.setDefaultNs b.2 else c.setNs b.1 b.2)
    rw [h1, h2]
    split
    · unfold Ctx.setDefaultNs; split <;> simp_all
    · unfold Ctx.setNs; split <;> simp_all

/-- The attributes that a context has after attributes were set. -/
theorem writeAttrs_names {P : List TypeDef} {fields : List (Str × Val)} {as : List AttrWrite} {c d : Ctx} (h : writeAttrs x P fields as c = .ok d) :
    d.virt = c.virt ∧ ∀ p ∈ d.inner.attrs, p ∈ c.inner.attrs ∨ ∃ a ∈ as, a.name = p.1 := by
  induction as generalizing c with
  | nil => injection h with h; subst h; exact ⟨rfl, fun p hp => .inl hp⟩
  | cons a as ih =>
    obtain ⟨c1, h1, h⟩ := Res.bind_eq_ok.1 h
    obtain ⟨h2, h3⟩ := ih h
    have key : c1.virt = c.virt ∧ ∀ p ∈ c1.inner.attrs, p ∈ c.inner.attrs ∨ a.name = p.1 := by
      have hset : ∀ s, (c.setAttr a.name s).virt = c.virt ∧ ∀ p ∈ (c.setAttr a.name s).inner.attrs, p ∈ c.inner.attrs ∨ a.name = p.1 := by
        intro s
        unfold Ctx.setAttr
        split
        · next hv =>
          refine ⟨hv.symm, fun p hp => ?_⟩
          rcases List.mem_append.1 hp with hp | hp
          · exact .inl hp
          · rw [List.mem_singleton.1 hp]; exact .inr rfl
        · next hv =>
          refine ⟨hv.symm, fun p hp => ?_⟩
          rcases List.mem_append.1 hp with hp | hp
          · exact .inl hp
          · rw [List.mem_singleton.1 hp]; exact .inr rfl
      unfold writeAttr at h1
      split at h1
      · cases h1
      · split at h1
        · split at h1
          · cases h1; exact ⟨rfl, fun p hp => .inl hp⟩
          · split at h1
            · cases h1; exact hset _
            · cases h1
          · cases h1
        · split at h1
          · cases h1; exact hset _
          · cases h1
    refine ⟨h2.trans key.1, fun p hp => ?_⟩
    rcases h3 p hp with hp | ⟨b, hb, e⟩
    · rcases key.2 p hp with hp | e
      · exact .inl hp
      · exact .inr ⟨a, .head _, e⟩
    · exact .inr ⟨b, .tail _ hb, e⟩

/-- **C54**: the tag written for a value of an extension with a sequence (or of any other element with child elements) has only the attributes that the
extension itself declares, never those of its base. -/
theorem C54_own_only {S : SchemaContext} {P : List TypeDef} (G : Generated x S P) {n : Name} {i : Str} (hi : typeIdent x n = .ok i) {d : ElementDef}
    (hd : S.get n = some (.element d)) (hv : d.isVirtual = false) {ls : List Leaf} (hc : d.content = some (.leaves ls)) {v : Val} {evs : List Ev}
    (h : ToXml x P i v (.ok evs)) :
    ∃ nm as nss rest, evs = .start nm as nss :: rest ∧ ∀ a ∈ as, ∃ b ∈ d.attributes, S.xmlName b.name = .ok a.1 := by
  obtain ⟨r, t, hr, hf, _, hg⟩ := G.find' hi (by rw [hd]; rfl)
  rw [hd] at hr; cases hr
  obtain ⟨_, k, h⟩ := h
  unfold toXml at h
  rw [hf] at h
  simp only at h
  obtain ⟨⟨evs', c⟩, h0, he⟩ := Res.bind_eq_ok.1 h
  clear h
  injection he with he
  simp only at he
  subst he
  cases k with
  | zero => cases h0
  | succ k =>
    unfold toXmlWriter at h0
    rw [hf] at h0
    simp only at h0
    have hw := hg.write
    obtain ⟨as, has, hw⟩ := Res.bind_eq_ok.1 hw
    obtain ⟨w, _, hw⟩ := Res.bind_eq_ok.1 hw
    rw [hv, hc] at hw
    injection hw with hw
    unfold runTo at h0
    rw [← hw] at h0
    simp only at h0
    split at h0
    · obtain ⟨c1, h1, h⟩ := Res.bind_eq_ok.1 h0
      clear h0
      obtain ⟨h2, h3⟩ := writeAttrs_names h1
      obtain ⟨h4, h5⟩ := setNss_attrs (nss := t.nss) (c := Ctx.new t.xmlName)
      rw [h5] at h2
      unfold withTags at h
      rw [if_pos (by rfl)] at h
      obtain ⟨p, _, h⟩ := Res.bind_eq_ok.1 h
      unfold Ctx.writeStart at h
      rw [h2] at h
      cases h
      refine ⟨_, _, _, _, rfl, fun a ha => ?_⟩
      rcases h3 a ha with h6 | ⟨b, hb, e⟩
      · rw [h4] at h6; cases h6
      · obtain ⟨b', hb', hbw⟩ := (mapRes_ok has).2 b hb
        refine ⟨b', hb', ?_⟩
        obtain ⟨_, _, hbw⟩ := Res.bind_eq_ok.1 hbw
        obtain ⟨nm, hnm, hbw⟩ := Res.bind_eq_ok.1 hbw
        have hname : b.name = nm := by
          simp only at hbw
          split at hbw
          · cases hbw; rfl
          · obtain ⟨_, _, hbw⟩ := Res.bind_eq_ok.1 hbw
            cases hbw; rfl
          · cases hbw; rfl
        rw [hnm, ← hname, e]
    · cases h0

open Defects in
/-- It applies to the extension of `C54_false`, whose base has the attribute `id`. -/
example : ∃ v evs, ToXml sampleExt (run extension) c!"Employee" v (.ok evs) ∧
    ∃ nm as nss rest, evs = .start nm as nss :: rest ∧ c!"id" ∉ as.map Prod.fst := by
  obtain ⟨evs, h1, _⟩ := extension_writes
  obtain ⟨nm, as, nss, rest, h2, h3⟩ := C54_own_only extension_generated (n := Sample.nm c!"Employee") (by decide +kernel) rfl rfl rfl h1
  refine ⟨_, evs, h1, nm, as, nss, rest, h2, fun hm => ?_⟩
  obtain ⟨a, ha, _⟩ := List.mem_map.1 hm
  obtain ⟨b, hb, _⟩ := h3 a ha
  cases hb

end Xsd
