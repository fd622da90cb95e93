import Verif.Model.Codegen
import Verif.Props.Enums
/-!
# The namespace table (C31)
-/
namespace Xsd

/-- `Namespaces::get` (xsd-internal/src/ast/namespaces.rs:36-43); `none` is the `expect` panic. -/
def Namespaces.get (t : Namespaces) (uri : Str) : Option Namespace := (alookup t.byUri uri).map .id

/-- A sequence of registrations: the ids returned, and the table after it. -/
def Namespaces.register : Namespaces → List Str → List Namespace × Namespaces
  | t, [] => ([], t)
  | t, u :: us =>
    let r := t.getOrInsert u
    let rs := r.2.register us
    (r.1 :: rs.1, rs.2)

/-- The tables that occur: those made by registrations from the empty one. -/
def Namespaces.Reachable (t : Namespaces) : Prop := ∃ us, t = (Namespaces.empty.register us).2

/-- Invariant of the table. -/
structure Namespaces.Inv (t : Namespaces) : Prop where
  uris : (t.byUri.map Prod.fst).Nodup
  ids : (t.byId.map Prod.fst).Nodup
  bound : ∀ u n, alookup t.byUri u = some n → n ≤ t.byUri.length
  agree : ∀ u n, alookup t.byUri u = some n ↔ ∃ p, alookup t.byId n = some ⟨u, p⟩
  pfx : ∀ n d, alookup t.byId n = some d → d.pfx = c!"ns" ++ showNat n

theorem Namespaces.inv_empty : Namespaces.empty.Inv := by
  constructor <;> simp [Namespaces.empty, alookup]

theorem ainsert_length_fresh {κ ν : Type} [DecidableEq κ] {m : List (κ × ν)} {k : κ} {v : ν} (h : k ∉ m.map Prod.fst) :
    (ainsert m k v).length = m.length + 1 := by
  rw [ainsert_fresh h]; simp

theorem Namespaces.Inv.getOrInsert {t : Namespaces} (h : t.Inv) (u : Str) : (t.getOrInsert u).2.Inv := by
  unfold Namespaces.getOrInsert
  split
  · exact h
  · next hu =>
    have hu' := (alookup_eq_none_iff _ _).1 hu
    have hid : alookup t.byId (t.byUri.length + 1) = none := by
      cases hd : alookup t.byId (t.byUri.length + 1) with
      | none => rfl
      | some d =>
        have := h.bound d.uri _ ((h.agree _ _).2 ⟨d.pfx, hd⟩)
        omega
    refine ⟨nodup_keys_ainsert h.uris _ _, nodup_keys_ainsert h.ids _ _, ?_, ?_, ?_⟩
    · intro v n hv
      simp only [alookup_ainsert] at hv
      simp only [ainsert_length_fresh hu']
      split at hv
      · cases hv; omega
      · have := h.bound v n hv; omega
    · intro v n
      simp only [alookup_ainsert]
      by_cases hv : u = v
      · subst hv
        simp only [if_true, Option.some.injEq]
        constructor
        · rintro rfl
          exact ⟨c!"ns" ++ showNat (t.byUri.length + 1), by simp⟩
        · rintro ⟨p, hp⟩
          split at hp
          · assumption
          · have := (h.agree u n).2 ⟨p, hp⟩
            rw [hu] at this; cases this
      · simp only [if_neg hv]
        rw [h.agree]
        constructor
        · rintro ⟨p, hp⟩
          refine ⟨p, ?_⟩
          rw [if_neg]
          · exact hp
          · rintro rfl; rw [hid] at hp; cases hp
        · rintro ⟨p, hp⟩
          split at hp
          · cases hp; exact absurd rfl hv
          · exact ⟨p, hp⟩
    · intro n d hd
      simp only [alookup_ainsert] at hd
      split at hd
      · next hn => cases hd; rw [hn]
      · exact h.pfx n d hd

theorem Namespaces.Inv.register {t : Namespaces} (h : t.Inv) (us : List Str) : (t.register us).2.Inv := by
  induction us generalizing t with
  | nil => exact h
  | cons u us ih => exact ih (h.getOrInsert u)

theorem Namespaces.Reachable.inv {t : Namespaces} (h : t.Reachable) : t.Inv := by
  obtain ⟨us, rfl⟩ := h
  exact Namespaces.inv_empty.register us

/-- Registrations only add entries. -/
def Namespaces.Extends (t t' : Namespaces) : Prop :=
  (∀ u n, alookup t.byUri u = some n → alookup t'.byUri u = some n) ∧
  (∀ n d, alookup t.byId n = some d → alookup t'.byId n = some d)

theorem Namespaces.Extends.refl (t : Namespaces) : t.Extends t := ⟨fun _ _ h => h, fun _ _ h => h⟩

theorem Namespaces.Extends.trans {a b c : Namespaces} (h1 : a.Extends b) (h2 : b.Extends c) : a.Extends c :=
  ⟨fun u n h => h2.1 u n (h1.1 u n h), fun n d h => h2.2 n d (h1.2 n d h)⟩

theorem Namespaces.Inv.getOrInsert_extends {t : Namespaces} (h : t.Inv) (u : Str) : t.Extends (t.getOrInsert u).2 := by
  unfold Namespaces.getOrInsert
  split
  · exact .refl t
  · next hu =>
    refine ⟨fun v n hv => ?_, fun n d hd => ?_⟩
    · simp only [alookup_ainsert]
      rw [if_neg]
      · exact hv
      · rintro rfl; rw [hu] at hv; cases hv
    · simp only [alookup_ainsert]
      rw [if_neg]
      · exact hd
      · rintro rfl
        have := h.bound d.uri _ ((h.agree _ _).2 ⟨d.pfx, hd⟩)
        omega

theorem Namespaces.getOrInsert_get (t : Namespaces) (u : Str) :
    ∃ n, (t.getOrInsert u).1 = .id n ∧ alookup (t.getOrInsert u).2.byUri u = some n := by
  unfold Namespaces.getOrInsert
  split
  · next n hn => exact ⟨n, rfl, hn⟩
  · exact ⟨_, rfl, by simp [alookup_ainsert]⟩

theorem Namespaces.Inv.register_extends {t : Namespaces} (h : t.Inv) (us : List Str) : t.Extends (t.register us).2 := by
  induction us generalizing t with
  | nil => exact .refl t
  | cons u us ih => exact (h.getOrInsert_extends u).trans (ih (h.getOrInsert u))

theorem Namespaces.Inv.register_ids {t : Namespaces} (h : t.Inv) (us : List Str) :
    (t.register us).1.length = us.length ∧
    ∀ i (hi : i < us.length) (hj : i < (t.register us).1.length), ∃ n, (t.register us).1[i] = .id n ∧
      alookup (t.register us).2.byUri us[i] = some n := by
  induction us generalizing t with
  | nil => exact ⟨rfl, fun i hi => absurd hi (by simp)⟩
  | cons u us ih =>
    have ih := ih (h.getOrInsert u)
    refine ⟨by simp [Namespaces.register, ih.1], ?_⟩
    intro i hi hj
    cases i with
    | zero =>
      obtain ⟨n, h1, h2⟩ := t.getOrInsert_get u
      exact ⟨n, h1, ((h.getOrInsert u).register_extends us).1 _ _ h2⟩
    | succ i => exact ih.2 i (by simpa using hi) (by simpa [Namespaces.register] using hj)

/-- **C31.** For every sequence of registrations `us`, starting from the empty table, with results `ids` and final table `t`:
equal URIs got equal ids and different URIs different ids; afterwards every id is looked up to the URI it was created for, and
every URI to its id; and different URIs have different prefixes. -/
theorem C31_bijection (us : List Str) {ids : List Namespace} {t : Namespaces}
    (h : Namespaces.empty.register us = (ids, t)) : ∃ hl : ids.length = us.length,
    (∀ i j (hi : i < us.length) (hj : j < us.length), ids[i] = ids[j] ↔ us[i] = us[j]) ∧
    (∀ i (hi : i < us.length), ∃ n p, ids[i] = .id n ∧ t.getById n = some ⟨us[i], p⟩ ∧ t.get us[i] = some (.id n)) ∧
    (∀ n m d d', t.getById n = some d → t.getById m = some d' → (d.pfx = d'.pfx ↔ n = m) ∧ (d.uri = d'.uri ↔ n = m)) := by
  have hinv := Namespaces.inv_empty.register us
  have hids := Namespaces.inv_empty.register_ids us
  rw [h] at hinv hids
  have hids' : ∀ i (hi : i < us.length) (hj : i < ids.length), ∃ n, ids[i] = .id n ∧ alookup t.byUri us[i] = some n := hids.2
  refine ⟨hids.1, ?_, ?_, ?_⟩
  · intro i j hi hj
    obtain ⟨n, hn, hn'⟩ := hids' i hi (by rw [hids.1]; exact hi)
    obtain ⟨m, hm, hm'⟩ := hids' j hj (by rw [hids.1]; exact hj)
    rw [hn, hm]
    constructor
    · intro he
      cases he
      obtain ⟨p, hp⟩ := (hinv.agree _ _).1 hn'
      obtain ⟨p', hp'⟩ := (hinv.agree _ _).1 hm'
      rw [hp] at hp'
      exact congrArg NsDef.uri (Option.some.inj hp')
    · intro he
      rw [he, hm'] at hn'
      cases hn'; rfl
  · intro i hi
    obtain ⟨n, hn, hn'⟩ := hids' i hi (by rw [hids.1]; exact hi)
    obtain ⟨p, hp⟩ := (hinv.agree _ _).1 hn'
    exact ⟨n, p, hn, hp, by simp [Namespaces.get, hn']⟩
  · intro n m d d' hd hd'
    refine ⟨⟨?_, ?_⟩, ⟨?_, ?_⟩⟩
    · intro he
      rw [hinv.pfx n d hd, hinv.pfx m d' hd'] at he
      exact showNat_inj (List.append_cancel_left he)
    · rintro rfl
      rw [hd] at hd'; cases hd'; rfl
    · intro he
      have h1 := (hinv.agree d.uri n).2 ⟨d.pfx, hd⟩
      have h2 := (hinv.agree d'.uri m).2 ⟨d'.pfx, hd'⟩
      rw [he, h2] at h1
      cases h1; rfl
    · rintro rfl
      rw [hd] at hd'; cases hd'; rfl

/-- **C31**, ids never change: further registrations keep every entry. -/
theorem C31_stable (us vs : List Str) : ∀ n d, (Namespaces.empty.register us).2.getById n = some d →
    (Namespaces.empty.register (us ++ vs)).2.getById n = some d := by
  have key : ∀ (t : Namespaces) us vs, (t.register (us ++ vs)).2 = ((t.register us).2.register vs).2 := by
    intro t us vs
    induction us generalizing t with
    | nil => rfl
    | cons u us ih => exact ih _
  intro n d h
  rw [key]
  exact ((Namespaces.inv_empty.register us).register_extends vs).2 n d h

/-! ## Written names and declarations

The declarations written on every element bind every prefix that written names use, for every schema whose table was made by
registrations. -/

theorem digitChar_ne_colon : ∀ d, d < 10 → digitChar d ≠ ':' := by decide

theorem showNat_no_colon (n : Nat) : ':' ∉ showNat n := by
  intro h
  obtain ⟨d, hd, he⟩ := showNat_all_digits _ _ _ h
  exact digitChar_ne_colon d hd he.symm

theorem splitColon_pfx {p l : Str} (hp : ':' ∉ p) : splitColon (p ++ ':' :: l) = some (p, l) := by
  induction p with
  | nil => rfl
  | cons c p ih =>
    simp only [List.mem_cons, not_or] at hp
    have hc : c ≠ ':' := fun h => hp.1 h.symm
    have ih := ih hp.2
    rw [List.cons_append]
    unfold splitColon
    split
    · next h => cases h
    · next h => cases h; exact absurd rfl hc
    · next h => cases h; rw [ih]

theorem splitColon_none {p : Str} (hp : ':' ∉ p) : splitColon p = none := by
  induction p with
  | nil => rfl
  | cons c p ih =>
    simp only [List.mem_cons, not_or] at hp
    have hc : c ≠ ':' := fun h => hp.1 h.symm
    have ih := ih hp.2
    unfold splitColon
    split
    · next h => rfl
    · next h => cases h; exact absurd rfl hc
    · next h => cases h; rw [ih]

/-- The local part is an XML name: no colon. -/
def Name.Plain (n : Name) : Prop := ':' ∉ n.name

/-- The namespaces of the schema have non-empty URIs. -/
def Namespaces.NonEmptyUris (t : Namespaces) : Prop := ∀ n d, t.getById n = some d → d.uri ≠ []

section
variable {S : SchemaContext} {N : List (Str × Str)}

theorem pfx_ne_nil {n : Nat} : c!"ns" ++ showNat n ≠ [] := by simp

theorem alookup_filterMap_none {m : List (Nat × NsDef)} {f : Nat × NsDef → Option (Str × Str)} {q : Str}
    (h : ∀ p ∈ m, ∀ b, f p = some b → b.1 ≠ q) : alookup (m.filterMap f) q = none := by
  rw [alookup_eq_none_iff]
  intro hm
  obtain ⟨b, hb, rfl⟩ := List.mem_map.1 hm
  obtain ⟨p, hp, hf⟩ := List.mem_filterMap.1 hb
  exact h p hp b hf rfl

/-- The declarations: which prefix is bound to what. -/
theorem schemaNss_spec (hr : S.namespaces.Reachable) (hN : schemaNss S = .ok N) :
    (∀ id d, S.namespaces.getById id = some d → ¬ (S.isQualified = true ∧ S.target = .id id) →
      alookup N (c!"ns" ++ showNat id) = some d.uri) ∧
    (∀ id d, S.namespaces.getById id = some d → S.isQualified = true → S.target = .id id → alookup N [] = some d.uri) ∧
    (¬ (S.isQualified = true ∧ ∃ id, S.target = .id id) → alookup N [] = none) ∧ (N.map Prod.fst).Nodup := by
  have hinv := hr.inv
  have hnp : ∀ (f : Nat × NsDef → Option (Str × Str)), (∀ p b, f p = some b → b = (p.2.pfx, p.2.uri)) →
      alookup (S.namespaces.byId.filterMap f) [] = none := by
    intro f hf
    apply alookup_filterMap_none
    rintro ⟨i, d⟩ hp b hb he
    have := hf _ _ hb
    subst this
    have hd := hinv.pfx i d (alookup_of_mem hinv.ids hp)
    simp only at he
    rw [hd] at he
    simp at he
  have hrest : ((S.namespaces.byId.filterMap (fun (p : Nat × NsDef) =>
      if S.isQualified && decide (Namespace.id p.1 = S.target) then none else some (p.2.pfx, p.2.uri))).map Prod.fst).Nodup := by
    have hids := hinv.ids
    have hpfx : ∀ p ∈ S.namespaces.byId, p.2.pfx = c!"ns" ++ showNat p.1 := fun p hp =>
      hinv.pfx p.1 p.2 (alookup_of_mem hids hp)
    revert hids hpfx
    generalize S.namespaces.byId = m
    intro hids hpfx
    induction m with
    | nil => simp
    | cons p m ih =>
      simp only [List.map_cons, List.nodup_cons] at hids
      have ih := ih hids.2 (fun q hq => hpfx q (by simp [hq]))
      rw [List.filterMap_cons]
      split
      · exact ih
      · next b hb =>
        split at hb
        · cases hb
        · cases hb
          simp only [List.map_cons, List.nodup_cons]
          refine ⟨?_, ih⟩
          intro hm
          obtain ⟨b, hb, he⟩ := List.mem_map.1 hm
          obtain ⟨q, hq, hf⟩ := List.mem_filterMap.1 hb
          split at hf
          · cases hf
          · cases hf
            simp only at he
            rw [hpfx p (by simp), hpfx q (by simp [hq])] at he
            have := showNat_inj (List.append_cancel_left he)
            exact hids.1 (this ▸ List.mem_map.2 ⟨q, hq, rfl⟩)
  have hfound : ∀ id d, S.namespaces.getById id = some d → ¬ (S.isQualified = true ∧ S.target = .id id) →
      (c!"ns" ++ showNat id, d.uri) ∈ S.namespaces.byId.filterMap (fun (p : Nat × NsDef) =>
        if S.isQualified && decide (Namespace.id p.1 = S.target) then none else some (p.2.pfx, p.2.uri)) := by
    intro id d hd hq
    refine List.mem_filterMap.2 ⟨(id, d), alookup_mem hd, ?_⟩
    rw [if_neg]
    · simp only [hinv.pfx id d hd]
    · simp only [Bool.and_eq_true, decide_eq_true_eq, not_and]
      intro h1 h2
      exact hq ⟨h1, h2.symm⟩
  have hempty := hnp (fun (p : Nat × NsDef) =>
      if S.isQualified && decide (Namespace.id p.1 = S.target) then none else some (p.2.pfx, p.2.uri)) (by
    intro p b hb
    split at hb
    · cases hb
    · exact (Option.some.inj hb).symm)
  unfold schemaNss at hN
  cases hq : S.isQualified with
  | false =>
    rw [hq] at hN hrest hfound hempty
    simp only [Res.pure_eq, Res.bind_ok, List.nil_append] at hN
    have hN := Res.ok.inj hN
    subst hN
    refine ⟨fun id d hd hh => alookup_of_mem hrest (hfound id d hd (by simp)), fun _ _ _ h => (by cases h), fun _ => hempty, hrest⟩
  | true =>
    cases ht : S.target with
    | none =>
      rw [hq, ht] at hN hrest hfound hempty
      simp only [Res.pure_eq, Res.bind_ok, List.nil_append] at hN
      have hN := Res.ok.inj hN
      subst hN
      exact ⟨fun id d hd hh => alookup_of_mem hrest (hfound id d hd (by simp)), fun _ _ _ _ h => (by cases h),
        fun _ => hempty, hrest⟩
    | id tid =>
      rw [hq, ht] at hN hrest hfound hempty
      simp only at hN
      cases hd : S.namespaces.getById tid with
      | none => rw [hd] at hN; cases hN
      | some td =>
        rw [hd] at hN
        simp only [Res.pure_eq, Res.bind_ok, List.cons_append, List.nil_append] at hN
        have hN := Res.ok.inj hN
        subst hN
        refine ⟨?_, ?_, fun h => absurd ⟨rfl, tid, rfl⟩ h, ?_⟩
        · intro id d hd' hh
          rw [alookup, if_neg (fun h => pfx_ne_nil h.symm)]
          exact alookup_of_mem hrest (hfound id d hd' (by simpa using hh))
        · intro id d hd' _ he
          cases he
          rw [hd] at hd'; cases hd'
          simp [alookup]
        · simp only [List.map_cons, List.nodup_cons]
          exact ⟨(alookup_eq_none_iff _ _).1 hempty, hrest⟩

/-- **C27**, single names: for every schema with a namespace table made by registrations, the name written for an element
resolves, in the declarations that are written, to the expanded name that the reader looks for; except for
names without a namespace in a qualified schema with a target namespace. -/
theorem C27_name_resolves_partial (hr : S.namespaces.Reachable) (hu : S.namespaces.NonEmptyUris) (hN : schemaNss S = .ok N) {n : Name}
    (hp : n.Plain) (hns : n.ns = .none → ¬ (S.isQualified = true ∧ ∃ id, S.target = .id id))
    (hid : ∀ id, n.ns = .id id → (S.namespaces.getById id).isSome = true) :
    ∃ w q, S.xmlName n = .ok w ∧ S.expanded n = .ok q ∧ resolveName N w = some q := by
  obtain ⟨h1, h2, h3, _⟩ := schemaNss_spec hr hN
  obtain ⟨nm, ns⟩ := n
  cases ns with
  | none =>
    refine ⟨nm, ⟨nm, none⟩, rfl, rfl, ?_⟩
    unfold resolveName
    rw [splitColon_none hp, h3 (hns rfl)]
  | id id =>
    obtain ⟨d, hd⟩ := Option.isSome_iff_exists.1 (hid id rfl)
    have hq : S.expanded ⟨nm, .id id⟩ = .ok ⟨nm, some d.uri⟩ := by rw [← SchemaContext.qname_eq]; simp [SchemaContext.qname, hd]
    by_cases ht : S.isQualified = true ∧ S.target = .id id
    · refine ⟨nm, ⟨nm, some d.uri⟩, by simp [SchemaContext.xmlName, ht.1, ht.2], hq, ?_⟩
      unfold resolveName
      rw [splitColon_none hp, h2 id d hd ht.1 ht.2]
      have := hu id d hd
      simp only
    · have hpfx := hr.inv.pfx id d hd
      refine ⟨d.pfx ++ ':' :: nm, ⟨nm, some d.uri⟩, ?_, hq, ?_⟩
      · simp only [SchemaContext.xmlName]
        rw [if_neg]
        · simp only [hd]
        · simp only [Bool.and_eq_true, decide_eq_true_eq]
          rintro ⟨a, b⟩
          exact ht ⟨a, b.symm⟩
      · unfold resolveName
        rw [splitColon_pfx (by
          rw [hpfx]
          simp only [List.mem_append, not_or]
          exact ⟨by decide, showNat_no_colon id⟩)]
        simp only
        rw [hpfx, h1 id d hd ht]
        rfl

end

/-- The hypotheses are met: the target namespace, and another one. -/
example : ∃ S : SchemaContext, S.namespaces.Reachable ∧ S.namespaces.NonEmptyUris ∧ S.isQualified = true ∧ S.target = .id 1 ∧
    schemaNss S = .ok [([], c!"a"), (c!"ns2", c!"b")] ∧ S.xmlName ⟨c!"e", .id 2⟩ = .ok c!"ns2:e" ∧
    resolveName [([], c!"a"), (c!"ns2", c!"b")] c!"ns2:e" = some ⟨c!"e", some c!"b"⟩ := by
  refine ⟨⟨[], .id 1, true, (Namespaces.empty.register [c!"a", c!"b"]).2⟩, ⟨[c!"a", c!"b"], rfl⟩, ?_, rfl, rfl, by rfl,
    by rfl, by decide⟩
  intro n d h
  have := alookup_mem h
  simp only [Namespaces.register, Namespaces.empty, Namespaces.getOrInsert, alookup, ainsert, List.length_nil] at this
  simp at this
  rcases this with ⟨_, rfl⟩ | ⟨_, rfl⟩ <;> simp

/-- Three registrations, one repeated. -/
example : (Namespaces.empty.register [c!"a", c!"b", c!"a"]).1 = [.id 1, .id 2, .id 1] ∧
    (Namespaces.empty.register [c!"a", c!"b", c!"a"]).2.getById 2 = some ⟨c!"b", c!"ns2"⟩ := by decide +kernel

end Xsd
