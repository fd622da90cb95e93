import Verif.Spec.Types
import Verif.Props.Reader
/-!
# Decoded values have the declared type (C18)
-/
namespace Xsd

variable {x : Ext} {S : SchemaContext} {P : List TypeDef} {m : Mode}

theorem parseInt_range {sg : Bool} {lo hi i : Int} {s : Str} (h : parseInt sg lo hi s = some i) : lo ≤ i ∧ i ≤ hi := by
  unfold parseInt at h
  split at h
  · split at h
    · next hh => cases h; exact hh
    · cases h
  · cases h

/-- A parsed literal is a value of its Rust type. -/
theorem parsePrim_val {p : Prim} {s : Str} {v : Val} (h : parsePrim x p s = some v) : PrimVal p v := by
  cases p with
  | string => cases h; exact ⟨s, rfl⟩
  | bool =>
    simp only [parsePrim] at h
    split at h
    · cases h; exact ⟨_, rfl⟩
    · split at h
      · cases h; exact ⟨_, rfl⟩
      · cases h
  | i64 =>
    obtain ⟨i, hi, rfl⟩ := Option.map_eq_some_iff.1 h
    have := parseInt_range hi
    unfold i64Min i64Max at this
    exact ⟨i, rfl, by omega, by omega⟩
  | u64 =>
    obtain ⟨i, hi, rfl⟩ := Option.map_eq_some_iff.1 h
    have := parseInt_range hi
    unfold u64Max at this
    exact ⟨i, rfl, by omega, by omega⟩
  | i32 =>
    obtain ⟨i, hi, rfl⟩ := Option.map_eq_some_iff.1 h
    have := parseInt_range hi
    unfold i32Min i32Max at this
    exact ⟨i, rfl, by omega, by omega⟩
  | decimal => obtain ⟨i, _, rfl⟩ := Option.map_eq_some_iff.1 h; exact ⟨i, rfl⟩
  | f32 => obtain ⟨i, _, rfl⟩ := Option.map_eq_some_iff.1 h; exact ⟨i, rfl⟩

section
variable {T : Name → Val → Elem → List Elem → Prop}

/-- What is known of named types. -/
def TTyped (x : Ext) (P : List TypeDef) (T : Name → Val → Elem → List Elem → Prop) : Prop :=
  ∀ n i v e es, typeIdent x n = .ok i → T n v e es → HasTy P (.named i) v

theorem rval_typed (hT : TTyped x P T) {c : LeafContent} {ty : Ty} (hty : contentTy x S c = .ok ty) {v : Val}
    {e : Elem} {es : List Elem} (h : RVal x m S T c v e es) : HasTy P ty v := by
  obtain ⟨c', hm, h⟩ := h
  rcases contentTy_ok hty with ⟨t, hm', rfl⟩ | ⟨f, hm', rfl⟩ | ⟨n, i, hm', hi, rfl⟩
  · cases hm.functional hm'
    obtain ⟨s, _, hp, _⟩ := h
    exact .prim (parsePrim_val hp)
  · cases hm.functional hm'
    obtain ⟨_, rfl, _⟩ := h
    exact .unit
  · cases hm.functional hm'
    exact hT n i v e es hi h

theorem ritem_typed (hT : TTyped x P T) {l : Leaf} {ty : Ty} (hty : contentTy x S l.definition.content = .ok ty) {v : Val}
    {e : Elem} {es : List Elem} (h : RItem x m S T l v e es) : HasTy P ty v := by
  unfold RItem at h
  split at h
  · exact rval_typed hT hty h
  · obtain ⟨ch, _, _, es', _, _, _, h⟩ := h
    exact rval_typed hT hty h

theorem rmany_typed (hT : TTyped x P T) {l : Leaf} {ty : Ty} (hty : contentTy x S l.definition.content = .ok ty)
    {vs : List Val} {e : Elem} {es : List Elem} (h : RMany x m S T l vs e es) : ∀ v ∈ vs, HasTy P ty v := by
  induction vs generalizing es with
  | nil => simp
  | cons v vs ih =>
    obtain ⟨es1, es2, h1, _, h2, _⟩ := h
    intro w hw
    rcases List.mem_cons.1 hw with rfl | hw
    · exact ritem_typed hT hty h1
    · exact ih h2 w hw

theorem rocc_typed (hT : TTyped x P T) {l : Leaf} {p : Str × Ty} (hd : leafDecl x S l = .ok p) {v : Val}
    {e : Elem} {es : List Elem} (h : ROcc x m S T l v e es) : fieldIdent x l.name = .ok p.1 ∧ HasTy P p.2 v := by
  simp only [leafDecl, Leaf.isOptional_eq, Leaf.isVec_eq, Res.bind_eq_ok] at hd
  obtain ⟨f, hf, ty, hty, hd⟩ := hd
  cases hd
  refine ⟨hf, ?_⟩
  unfold ROcc at h
  cases hv : l.repeats <;> cases ho : l.mayMiss <;> simp only [hv, ho, if_true, if_false, Bool.false_eq_true] at h ⊢
  · exact ritem_typed hT hty h
  · rcases h with ⟨rfl, _⟩ | ⟨w, rfl, h, _⟩
    · exact .none
    · exact .some (ritem_typed hT hty h)
  · obtain ⟨vs, h, rfl⟩ := h
    exact .vec (rmany_typed hT hty h)
  · obtain ⟨vs, h, ⟨_, rfl⟩ | ⟨_, rfl⟩⟩ := h
    · exact .none
    · exact .some (.vec (rmany_typed hT hty h))

theorem rleaves_typed (hT : TTyped x P T) (ls : List Leaf) {ds : List (Str × Ty)} (hd : mapRes (leafDecl x S) ls = .ok ds)
    {fs : List (Str × Val)} {e : Elem} {es : List Elem} (h : RLeaves x m S T ls fs e es) : HasFields P ds fs := by
  induction ls generalizing ds fs es with
  | nil => simp [mapRes] at hd; subst hd; obtain ⟨rfl, _⟩ := h; exact .nil
  | cons l ls ih =>
    obtain ⟨p, ds', hp, hds, rfl⟩ := mapRes_cons_ok.1 hd
    obtain ⟨f, v, fs', es1, es2, rfl, hf, ho, hr, _⟩ := h
    obtain ⟨hf', hty⟩ := rocc_typed hT hp ho
    rw [hf] at hf'; cases hf'
    exact .cons hty (ih hds hr)

theorem hasFields_append {d1 d2 : List (Str × Ty)} {f1 f2 : List (Str × Val)} (h1 : HasFields P d1 f1)
    (h2 : HasFields P d2 f2) : HasFields P (d1 ++ d2) (f1 ++ f2) := by
  induction d1 generalizing f1 with
  | nil => cases h1; exact h2
  | cons d d1 ih => cases h1 with | cons h hs => exact .cons h (ih hs)

theorem rstr_typed (G : Generated x S P) {c : LeafContent} {ty : Ty} (hty : contentTy x S c = .ok ty) {s : Str} {v : Val}
    (h : RStr x m S c s v) : HasTy P ty v := by
  unfold RStr at h
  cases c with
  | literal t =>
    rcases contentTy_ok hty with ⟨t', hm', rfl⟩ | ⟨f, hm', rfl⟩ | ⟨n, i, hm', hi, rfl⟩ <;> cases hm'
    exact .prim (parsePrim_val h)
  | fixed f =>
    rcases contentTy_ok hty with ⟨t', hm', rfl⟩ | ⟨f, hm', rfl⟩ | ⟨n, i, hm', hi, rfl⟩ <;> cases hm'
    obtain ⟨rfl, _⟩ := h; exact .unit
  | named n =>
    obtain ⟨c', hm, h⟩ := h
    rcases contentTy_ok hty with ⟨t, hm', rfl⟩ | ⟨f, hm', rfl⟩ | ⟨n, i, hm', hi, rfl⟩
    · cases hm.functional hm'
      obtain ⟨hp, rfl⟩ := h
      rw [hp]; exact .prim ⟨s, rfl⟩
    · cases hm.functional hm'; cases h
    · cases hm.functional hm'
      obtain ⟨names, tab, vn, hget, htab, hmem, rfl⟩ := h
      obtain ⟨r', t, hr', hft, hid, hg⟩ := G.find' hi (by rw [hget]; rfl)
      rw [hget] at hr'; cases hr'
      obtain ⟨tab', htab', hdt, _⟩ := rootDecl_enum hg.decl
      rw [htab] at htab'; cases htab'
      exact .named hft (hdt ▸ .enum (List.mem_map.2 ⟨_, hmem, rfl⟩))

theorem rattrs_typed (G : Generated x S P) (as : List Attribute) {ds : List (Str × Ty)}
    (hd : mapRes (attrDecl x S) as = .ok ds) {fs : List (Str × Val)} {e : Elem} (h : RAttrs x m S as fs e) :
    HasFields P ds fs := by
  induction as generalizing ds fs with
  | nil => simp [mapRes] at hd; subst hd; simp only [RAttrs] at h; subst h; exact .nil
  | cons a as ih =>
    obtain ⟨p, ds', hp, hds, rfl⟩ := mapRes_cons_ok.1 hd
    obtain ⟨f, v, fs', rfl, hf, hr, hv⟩ := h
    simp only [attrDecl, Res.bind_eq_ok] at hp
    obtain ⟨f', hf', ty, hty, hp⟩ := hp
    cases hp
    rw [hf] at hf'; cases hf'
    refine .cons ?_ (ih hds hr)
    cases ho : a.isOptional <;> simp only [ho, if_true, if_false, Bool.false_eq_true] at hv ⊢
    · obtain ⟨s, _, hv⟩ := hv; exact rstr_typed G hty hv
    · rcases hv with ⟨rfl, _⟩ | ⟨s, w, _, rfl, hw⟩
      · exact .none
      · exact .some (rstr_typed G hty hw)

end

/-- No alternative of a choice is a repeated group. The generated reader of such an alternative passes one value of
the group where the variant is declared with a `Vec` (root.rs:289-296 against root.rs:149-151): rustc rejects the
module, so the condition holds of every module that can run. -/
def VariantsTyped (S : SchemaContext) : Prop :=
  ∀ n vs b d, S.get n = some (.choice vs b d) → ∀ l ∈ vs, ¬ (l.isVirtual = true ∧ l.repeats = true)

theorem trepr_typed (G : Generated x S P) (hwt : VariantsTyped S) (k : Nat) : TTyped x P (TRepr x m S k) := by
  induction k with
  | zero => intro n i v e es _ h; cases h
  | succ k ih =>
    intro n i v e es hi ⟨r, hr, h⟩
    obtain ⟨r', t, hr', hft, hid, hg⟩ := G.find' hi (by rw [hr]; rfl)
    rw [hr] at hr'; cases hr'
    refine .named hft ?_
    have hd := hg.decl
    cases r with
    | leaf d =>
      simp only [rootDecl, Res.bind_eq_ok] at hd
      obtain ⟨ty, hty, hd⟩ := hd
      rw [← Res.ok.inj hd]
      obtain ⟨w, rfl, h⟩ := h
      exact .newtype (rval_typed ih hty h)
    | enum names =>
      obtain ⟨tab, htab, hdt, _⟩ := rootDecl_enum hd
      obtain ⟨tab', vn, s, htab', hmem, _, rfl, _⟩ := h
      rw [htab] at htab'; cases htab'
      rw [hdt]
      exact .enum (List.mem_map.2 ⟨_, hmem, rfl⟩)
    | element d =>
      simp only [rootDecl, Res.bind_eq_ok] at hd
      obtain ⟨cs, hcs, as, has, hd⟩ := hd
      rw [← Res.ok.inj hd]
      obtain ⟨fc, fa, rfl, hc, ha⟩ := h
      refine .struct (hasFields_append ?_ (rattrs_typed G d.attributes has ha))
      unfold RContent at hc
      cases hdc : d.content with
      | none =>
        rw [hdc] at hc hcs; obtain ⟨rfl, _⟩ := hc; cases hcs; exact .nil
      | some ec =>
        cases ec with
        | leaf ln ld =>
          rw [hdc] at hc hcs
          obtain ⟨f, w, rfl, hf, hv⟩ := hc
          simp only [contentDecl, Res.bind_eq_ok] at hcs
          obtain ⟨f', hf', ty, hty, hcs⟩ := hcs
          rw [hf] at hf'; cases hf'
          rw [← Res.ok.inj hcs]
          exact .cons (rval_typed ih hty hv) .nil
        | leaves ls =>
          rw [hdc] at hc hcs
          obtain ⟨_, hc, _⟩ := hc
          exact rleaves_typed ih ls hcs hc
    | choice vs b dd =>
      simp only [rootDecl, Res.bind_eq_ok] at hd
      obtain ⟨ds, hds, hd⟩ := hd
      rw [← Res.ok.inj hd]
      obtain ⟨l, hl, i, w, hpi, rfl, hv⟩ := h
      obtain ⟨p, hp, hpd⟩ := (mapRes_ok hds).1 l hl
      simp only [variantDecl, Leaf.isVec_eq, Res.bind_eq_ok] at hpd
      obtain ⟨i', hi', ty, hty, hpd⟩ := hpd
      rw [hpi] at hi'; cases hi'
      rw [← Res.ok.inj hpd] at hp
      refine .choice hp ?_
      unfold RVariant at hv
      cases hvt : l.isVirtual <;> cases hvec : l.repeats <;>
        simp only [hvt, hvec, if_true, if_false, Bool.false_eq_true] at hv ⊢
      · exact ritem_typed ih hty hv
      · obtain ⟨ws, rfl, _, hv⟩ := hv
        exact .vec (rmany_typed ih hty hv)
      · exact ritem_typed ih hty hv.1
      · exact absurd ⟨hvt, hvec⟩ (hwt n vs b dd hr l hl)

/-- **C18**, if no alternative of a choice is a repeated group: whatever `from_xml` returns is a value of the declared type: numbers in
the range of their Rust type, enum variants and choice variants that are declared, structs with exactly the declared fields.

Missing: repeated groups as alternatives, for which the reader is ill-typed (`C18_false`). -/
theorem C18_decoded_has_type_partial (G : Generated x S P) (hwt : VariantsTyped S) {n : Name} {i : Str} (hi : typeIdent x n = .ok i)
    (hn : (S.get n).isSome = true) {d : Doc} {v : Val} (h : FromXml x P i d (.ok v)) : HasTy P (.named i) v := by
  obtain ⟨_, k, es, junk, _, _, h⟩ := C13_sound G hi hn h
  exact trepr_typed G hwt k n i v _ es hi h

/-- The condition is decidable. -/
def variantsTypedB (S : SchemaContext) : Bool :=
  S.elements.all fun p => match p.2 with
    | .choice vs _ _ => vs.all fun l => !(l.isVirtual && l.repeats)
    | _ => true

theorem variantsTypedB_sound (h : variantsTypedB S = true) : VariantsTyped S := by
  intro n vs b d hg l hl ⟨h1, h2⟩
  have := List.all_eq_true.1 h _ (alookup_mem hg)
  have := List.all_eq_true.1 this l hl
  simp [h1, h2] at this

/-- The hypotheses are met: the sample document decodes, and the result has the declared type. -/
example : HasTy Sample.pgm (.named c!"Article") Sample.val :=
  C18_decoded_has_type_partial Sample.generated (variantsTypedB_sound (by decide +kernel)) article_ident (by rfl)
    Sample.doc_decodes

end Xsd
