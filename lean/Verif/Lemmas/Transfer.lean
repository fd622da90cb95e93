import Verif.Lemmas.Encode
import Verif.Props.Types
/-!
# From typed values to written documents, and back to exact representations

* `hasTy_tv`: a value of the generated Rust type is a value of the schema type.
* `trepr_transfer`: if a value has some representation without empty groups, then the document that is
  written for it has none either.
-/
namespace Xsd

variable {x : Ext} {S : SchemaContext} {P : List TypeDef} {W : WCert}

section
variable {k : Nat} {V : Name → Val → Prop}

/-- `V` contains all values up to size `k` of the generated types. -/
def TypedIn (x : Ext) (S : SchemaContext) (P : List TypeDef) (k : Nat) (V : Name → Val → Prop) : Prop :=
  ∀ n i v, (S.get n).isSome = true → typeIdent x n = .ok i → sizeOf v ≤ k → HasTy P (.named i) v → V n v

theorem vval_of_typed (hV : TypedIn x S P k V) {c : LeafContent} {ty : Ty} (hty : contentTy x S c = .ok ty)
    (hc : ∀ m, Means S c (.named m) → (S.get m).isSome = true) {v : Val} (hs : sizeOf v ≤ k) (h : HasTy P ty v) :
    VVal S V c v := by
  rcases contentTy_ok hty with ⟨t, hm, rfl⟩ | ⟨f, hm, rfl⟩ | ⟨n, i, hm, hi, rfl⟩
  · cases h with | prim h => exact ⟨.literal t, hm, h⟩
  · cases h; exact ⟨.fixed f, hm, rfl⟩
  · exact ⟨.named n, hm, hV n i v (hc n hm) hi hs h⟩

theorem vmany_of_typed (hV : TypedIn x S P k V) {l : Leaf} {ty : Ty} (hty : contentTy x S l.definition.content = .ok ty)
    (hc : ∀ m, Means S l.definition.content (.named m) → (S.get m).isSome = true) {v : Val} (hs : sizeOf v ≤ k)
    (h : HasTy P (if l.repeats then .vec ty else ty) v) : VMany S V l v := by
  unfold VMany
  split at h
  · next hv =>
    rw [if_pos hv]
    cases h with
    | vec h =>
      refine ⟨_, rfl, fun w hw => vval_of_typed hV hty hc ?_ (h w hw)⟩
      have := List.sizeOf_lt_of_mem hw
      simp only [Val.vec.sizeOf_spec] at hs
      omega
  · next hv => rw [if_neg hv]; exact vval_of_typed hV hty hc hs h

theorem vleaves_of_typed (hV : TypedIn x S P k V) (ls : List Leaf) {ds : List (Str × Ty)}
    (hd : mapRes (leafDecl x S) ls = .ok ds)
    (hc : ∀ l ∈ ls, ∀ m, Means S l.definition.content (.named m) → (S.get m).isSome = true)
    {fs : List (Str × Val)} (hs : sizeOf fs ≤ k) (h : HasFields P ds fs) : VLeaves x S V ls fs := by
  induction ls generalizing ds fs with
  | nil => simp [mapRes] at hd; subst hd; cases h; rfl
  | cons l ls ih =>
    obtain ⟨p, ds', hp, hds, rfl⟩ := mapRes_cons_ok.1 hd
    simp only [leafDecl, Leaf.isOptional_eq, Leaf.isVec_eq, Res.bind_eq_ok] at hp
    obtain ⟨f, hf, ty, hty, hp⟩ := hp
    cases hp
    cases h with
    | @cons _ _ v _ fs' h hfs =>
      simp only [List.cons.sizeOf_spec, Prod.mk.sizeOf_spec] at hs
      refine ⟨f, v, fs', rfl, hf, ?_, ih hds (fun l hl => hc l (by simp [hl])) (by omega) hfs⟩
      unfold VOcc
      have hcl := hc l (by simp)
      split at h
      · next ho =>
        rw [if_pos ho]
        cases h with
        | none => exact .inl rfl
        | some h =>
          simp only [Val.some.sizeOf_spec] at hs
          exact .inr ⟨_, rfl, vmany_of_typed hV hty hcl (by omega) h⟩
      · next ho => rw [if_neg ho]; exact vmany_of_typed hV hty hcl (by omega) h

theorem hasFields_split {d1 d2 : List (Str × Ty)} {fs : List (Str × Val)} (h : HasFields P (d1 ++ d2) fs) :
    ∃ f1 f2, fs = f1 ++ f2 ∧ HasFields P d1 f1 ∧ HasFields P d2 f2 := by
  induction d1 generalizing fs with
  | nil => exact ⟨[], fs, rfl, .nil, h⟩
  | cons d d1 ih =>
    cases h with
    | cons h hs =>
      obtain ⟨f1, f2, rfl, h1, h2⟩ := ih hs
      exact ⟨_ :: f1, f2, rfl, .cons h h1, h2⟩

end

/-- Attributes with a named type have a simple type. -/
def AttrSimple (S : SchemaContext) (a : Attribute) : Prop :=
  ∀ n, Means S a.content (.named n) → ∃ names, S.get n = some (.enum names)

theorem vattrs_of_typed (G : Generated x S P) (as : List Attribute) {ds : List (Str × Ty)}
    (hd : mapRes (attrDecl x S) as = .ok ds) (hsimple : ∀ a ∈ as, AttrSimple S a)
    {fs : List (Str × Val)} (h : HasFields P ds fs) : VAttrs x S as fs := by
  induction as generalizing ds fs with
  | nil => simp [mapRes] at hd; subst hd; cases h; rfl
  | cons a as ih =>
    obtain ⟨p, ds', hp, hds, rfl⟩ := mapRes_cons_ok.1 hd
    simp only [attrDecl, Res.bind_eq_ok] at hp
    obtain ⟨f, hf, ty, hty, hp⟩ := hp
    cases hp
    cases h with
    | @cons _ _ v _ fs' h hfs =>
      refine ⟨f, v, fs', rfl, hf, ih hds (fun a ha => hsimple a (by simp [ha])) hfs, ?_⟩
      have key : ∀ w, HasTy P ty w → VStr x S a.content w := by
        intro w hw
        rcases contentTy_ok hty with ⟨t, hm, rfl⟩ | ⟨f, hm, rfl⟩ | ⟨n, i, hm, hi, rfl⟩
        · cases hw with | prim h => exact ⟨.literal t, hm, h⟩
        · cases hw; exact ⟨.fixed f, hm, rfl⟩
        · obtain ⟨names, hn⟩ := hsimple a (by simp) n hm
          obtain ⟨r', t, hr', hft, hid, hg⟩ := G.find' hi (by rw [hn]; rfl)
          rw [hn] at hr'; cases hr'
          obtain ⟨tab, htab, hdt, _⟩ := rootDecl_enum hg.decl
          cases hw with
          | named hf' hw =>
            rw [hft] at hf'; cases hf'
            rw [hdt] at hw
            cases hw with
            | enum hw => exact ⟨.named n, hm, names, tab, _, hn, htab, hw, rfl⟩
      split at h
      · next ho =>
        rw [if_pos ho]
        cases h with
        | none => exact .inl rfl
        | some h => exact .inr ⟨_, rfl, key _ h⟩
      · next ho => rw [if_neg ho]; exact key _ h

theorem sizeOf_append_left {α : Type} [SizeOf α] (a b : List α) : sizeOf a ≤ sizeOf (a ++ b) := by
  induction a with
  | nil => cases b with
    | nil => simp
    | cons c b => simp only [List.nil_append, List.nil.sizeOf_spec, List.cons.sizeOf_spec]; omega
  | cons c a ih => simp only [List.cons_append, List.cons.sizeOf_spec]; omega

/-- A value of the generated type is a value of the schema type. -/
theorem hasTy_tv (G : Generated x S P)
    (hsimple : ∀ n d, S.get n = some (.element d) → ∀ a ∈ d.attributes, AttrSimple S a) (k : Nat) :
    TypedIn x S P k (TV x S k) := by
  induction k with
  | zero =>
    intro n i v _ _ hs
    cases v <;> simp at hs
  | succ k ih =>
    intro n i v hn hi hs h
    obtain ⟨r, t, hr, hft, hid, hg⟩ := G.find' hi hn
    refine ⟨r, hr, ?_⟩
    have hd := hg.decl
    cases h with
    | named hf h =>
      rw [hft] at hf; cases hf
      cases r with
      | leaf d =>
        simp only [rootDecl, Res.bind_eq_ok] at hd
        obtain ⟨ty, hty, hd⟩ := hd
        rw [← Res.ok.inj hd] at h
        cases h with
        | @newtype _ _ w h =>
          simp only [Val.newtype.sizeOf_spec] at hs
          exact ⟨w, rfl, vval_of_typed ih hty (fun m hm => G.closedAt hr (by simp [Root.contents]) hm) (by omega) h⟩
      | enum names =>
        obtain ⟨tab, htab, hdt, _⟩ := rootDecl_enum hd
        rw [hdt] at h
        cases h with
        | enum h => exact ⟨tab, _, htab, h, rfl⟩
      | element d =>
        simp only [rootDecl, Res.bind_eq_ok] at hd
        obtain ⟨cs, hcs, as, has, hd⟩ := hd
        rw [← Res.ok.inj hd] at h
        cases h with
        | @struct _ fs h =>
          obtain ⟨fc, fa, rfl, h1, h2⟩ := hasFields_split h
          refine ⟨fc, fa, rfl, ?_, vattrs_of_typed G _ has (hsimple n d hr) h2⟩
          have hsz : sizeOf fc ≤ k := by
            have := sizeOf_append_left fc fa
            simp only [Val.struct.sizeOf_spec] at hs
            omega
          unfold VContent
          cases hdc : d.content with
          | none => rw [hdc] at hcs; cases hcs; cases h1; rfl
          | some ec =>
            cases ec with
            | leaf ln ld =>
              rw [hdc] at hcs
              simp only [contentDecl, Res.bind_eq_ok] at hcs
              obtain ⟨f, hf, ty, hty, hcs⟩ := hcs
              rw [← Res.ok.inj hcs] at h1
              cases h1 with
              | @cons _ _ v _ fs' h1 h1' =>
                cases h1'
                simp only [List.cons.sizeOf_spec, Prod.mk.sizeOf_spec] at hsz
                exact ⟨f, v, rfl, hf, vval_of_typed ih hty
                  (fun m hm => G.closedAt hr (by simp [Root.contents, hdc]) hm) (by omega) h1⟩
            | leaves ls =>
              rw [hdc] at hcs
              refine vleaves_of_typed ih ls hcs (fun l hl m hm => G.closedAt hr ?_ hm) hsz h1
              simp only [Root.contents, hdc, List.mem_append, List.mem_map]
              exact .inl ⟨l, hl, rfl⟩
      | choice vs b dd =>
        simp only [rootDecl, Res.bind_eq_ok] at hd
        obtain ⟨ds, hds, hd⟩ := hd
        rw [← Res.ok.inj hd] at h
        cases h with
        | @choice _ vn ty w hm h =>
          obtain ⟨l, hl, hp⟩ := (mapRes_ok hds).2 _ hm
          simp only [variantDecl, Leaf.isVec_eq, Res.bind_eq_ok] at hp
          obtain ⟨i', hi', ty', hty', hp⟩ := hp
          cases hp
          simp only [Val.variant.sizeOf_spec] at hs
          refine ⟨l, hl, _, w, hi', rfl, vmany_of_typed ih hty' (fun m hm => G.closedAt hr ?_ hm) (by omega) h⟩
          simp only [Root.contents, List.mem_map]
          exact ⟨l, hl, rfl⟩

/-! ## Transfer -/

section
variable {m : Mode} {T T' T'' : Name → Val → Elem → List Elem → Prop}

/-- If a value has a representation without empty groups (`T`), its written representations (`T'`) have none. -/
def Transfers (T T' T'' : Name → Val → Elem → List Elem → Prop) : Prop :=
  ∀ n v e es e' es', T n v e es → T' n v e' es' → T'' n v e' es' ∧ (es ≠ [] → es' ≠ [])

theorem cat_ne {u : Prop} {es1 es2 es : List Elem} (h : Cat u m es1 es2 es) (hne : es ≠ []) : es1 ≠ [] ∨ es2 ≠ [] := by
  rcases m with ⟨_ | _, _⟩
  · obtain ⟨h, _⟩ := h
    cases h with
    | nil => exact absurd rfl hne
    | left _ => exact .inl (by simp)
    | right _ => exact .inr (by simp)
  · have h : es = es1 ++ es2 := h
    subst h
    cases es1
    · exact .inr (by simpa using hne)
    · exact .inl (by simp)

theorem rval_transfer (hT : Transfers T T' T'') {c : LeafContent} {v : Val} {e e' : Elem} {es es' : List Elem}
    (h : RVal x m S T c v e es) (h' : RVal x .written S T' c v e' es') :
    RVal x .exact S T'' c v e' es' ∧ (es ≠ [] → es' ≠ []) := by
  obtain ⟨c1, hm, h⟩ := h
  obtain ⟨c2, hm', h'⟩ := h'
  cases hm.functional hm'
  cases c1 with
  | literal t =>
    obtain ⟨_, _, _, rfl⟩ := h
    exact ⟨⟨.literal t, hm, h'⟩, by simp⟩
  | fixed f =>
    obtain ⟨_, _, rfl⟩ := h
    exact ⟨⟨.fixed f, hm, h'⟩, by simp⟩
  | named n =>
    obtain ⟨h1, h2⟩ := hT n v e es e' es' h h'
    exact ⟨⟨.named n, hm, h1⟩, h2⟩

theorem ritem_transfer (hT : Transfers T T' T'') {l : Leaf} {v : Val} {e e' : Elem} {es es' : List Elem}
    (h : RItem x m S T l v e es) (h' : RItem x .written S T' l v e' es') :
    RItem x .exact S T'' l v e' es' ∧ (es ≠ [] → es' ≠ []) := by
  unfold RItem at h h' ⊢
  split at h
  · next hv => rw [if_pos hv] at h' ⊢; exact rval_transfer hT h h'
  · next hv =>
    rw [if_neg hv] at h' ⊢
    obtain ⟨ch, rfl, _, es1, _, _, _, h⟩ := h
    obtain ⟨ch', rfl, hq', es1', junk', hcat', hj', h'⟩ := h'
    exact ⟨⟨ch', rfl, hq', es1', junk', hcat', hj', (rval_transfer hT h h').1⟩, by simp⟩

theorem rmany_transfer (hm : m.ne = true) (hT : Transfers T T' T'') {l : Leaf} {vs : List Val} {e e' : Elem} {es es' : List Elem}
    (h : RMany x m S T l vs e es) (h' : RMany x .written S T' l vs e' es') :
    RMany x .exact S T'' l vs e' es' ∧ (es ≠ [] → es' ≠ []) := by
  induction vs generalizing es es' with
  | nil => have h : es = [] := h; exact ⟨h', fun hh => absurd h hh⟩
  | cons v vs ih =>
    obtain ⟨es1, es2, h1, hne, h2, hcat⟩ := h
    obtain ⟨es1', es2', h1', _, h2', hcat'⟩ := h'
    obtain ⟨k1, k2⟩ := ritem_transfer hT h1 h1'
    have hne' := k2 (hne hm)
    refine ⟨⟨es1', es2', k1, fun _ => hne', (ih h2 h2').1, hcat'⟩, fun _ => ?_⟩
    have hcat' : es' = es1' ++ es2' := hcat'
    rw [hcat']
    simp [hne']

theorem ne_written (hm : m.ne = true) : m ≠ .written := by
  rintro rfl; cases hm

theorem rocc_transfer (hm : m.ne = true) (hT : Transfers T T' T'') {l : Leaf} {v : Val} {e e' : Elem} {es es' : List Elem}
    (h : ROcc x m S T l v e es) (h' : ROcc x .written S T' l v e' es') :
    ROcc x .exact S T'' l v e' es' ∧ (es ≠ [] → es' ≠ []) := by
  unfold ROcc at h h' ⊢
  cases hv : l.repeats <;> cases ho : l.mayMiss <;>
    simp only [hv, ho, if_true, if_false, Bool.false_eq_true] at h h' ⊢
  · exact ritem_transfer hT h h'
  · rcases h with ⟨rfl, rfl⟩ | ⟨w, rfl, h, hne⟩
    · rcases h' with ⟨_, h'⟩ | ⟨w, hw, _⟩
      · exact ⟨.inl ⟨rfl, h'⟩, by simp⟩
      · cases hw
    · rcases h' with ⟨hw, _⟩ | ⟨w', hw, h', _⟩
      · cases hw
      · cases hw
        obtain ⟨k1, k2⟩ := ritem_transfer hT h h'
        exact ⟨.inr ⟨w, rfl, k1, fun _ => k2 (hne hm)⟩, k2⟩
  · obtain ⟨vs, h, rfl⟩ := h
    obtain ⟨vs', h', hh⟩ := h'
    cases hh
    obtain ⟨k1, k2⟩ := rmany_transfer hm hT h h'
    exact ⟨⟨vs, k1, rfl⟩, k2⟩
  · obtain ⟨vs, h, ⟨rfl, rfl⟩ | ⟨hne, rfl⟩⟩ := h
    · obtain ⟨vs', h', ⟨rfl, _⟩ | ⟨_, hh⟩⟩ := h'
      · obtain ⟨k1, k2⟩ := rmany_transfer hm hT h h'
        exact ⟨⟨[], k1, .inl ⟨rfl, rfl⟩⟩, k2⟩
      · cases hh
    · obtain ⟨vs', h', ⟨_, hh⟩ | ⟨_, hh⟩⟩ := h'
      · cases hh
      · cases hh
        obtain ⟨k1, k2⟩ := rmany_transfer hm hT h h'
        exact ⟨⟨vs, k1, .inr ⟨fun _ => hne (ne_written hm), rfl⟩⟩, k2⟩

theorem rleaves_transfer (hm : m.ne = true) (hT : Transfers T T' T'') (ls : List Leaf) {fs : List (Str × Val)} {e e' : Elem}
    {es es' : List Elem} (h : RLeaves x m S T ls fs e es) (h' : RLeaves x .written S T' ls fs e' es') :
    RLeaves x .exact S T'' ls fs e' es' ∧ (es ≠ [] → es' ≠ []) := by
  induction ls generalizing fs es es' with
  | nil => obtain ⟨_, rfl⟩ := h; exact ⟨h', by simp⟩
  | cons l ls ih =>
    obtain ⟨f, v, fs', es1, es2, rfl, hf, h1, h2, hcat⟩ := h
    obtain ⟨f', v', fs'', es1', es2', hh, hf', h1', h2', hcat'⟩ := h'
    cases hh
    obtain ⟨k1, k2⟩ := rocc_transfer hm hT h1 h1'
    obtain ⟨k3, k4⟩ := ih h2 h2'
    refine ⟨⟨f, v, fs', es1', es2', rfl, hf', k1, k3, hcat'⟩, fun hne => ?_⟩
    have hcat' : es' = es1' ++ es2' := hcat'
    rw [hcat']
    rcases cat_ne hcat hne with h | h
    · simp [k2 h]
    · simp [k4 h]

theorem rleaves_length (ls : List Leaf) {fs : List (Str × Val)} {e : Elem}
    {es : List Elem} (h : RLeaves x m S T ls fs e es) : fs.length = ls.length := by
  induction ls generalizing fs es with
  | nil => obtain ⟨rfl, _⟩ := h; rfl
  | cons l ls ih =>
    obtain ⟨f, v, fs', es1, es2, rfl, hf, h1, h2, hcat⟩ := h
    simp [ih h2]

/-- The number of content fields. -/
def contentLen : Option ElementContent → Nat
  | none => 0
  | some (.leaf _ _) => 1
  | some (.leaves ls) => ls.length

theorem rcontent_length {c : Option ElementContent} {fs : List (Str × Val)} {e : Elem}
    {es : List Elem} (h : RContent x m S T c fs e es) : fs.length = contentLen c := by
  unfold RContent at h
  rcases c with _ | ⟨_, _⟩ | ls
  · obtain ⟨rfl, _⟩ := h; rfl
  · obtain ⟨f, v, rfl, _⟩ := h; rfl
  · obtain ⟨_, h, _⟩ := h; exact rleaves_length ls h

theorem rcontent_transfer (hm : m.ne = true) (hT : Transfers T T' T'') {c : Option ElementContent} {fs : List (Str × Val)}
    {e e' : Elem} {es es' : List Elem} (h : RContent x m S T c fs e es) (h' : RContent x .written S T' c fs e' es') :
    RContent x .exact S T'' c fs e' es' ∧ (es ≠ [] → es' ≠ []) := by
  unfold RContent at h h' ⊢
  rcases c with _ | ⟨_, _⟩ | ls
  · obtain ⟨_, rfl⟩ := h; exact ⟨h', by simp⟩
  · obtain ⟨f, v, rfl, hf, h⟩ := h
    obtain ⟨f', v', hh, hf', h'⟩ := h'
    cases hh
    obtain ⟨k1, k2⟩ := rval_transfer hT h h'
    exact ⟨⟨f, v, rfl, hf, k1⟩, k2⟩
  · obtain ⟨es0, h, ha⟩ := h
    obtain ⟨es0', h', ha'⟩ := h'
    obtain ⟨k1, k2⟩ := rleaves_transfer hm hT ls h h'
    exact ⟨⟨es0', k1, ha'⟩, fun hn => mt ha'.nil_iff.1 (k2 (mt ha.nil_iff.2 hn))⟩

theorem rattrs_written (as : List Attribute) {fs : List (Str × Val)} {e : Elem} (h : RAttrs x .written S as fs e) :
    RAttrs x .exact S as fs e := by
  induction as generalizing fs with
  | nil => exact h
  | cons a as ih =>
    obtain ⟨f, v, fs', rfl, hf, h, hv⟩ := h
    exact ⟨f, v, fs', rfl, hf, ih h, hv⟩

theorem rvariant_transfer (hm : m.ne = true) (hT : Transfers T T' T'') {l : Leaf} {v : Val} {e e' : Elem} {es es' : List Elem}
    (h : RVariant x m S T l v e es) (h' : RVariant x .written S T' l v e' es') :
    RVariant x .exact S T'' l v e' es' ∧ (es ≠ [] → es' ≠ []) := by
  unfold RVariant at h h' ⊢
  cases hvt : l.isVirtual <;> cases hvec : l.repeats <;>
    simp only [hvt, hvec, if_true, if_false, Bool.false_eq_true] at h h' ⊢
  · exact ritem_transfer hT h h'
  · obtain ⟨vs, rfl, hne, h⟩ := h
    obtain ⟨vs', hh, _, h'⟩ := h'
    cases hh
    obtain ⟨k1, k2⟩ := rmany_transfer hm hT h h'
    exact ⟨⟨vs, rfl, fun _ => hne (ne_written hm), k1⟩, k2⟩
  all_goals
    obtain ⟨k1, k2⟩ := ritem_transfer hT h.1 h'.1
    exact ⟨⟨k1, fun _ => k2 (h.2 hm)⟩, k2⟩

/-- No two alternatives of a choice get the same variant. -/
def VariantsDistinct (x : Ext) (S : SchemaContext) : Prop :=
  ∀ n vs b d, S.get n = some (.choice vs b d) → (vs.map (fun l => pascalIdent x l.name)).Nodup

end

theorem nodup_map_inj {α β : Type} {f : α → β} {as : List α} (hn : (as.map f).Nodup) {a b : α} (ha : a ∈ as) (hb : b ∈ as)
    (h : f a = f b) : a = b := by
  induction as with
  | nil => simp at ha
  | cons c as ih =>
    simp only [List.map_cons, List.nodup_cons, List.mem_map, not_exists, not_and] at hn
    rcases List.mem_cons.1 ha with ha' | ha' <;> rcases List.mem_cons.1 hb with hb' | hb'
    · rw [ha', hb']
    · subst ha'; exact absurd h.symm (hn.1 b hb')
    · subst hb'; exact absurd h (hn.1 a ha')
    · exact ih hn.2 ha' hb'

theorem trepr_transfer {m : Mode} (hm : m.ne = true) (hd : VariantsDistinct x S) (k k' : Nat) :
    Transfers (TRepr x m S k) (TRepr x .written S k') (TRepr x .exact S k') := by
  induction k' generalizing k with
  | zero => intro n v e es e' es' _ h; cases h
  | succ k' ih =>
    intro n v e es e' es' h h'
    cases k with
    | zero => cases h
    | succ k =>
      obtain ⟨r, hr, h⟩ := h
      obtain ⟨r', hr', h'⟩ := h'
      rw [hr] at hr'; cases hr'
      suffices RRoot x .exact S (TRepr x .exact S k') r v e' es' ∧ (es ≠ [] → es' ≠ []) from
        ⟨⟨r, hr, this.1⟩, this.2⟩
      cases r with
      | leaf d =>
        obtain ⟨w, rfl, h⟩ := h
        obtain ⟨w', hh, h'⟩ := h'
        cases hh
        obtain ⟨k1, k2⟩ := rval_transfer (ih k) h h'
        exact ⟨⟨w, rfl, k1⟩, k2⟩
      | enum names =>
        obtain ⟨_, _, _, _, _, _, _, rfl⟩ := h
        exact ⟨h', by simp⟩
      | element d =>
        obtain ⟨fc, fa, rfl, hc, ha⟩ := h
        obtain ⟨fc', fa', hh, hc', ha'⟩ := h'
        have hh := Val.struct.inj hh
        obtain ⟨rfl, rfl⟩ := List.append_inj hh (by rw [rcontent_length hc, rcontent_length hc'])
        obtain ⟨k1, k2⟩ := rcontent_transfer hm (ih k) hc hc'
        exact ⟨⟨fc, fa, rfl, k1, rattrs_written _ ha'⟩, k2⟩
      | choice vs b dd =>
        obtain ⟨l, hl, i, w, hi, rfl, hv⟩ := h
        obtain ⟨l', hl', i', w', hi', hh, hv'⟩ := h'
        cases hh
        cases nodup_map_inj (hd n vs b dd hr) hl hl' (hi.trans hi'.symm)
        obtain ⟨k1, k2⟩ := rvariant_transfer hm (ih k) hv hv'
        exact ⟨⟨l, hl, i, w, hi, rfl, k1⟩, k2⟩

/-! ## Consequences of the condition on the schema -/

theorem writeOK_variantsDistinct (hok : writeOK x S W = true) : VariantsDistinct x S := by
  obtain ⟨N, _, _, hroot⟩ := writeOK_ok hok
  intro n vs b d hg
  have := hroot n _ hg
  simp only [rootOK, Bool.and_eq_true, decide_eq_true_eq] at this
  exact this.2.1.2

theorem writeOK_variantsTyped (hok : writeOK x S W = true) : VariantsTyped S := by
  obtain ⟨N, _, _, hroot⟩ := writeOK_ok hok
  intro n vs b d hg l hl ⟨h1, h2⟩
  have := hroot n _ hg
  simp only [rootOK, Bool.and_eq_true, decide_eq_true_eq] at this
  have := List.all_eq_true.1 this.2.1.1 l hl
  simp [variantOK, h1, h2] at this

theorem writeOK_attrSimple (hok : writeOK x S W = true) {n : Name} {d : ElementDef} (hg : S.get n = some (.element d)) :
    ∀ a ∈ d.attributes, AttrSimple S a := by
  obtain ⟨N, _, _, hroot⟩ := writeOK_ok hok
  intro a ha m hm
  have := hroot n _ hg
  simp only [rootOK, Bool.and_eq_true, decide_eq_true_eq] at this
  have := List.all_eq_true.1 this.2.1.1.1 a ha
  simp only [attrOK, Bool.and_eq_true] at this
  have := this.2
  cases hc : a.content with
  | literal t => rw [hc] at hm; cases hm
  | fixed f => rw [hc] at hm; cases hm
  | named q =>
    rw [hc] at this hm
    simp only at this
    split at this
    · next h => cases hm.functional (inlined_means h)
    · next n' h =>
      cases hm.functional (inlined_means h)
      unfold isEnum at this
      split at this
      · next names h => exact ⟨names, h⟩
      · cases this
    · cases this

end Xsd
