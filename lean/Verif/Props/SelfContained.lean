import Verif.Props.GenerateAll
import Verif.Props.GrammarSample
/-!
# The generated code for a name is self-contained (C47)
-/
namespace Xsd

/-! ## The types a generated type refers to -/

/-- The identifiers in a type. -/
def Ty.refs : Ty → List Str
  | .prim _ => []
  | .unit => []
  | .named i => [i]
  | .option t => t.refs
  | .vec t => t.refs

/-- The types that are read. -/
def ValRead.refs : ValRead → List Str
  | .call i => [i]
  | _ => []

/-- The types that are read or looked ahead for. -/
def LeafRead.refs : LeafRead → List Str
  | .plain v => v.refs
  | .whileLookahead i v _ => i :: v.refs
  | .ifLookahead i v => i :: v.refs
  | .whileNext _ v _ => v.refs
  | .ifNext _ v => v.refs
  | .tryChild _ v => v.refs
  | .tryNext _ v => v.refs

/-- The types an attribute is read as. -/
def StrRead.refs : StrRead → List Str
  | .fromStr t => t.refs
  | _ => []

/-- The types in the content. -/
def ContentRead.refs : ContentRead → List Str
  | .nothing => []
  | .single _ v => v.refs
  | .leaves ls => ls.flatMap (fun p => p.2.refs)

/-- The types in a variant. -/
def VarRead.refs : VarRead → List Str
  | .virt i v => i :: v.refs
  | .vec _ v => v.refs
  | .single _ v => v.refs

/-- The types in `from_xml_node`. -/
def FromBody.refs : FromBody → List Str
  | .leaf v => v.refs
  | .enumText => []
  | .element c as => c.refs ++ as.flatMap (fun a => a.inner.refs)
  | .choice vs => vs.flatMap (fun p => p.2.refs)

/-- The types in a lookahead. -/
def Look.refs : Look → List Str
  | .always => []
  | .checks cs => cs.flatMap (fun c => match c with | .call i => [i] | .peek _ => [])

/-- The types that are written. -/
def ValWrite.refs : ValWrite → List Str
  | .call i => [i]
  | _ => []

/-- The types an attribute is shown as. -/
def AttrShow.refs : AttrShow → List Str
  | .display t => t.refs
  | _ => []

/-- The types in the content. -/
def ContentWrite.refs : ContentWrite → List Str
  | .nothing => []
  | .single _ v => v.refs
  | .leaves ls => ls.flatMap (fun l => l.inner.refs)

/-- The types in `to_xml_writer`. -/
def ToBody.refs : ToBody → List Str
  | .leaf v _ => v.refs
  | .enumText => []
  | .element as _ c => as.flatMap (fun a => a.inner.refs) ++ c.refs
  | .choice vs _ => vs.flatMap (fun v => v.inner.refs)

/-- The types in a declaration. -/
def Decl.refs : Decl → List Str
  | .newtype t _ => t.refs
  | .enum _ => []
  | .struct fs => fs.flatMap (fun p => p.2.refs)
  | .choice vs => vs.flatMap (fun p => p.2.refs)

/-- All types that the code generated for a name refers to. -/
def TypeDef.refs (d : TypeDef) : List Str := d.decl.refs ++ d.toXml.refs ++ d.fromXml.refs ++ d.look.refs

/-! ## They come from the references in the schema -/

/-- A set of names that contains all names its definitions refer to. -/
def ClosedSet (S : SchemaContext) (A : Name → Prop) : Prop := ∀ n r, A n → S.get n = some r → ∀ m ∈ r.refs, A m

/-- The identifier is that of a name in the set, as a type or in a lookahead. -/
def IdentOf (x : Ext) (A : Name → Prop) (i : Str) : Prop := ∃ m, A m ∧ (typeIdent x m = .ok i ∨ pascalIdent x m = .ok i)

section
variable {x : Ext} {S : SchemaContext} {A : Name → Prop} (hA : ClosedSet S A)
include hA

theorem inlineAlias_closed : ∀ {k : Nat} {c c' : LeafContent}, (∀ m ∈ c.refs, A m) → inlineAlias S k c = .ok c' → ∀ m ∈ c'.refs, A m
  | 0, .literal t, c', h, hi => by cases hi; exact h
  | 0, .fixed t, c', h, hi => by cases hi; exact h
  | 0, .named n, c', h, hi => by cases hi
  | k + 1, .literal t, c', h, hi => by cases hi; exact h
  | k + 1, .fixed t, c', h, hi => by cases hi; exact h
  | k + 1, .named n, c', h, hi => by
    unfold inlineAlias at hi
    split at hi
    · next d hd => exact inlineAlias_closed (fun m hm => hA n _ (h n (.head _)) hd m hm) hi
    · cases hi; exact h

theorem contentTy_closed {c : LeafContent} (h : ∀ m ∈ c.refs, A m) {t : Ty} (ht : contentTy x S c = .ok t) :
    ∀ i ∈ t.refs, IdentOf x A i := by
  obtain ⟨c', h1, h2⟩ := Res.bind_eq_ok.1 ht
  have hc := inlineAlias_closed hA h h1
  cases c' with
  | literal t => cases h2; nofun
  | fixed s => cases h2; nofun
  | named n =>
    obtain ⟨i, hi, h2⟩ := Res.bind_eq_ok.1 h2
    cases h2
    intro j hj
    cases List.mem_singleton.1 hj
    exact ⟨n, hc n (.head _), .inl hi⟩

theorem contentWrite_closed {c : LeafContent} (h : ∀ m ∈ c.refs, A m) {t : ValWrite} (ht : contentWrite x S c = .ok t) :
    ∀ i ∈ t.refs, IdentOf x A i := by
  obtain ⟨c', h1, h2⟩ := Res.bind_eq_ok.1 ht
  have hc := inlineAlias_closed hA h h1
  cases c' with
  | literal t => cases h2; nofun
  | fixed s => cases h2; nofun
  | named n =>
    obtain ⟨i, hi, h2⟩ := Res.bind_eq_ok.1 h2
    cases h2
    intro j hj
    cases List.mem_singleton.1 hj
    exact ⟨n, hc n (.head _), .inl hi⟩

theorem contentRead_closed {c : LeafContent} (h : ∀ m ∈ c.refs, A m) {t : ValRead} (ht : contentRead x S c = .ok t) :
    ∀ i ∈ t.refs, IdentOf x A i := by
  obtain ⟨c', h1, h2⟩ := Res.bind_eq_ok.1 ht
  have hc := inlineAlias_closed hA h h1
  cases c' with
  | literal t => cases h2; nofun
  | fixed s => cases h2; nofun
  | named n =>
    obtain ⟨i, hi, h2⟩ := Res.bind_eq_ok.1 h2
    cases h2
    intro j hj
    cases List.mem_singleton.1 hj
    exact ⟨n, hc n (.head _), .inl hi⟩

theorem mapRes_refs {α β : Type} {f : α → Res Str β} {ra : α → List Name} {rb : β → List Str}
    (hf : ∀ a b, (∀ m ∈ ra a, A m) → f a = .ok b → ∀ i ∈ rb b, IdentOf x A i) :
    ∀ {l : List α} {bs : List β}, (∀ m ∈ l.flatMap ra, A m) → mapRes f l = .ok bs → ∀ i ∈ bs.flatMap rb, IdentOf x A i
  | [], bs, _, h => by cases h; nofun
  | a :: l, bs, hl, h => by
    obtain ⟨b, h1, h⟩ := Res.bind_eq_ok.1 h
    obtain ⟨cs, h2, h⟩ := Res.bind_eq_ok.1 h
    cases h
    rw [List.flatMap_cons] at hl ⊢
    intro i hi
    rcases List.mem_append.1 hi with hi | hi
    · exact hf a b (fun m hm => hl m (List.mem_append_left _ hm)) h1 i hi
    · exact mapRes_refs hf (fun m hm => hl m (List.mem_append_right _ hm)) h2 i hi

theorem leafDecl_closed (l : Leaf) (p : Str × Ty) (h : ∀ m ∈ l.definition.content.refs, A m) (hp : leafDecl x S l = .ok p) :
    ∀ i ∈ p.2.refs, IdentOf x A i := by
  obtain ⟨f, _, hp⟩ := Res.bind_eq_ok.1 hp
  obtain ⟨t, ht, hp⟩ := Res.bind_eq_ok.1 hp
  cases hp
  have := contentTy_closed hA h ht
  dsimp only
  split <;> split <;> exact this

theorem attrDecl_closed (l : Attribute) (p : Str × Ty) (h : ∀ m ∈ l.content.refs, A m) (hp : attrDecl x S l = .ok p) :
    ∀ i ∈ p.2.refs, IdentOf x A i := by
  obtain ⟨f, _, hp⟩ := Res.bind_eq_ok.1 hp
  obtain ⟨t, ht, hp⟩ := Res.bind_eq_ok.1 hp
  cases hp
  have := contentTy_closed hA h ht
  dsimp only
  split <;> exact this

theorem variantDecl_closed (l : Leaf) (p : Str × Ty) (h : ∀ m ∈ l.definition.content.refs, A m) (hp : variantDecl x S l = .ok p) :
    ∀ i ∈ p.2.refs, IdentOf x A i := by
  obtain ⟨f, _, hp⟩ := Res.bind_eq_ok.1 hp
  obtain ⟨t, ht, hp⟩ := Res.bind_eq_ok.1 hp
  cases hp
  have := contentTy_closed hA h ht
  dsimp only
  split <;> exact this

theorem leafWrite_closed (l : Leaf) (p : LeafWrite) (h : ∀ m ∈ l.definition.content.refs, A m) (hp : leafWrite x S l = .ok p) :
    ∀ i ∈ p.inner.refs, IdentOf x A i := by
  obtain ⟨f, _, hp⟩ := Res.bind_eq_ok.1 hp
  obtain ⟨nm, _, hp⟩ := Res.bind_eq_ok.1 hp
  obtain ⟨v, hv, hp⟩ := Res.bind_eq_ok.1 hp
  have := contentWrite_closed hA h hv
  have key : p.inner = v := by
    dsimp only at hp
    split at hp
    · cases hp; rfl
    · split at hp
      · obtain ⟨r, _, hp⟩ := Res.bind_eq_ok.1 hp
        split at hp
        · split at hp <;> (cases hp; rfl)
        · cases hp; rfl
      · cases hp; rfl
  rw [key]
  exact this

theorem variantWrite_closed (l : Leaf) (p : VarWrite) (h : ∀ m ∈ l.definition.content.refs, A m) (hp : variantWrite x S l = .ok p) :
    ∀ i ∈ p.inner.refs, IdentOf x A i := by
  obtain ⟨f, _, hp⟩ := Res.bind_eq_ok.1 hp
  obtain ⟨v, hv, hp⟩ := Res.bind_eq_ok.1 hp
  cases hp
  exact contentWrite_closed hA h hv

theorem attrWrite_closed (l : Attribute) (p : AttrWrite) (h : ∀ m ∈ l.content.refs, A m) (hp : attrWrite x S l = .ok p) :
    ∀ i ∈ p.inner.refs, IdentOf x A i := by
  obtain ⟨f, _, hp⟩ := Res.bind_eq_ok.1 hp
  obtain ⟨nm, _, hp⟩ := Res.bind_eq_ok.1 hp
  dsimp only at hp
  split at hp
  · cases hp; nofun
  · obtain ⟨t, ht, hp⟩ := Res.bind_eq_ok.1 hp
    cases hp
    exact contentTy_closed hA h ht
  · cases hp; nofun

theorem attrRead_closed (l : Attribute) (p : AttrRead) (h : ∀ m ∈ l.content.refs, A m) (hp : attrRead x S l = .ok p) :
    ∀ i ∈ p.inner.refs, IdentOf x A i := by
  obtain ⟨f, _, hp⟩ := Res.bind_eq_ok.1 hp
  dsimp only at hp
  split at hp
  · cases hp; nofun
  · obtain ⟨t, ht, hp⟩ := Res.bind_eq_ok.1 hp
    cases hp
    exact contentTy_closed hA h ht
  · cases hp; nofun

theorem leafRead_closed (l : Leaf) (p : Str × LeafRead) (h : ∀ m ∈ l.definition.content.refs, A m) (hp : leafRead x S l = .ok p) :
    ∀ i ∈ p.2.refs, IdentOf x A i := by
  obtain ⟨f, _, hp⟩ := Res.bind_eq_ok.1 hp
  obtain ⟨q, _, hp⟩ := Res.bind_eq_ok.1 hp
  obtain ⟨v, hv, hp⟩ := Res.bind_eq_ok.1 hp
  have hv := contentRead_closed hA h hv
  have virt : ∀ {n i}, l.definition.content = .named n → pascalIdent x n = .ok i → ∀ j ∈ i :: v.refs, IdentOf x A j := by
    intro n i hn hi j hj
    rcases List.mem_cons.1 hj with rfl | hj
    · exact ⟨n, h n (by rw [hn]; exact .head _), .inr hi⟩
    · exact hv j hj
  split at hp
  · split at hp
    · split at hp
      · next n hn =>
        obtain ⟨i, hi, hp⟩ := Res.bind_eq_ok.1 hp
        cases hp
        exact virt hn hi
      · cases hp
    · split at hp
      · split at hp
        · next n hn =>
          obtain ⟨i, hi, hp⟩ := Res.bind_eq_ok.1 hp
          cases hp
          exact virt hn hi
        · cases hp
      · cases hp; exact hv
  · split at hp
    · cases hp; exact hv
    · split at hp
      · cases hp; exact hv
      · split at hp
        · cases hp; exact hv
        · cases hp; exact hv

theorem variantRead_closed (l : Leaf) (p : Str × VarRead) (h : ∀ m ∈ l.definition.content.refs, A m) (hp : variantRead x S l = .ok p) :
    ∀ i ∈ p.2.refs, IdentOf x A i := by
  obtain ⟨f, _, hp⟩ := Res.bind_eq_ok.1 hp
  obtain ⟨v, hv, hp⟩ := Res.bind_eq_ok.1 hp
  obtain ⟨q, _, hp⟩ := Res.bind_eq_ok.1 hp
  have hv := contentRead_closed hA h hv
  split at hp
  · split at hp
    · next n hn =>
      obtain ⟨i, hi, hp⟩ := Res.bind_eq_ok.1 hp
      cases hp
      intro j hj
      rcases List.mem_cons.1 hj with rfl | hj
      · exact ⟨n, h n (by rw [hn]; exact .head _), .inr hi⟩
      · exact hv j hj
    · cases hp
  · split at hp
    · cases hp; exact hv
    · cases hp; exact hv

theorem leafCheck_closed (l : Leaf) (c : Check) (h : ∀ m ∈ l.definition.content.refs, A m) (hp : leafCheck x S l = .ok c) :
    ∀ i ∈ (match c with | .call i => [i] | .peek _ => [] : List Str), IdentOf x A i := by
  unfold leafCheck at hp
  simp only [SchemaContext.qname_eq] at hp
  split at hp
  · split at hp
    · next n hn =>
      obtain ⟨i, hi, hp⟩ := Res.bind_eq_ok.1 hp
      cases hp
      intro j hj
      cases List.mem_singleton.1 hj
      exact ⟨n, h n (by rw [hn]; exact .head _), .inr hi⟩
    · cases hp
  · obtain ⟨i, hi, hp⟩ := Res.bind_eq_ok.1 hp
    cases hp
    nofun

omit hA in
theorem mem_lookLeaves {l : Leaf} : ∀ {ls : List Leaf}, l ∈ lookLeaves ls → l ∈ ls
  | [], h => by cases h
  | a :: ls, h => by
    unfold lookLeaves at h
    split at h
    · rcases List.mem_cons.1 h with rfl | h
      · exact .head _
      · exact .tail _ (mem_lookLeaves h)
    · rw [List.mem_singleton.1 h]; exact .head _

theorem rootDecl_closed {r : Root} (h : ∀ m ∈ r.refs, A m) {d : Decl} (hd : rootDecl x S r = .ok d) : ∀ i ∈ d.refs, IdentOf x A i := by
  cases r with
  | leaf l =>
    obtain ⟨t, ht, hd⟩ := Res.bind_eq_ok.1 hd
    cases hd
    exact contentTy_closed hA h ht
  | enum ns =>
    obtain ⟨t, ht, hd⟩ := Res.bind_eq_ok.1 hd
    obtain ⟨t, ht, hd⟩ := Res.bind_eq_ok.1 hd
    cases hd
    nofun
  | element e =>
    obtain ⟨cs, hc, hd⟩ := Res.bind_eq_ok.1 hd
    obtain ⟨as, ha, hd⟩ := Res.bind_eq_ok.1 hd
    cases hd
    unfold Root.refs at h
    rw [List.forall_mem_append] at h
    intro i hi
    replace hi : i ∈ (cs ++ as).flatMap _ := hi
    rw [List.flatMap_append] at hi
    rcases List.mem_append.1 hi with hi | hi
    · match hcc : e.content with
      | none => rw [hcc] at hc; cases hc; cases hi
      | some (.leaf n dd) =>
        rw [hcc] at hc h
        obtain ⟨f, _, hc⟩ := Res.bind_eq_ok.1 hc
        obtain ⟨t, ht, hc⟩ := Res.bind_eq_ok.1 hc
        cases hc
        rw [List.flatMap_singleton] at hi
        exact contentTy_closed hA h.2 ht i hi
      | some (.leaves ls) =>
        rw [hcc] at hc h
        exact mapRes_refs hA (ra := fun l : Leaf => l.definition.content.refs) (leafDecl_closed hA) h.2 hc i hi
    · exact mapRes_refs hA (ra := fun l : Attribute => l.content.refs) (attrDecl_closed hA) h.1 ha i hi
  | choice vs v docs =>
    obtain ⟨cs, hc, hd⟩ := Res.bind_eq_ok.1 hd
    cases hd
    exact mapRes_refs hA (ra := fun l : Leaf => l.definition.content.refs) (variantDecl_closed hA) h hc

theorem rootWrite_closed {r : Root} (h : ∀ m ∈ r.refs, A m) {d : ToBody} (hd : rootWrite x S r = .ok d) : ∀ i ∈ d.refs, IdentOf x A i := by
  cases r with
  | leaf l =>
    obtain ⟨t, ht, hd⟩ := Res.bind_eq_ok.1 hd
    cases hd
    exact contentWrite_closed hA h ht
  | enum ns => cases hd; nofun
  | element e =>
    obtain ⟨as, ha, hd⟩ := Res.bind_eq_ok.1 hd
    obtain ⟨cs, hc, hd⟩ := Res.bind_eq_ok.1 hd
    cases hd
    unfold Root.refs at h
    rw [List.forall_mem_append] at h
    intro i hi
    rcases List.mem_append.1 hi with hi | hi
    · exact mapRes_refs hA (ra := fun l : Attribute => l.content.refs) (attrWrite_closed hA) h.1 ha i hi
    · match hcc : e.content with
      | none => rw [hcc] at hc; cases hc; cases hi
      | some (.leaf n dd) =>
        rw [hcc] at hc h
        obtain ⟨f, _, hc⟩ := Res.bind_eq_ok.1 hc
        obtain ⟨t, ht, hc⟩ := Res.bind_eq_ok.1 hc
        cases hc
        exact contentWrite_closed hA h.2 ht i hi
      | some (.leaves ls) =>
        rw [hcc] at hc h
        obtain ⟨t, ht, hc⟩ := Res.bind_eq_ok.1 hc
        cases hc
        exact mapRes_refs hA (ra := fun l : Leaf => l.definition.content.refs) (leafWrite_closed hA) h.2 ht i hi
  | choice vs v docs =>
    obtain ⟨cs, hc, hd⟩ := Res.bind_eq_ok.1 hd
    cases hd
    exact mapRes_refs hA (ra := fun l : Leaf => l.definition.content.refs) (variantWrite_closed hA) h hc

theorem rootRead_closed {r : Root} (h : ∀ m ∈ r.refs, A m) {d : FromBody} (hd : rootRead x S r = .ok d) : ∀ i ∈ d.refs, IdentOf x A i := by
  cases r with
  | leaf l =>
    obtain ⟨t, ht, hd⟩ := Res.bind_eq_ok.1 hd
    cases hd
    exact contentRead_closed hA h ht
  | enum ns => cases hd; nofun
  | element e =>
    obtain ⟨cs, hc, hd⟩ := Res.bind_eq_ok.1 hd
    obtain ⟨as, ha, hd⟩ := Res.bind_eq_ok.1 hd
    cases hd
    unfold Root.refs at h
    rw [List.forall_mem_append] at h
    intro i hi
    rcases List.mem_append.1 hi with hi | hi
    · match hcc : e.content with
      | none => rw [hcc] at hc; cases hc; cases hi
      | some (.leaf n dd) =>
        rw [hcc] at hc h
        obtain ⟨f, _, hc⟩ := Res.bind_eq_ok.1 hc
        obtain ⟨t, ht, hc⟩ := Res.bind_eq_ok.1 hc
        cases hc
        exact contentRead_closed hA h.2 ht i hi
      | some (.leaves ls) =>
        rw [hcc] at hc h
        obtain ⟨t, ht, hc⟩ := Res.bind_eq_ok.1 hc
        cases hc
        exact mapRes_refs hA (ra := fun l : Leaf => l.definition.content.refs) (leafRead_closed hA) h.2 ht i hi
    · exact mapRes_refs hA (ra := fun l : Attribute => l.content.refs) (attrRead_closed hA) h.1 ha i hi
  | choice vs v docs =>
    obtain ⟨cs, hc, hd⟩ := Res.bind_eq_ok.1 hd
    cases hd
    exact mapRes_refs hA (ra := fun l : Leaf => l.definition.content.refs) (variantRead_closed hA) h hc

theorem rootLook_closed {r : Root} (h : ∀ m ∈ r.refs, A m) {d : Look} (hd : rootLook x S r = .ok d) : ∀ i ∈ d.refs, IdentOf x A i := by
  cases r with
  | leaf l => cases hd; nofun
  | enum ns => cases hd; nofun
  | element e =>
    unfold Root.refs at h
    rw [List.forall_mem_append] at h
    match hcc : e.content with
    | none =>
      have hd : (match e.content with
        | some (.leaves ls) => (do
          let cs ← mapRes (leafCheck x S) (lookLeaves ls)
          pure (.checks cs))
        | _ => pure (.checks []) : Res Str Look) = .ok d := hd
      rw [hcc] at hd
      cases hd; nofun
    | some (.leaf n dd) =>
      have hd : (match e.content with
        | some (.leaves ls) => (do
          let cs ← mapRes (leafCheck x S) (lookLeaves ls)
          pure (.checks cs))
        | _ => pure (.checks []) : Res Str Look) = .ok d := hd
      rw [hcc] at hd
      cases hd; nofun
    | some (.leaves ls) =>
      have hd : (match e.content with
        | some (.leaves ls) => (do
          let cs ← mapRes (leafCheck x S) (lookLeaves ls)
          pure (.checks cs))
        | _ => pure (.checks []) : Res Str Look) = .ok d := hd
      rw [hcc] at hd h
      obtain ⟨t, ht, hd⟩ := Res.bind_eq_ok.1 hd
      cases hd
      refine mapRes_refs hA (ra := fun l : Leaf => l.definition.content.refs) (leafCheck_closed hA) ?_ ht
      intro m hm
      obtain ⟨l, hl, hm⟩ := List.mem_flatMap.1 hm
      exact h.2 m (List.mem_flatMap.2 ⟨l, mem_lookLeaves hl, hm⟩)
  | choice vs v docs =>
    obtain ⟨cs, hc, hd⟩ := Res.bind_eq_ok.1 hd
    cases hd
    exact mapRes_refs hA (ra := fun l : Leaf => l.definition.content.refs) (leafCheck_closed hA) h hc

/-- The code generated for a name of the set refers to types of names of the set only. -/
theorem generate_closed {n : Name} (hn : A n) {d : TypeDef} (h : generateElement x S n = .ok d) : ∀ i ∈ d.refs, IdentOf x A i := by
  unfold generateElement at h
  cases hg : S.get n with
  | none => rw [hg] at h; cases h
  | some r =>
    have hr := hA n r hn hg
    rw [hg] at h
    obtain ⟨ident, _, h⟩ := Res.bind_eq_ok.1 h
    obtain ⟨decl, h1, h⟩ := Res.bind_eq_ok.1 h
    obtain ⟨toXml, h2, h⟩ := Res.bind_eq_ok.1 h
    obtain ⟨_, _, h⟩ := Res.bind_eq_ok.1 h
    obtain ⟨_, _, h⟩ := Res.bind_eq_ok.1 h
    obtain ⟨_, _, h⟩ := Res.bind_eq_ok.1 h
    obtain ⟨fromXml, h3, h⟩ := Res.bind_eq_ok.1 h
    obtain ⟨look, h4, h⟩ := Res.bind_eq_ok.1 h
    cases h
    unfold TypeDef.refs
    intro i hi
    rcases List.mem_append.1 hi with hi | hi
    · rcases List.mem_append.1 hi with hi | hi
      · rcases List.mem_append.1 hi with hi | hi
        · exact rootDecl_closed hA hr h1 i hi
        · exact rootWrite_closed hA hr h2 i hi
      · exact rootRead_closed hA hr h3 i hi
    · exact rootLook_closed hA hr h4 i hi

end

/-! ## The needed names -/

/-- What the definition refers to was recorded for its own name. -/
def ClosedAt (P : PSchema) (n : Name) : Prop := ∀ r, P.context.get n = some r → ∀ m ∈ r.refs, m ∈ depsOf P.deps n

/-- Among the names needed for `n`, one that is not closed is needed directly by one definition only. -/
def Unshared (P : PSchema) (n : Name) : Prop :=
  ClosedAt P n ∧ ∀ m, Needs P.deps n m → ClosedAt P m ∨ ∀ p q, m ∈ depsOf P.deps p → m ∈ depsOf P.deps q → p = q

theorem needs_closed {x : Ext} {F : Files} {k : Nat} {path : Str} {P : PSchema} (h : parseFile x F k path = .ok P) {n : Name}
    (hu : Unshared P n) : ClosedSet P.context (Needs P.deps n) := by
  have hok := parseFileWith_deps k _ _ _ _ h
  have step : ∀ {a b}, Needs P.deps n a → b ∈ depsOf P.deps a → Needs P.deps n b := fun ha hb => getD_needs ha hb
  intro m r hm hr q hq
  rcases hu.2 m hm with hc | hone
  · exact step hm (hc r hr q hq)
  · obtain ⟨p, hp, href⟩ := hok.owned (m, r) (alookup_mem hr)
    rcases hp with rfl | hp
    · exact step hm (href q hq)
    · cases hm with
      | self => exact step .self (hu.1 r hr q hq)
      | dep hb hl hc =>
        have he := hone p _ hp (by unfold depsOf; rw [hl]; exact hc)
        subst he
        exact step hb (href q hq)

/-- C47, for schemas in which no two definitions share a group (because they have the same derived name, or because its derived
name is referred to explicitly): all types that the generated code refers to are generated, now or before. That groups
are never shared is missing: see `C47_false`. -/
theorem C47_partial (x : Ext) (F : Files) (k : Nat) (path : Str) (P : PSchema) (h : parseFile x F k path = .ok P) (n : Name)
    (hu : Unshared P n) (already already' : List Name) (ds : List TypeDef)
    (hg : generateWithDeps x P n already = .ok (ds, already')) :
    ∀ d ∈ ds, ∀ i ∈ d.refs, ∃ m, (typeIdent x m = .ok i ∨ pascalIdent x m = .ok i) ∧
      (m ∈ already ∨ ∃ d' ∈ ds, generateElement x P.context m = .ok d' ∧ typeIdent x m = .ok d'.ident) := by
  obtain ⟨names, hnd, hn, hm, ha⟩ := C46 x P n already already' ds hg
  intro d hd i hi
  have hd' : Res.ok d ∈ names.map (generateElement x P.context) := by rw [hm]; exact List.mem_map.2 ⟨d, hd, rfl⟩
  obtain ⟨a, ha', he⟩ := List.mem_map.1 hd'
  obtain ⟨m, hneed, hid⟩ := generate_closed (needs_closed h hu) ((hn a).1 ha').1 he i hi
  refine ⟨m, hid, ?_⟩
  by_cases hal : m ∈ already
  · exact .inl hal
  · have : generateElement x P.context m ∈ names.map (generateElement x P.context) :=
      List.mem_map.2 ⟨m, (hn m).2 ⟨hneed, hal⟩, rfl⟩
    rw [hm] at this
    obtain ⟨d', hd', he'⟩ := List.mem_map.1 this
    exact .inr ⟨d', hd', he'.symm, generateElement_ident he'.symm⟩

namespace SchemaSample

/-- A group that only the type `A` needs: it is not closed, but needed by one definition only. -/
def groupDoc (ref : Str) : XDoc := tDoc
  [xe c!"complexType" [(c!"name", c!"A")] [xe c!"sequence" []
     [xe c!"choice" [] [xe c!"element" [(c!"name", c!"left"), (c!"type", c!"t:C")] [],
                        xe c!"element" [(c!"name", c!"right"), (c!"type", c!"xs:int")] []]]],
   xe c!"complexType" [(c!"name", c!"B")] [xe c!"sequence" [] [xe c!"element" [(c!"name", c!"e"), (c!"type", ref)] []]],
   xe c!"complexType" [(c!"name", c!"C")] []]

/-- The schema. -/
def groupSchema (ref : Str) : PSchema :=
  match parseFile sampleExt (oneFile (groupDoc ref)) 1 c!"a.xsd" with | .ok P => P | _ => ⟨⟨[], .none, false, .empty⟩, []⟩

example : (groupSchema c!"t:A").deps =
    [(⟨c!"A", .id 1⟩, [⟨c!"C", .id 1⟩, ⟨c!"AT", .none⟩]), (⟨c!"B", .id 1⟩, [⟨c!"A", .id 1⟩])] := by decide +kernel

/-- The hypotheses are met for all names but that of the group, for example `B`, which needs `A` and with it the group `AT`. -/
theorem group_unshared {n : Name} (hn : n ≠ ⟨c!"AT", .none⟩) : Unshared (groupSchema c!"t:A") n := by
  have key : ∀ p ∈ (groupSchema c!"t:A").context.elements, p.1 = ⟨c!"AT", .none⟩ ∨
      ∀ m ∈ p.2.refs, m ∈ depsOf (groupSchema c!"t:A").deps p.1 := by decide +kernel
  have hc : ∀ m, m ≠ ⟨c!"AT", .none⟩ → ClosedAt (groupSchema c!"t:A") m := fun m hm r hr q hq =>
    (key (m, r) (alookup_mem hr)).resolve_left hm q hq
  refine ⟨hc _ hn, fun m _ => ?_⟩
  by_cases hm : m = ⟨c!"AT", .none⟩
  · refine .inr fun p q hp hq => ?_
    subst hm
    have only : ∀ p ∈ (groupSchema c!"t:A").deps, ⟨c!"AT", .none⟩ ∈ p.2 → p.1 = ⟨c!"A", .id 1⟩ := by decide +kernel
    have one : ∀ p, ⟨c!"AT", .none⟩ ∈ depsOf (groupSchema c!"t:A").deps p → p = ⟨c!"A", .id 1⟩ := by
      intro p hp
      unfold depsOf at hp
      cases hl : alookup (groupSchema c!"t:A").deps p with
      | none => rw [hl] at hp; cases hp
      | some l => rw [hl] at hp; exact only _ (alookup_mem hl) hp
    rw [one p hp, one q hq]
  · exact .inl (hc m hm)

/-- `B` refers to the group of `A` by its derived name. -/
theorem shared_generated : (match generateWithDeps sampleExt (groupSchema c!"AT") ⟨c!"B", .id 1⟩ [] with
    | .ok r => (r.1.map TypeDef.ident, (r.1.flatMap TypeDef.refs).contains c!"C")
    | _ => ([], false)) = ([c!"B", c!"AT"], true) := by decide +kernel

theorem shared_parsed : parseFile sampleExt (oneFile (groupDoc c!"AT")) 1 c!"a.xsd" = .ok (groupSchema c!"AT") := by decide +kernel

end SchemaSample

open SchemaSample in
/-- C47 is false in general: `type="AT"`, where `AT` is the derived name of a group of `A`. Code for `B` is generated, with
the type of the group, but without the types that the group refers to. -/
theorem C47_false : ¬ ∀ (x : Ext) (F : Files) (k : Nat) (path : Str) (P : PSchema), parseFile x F k path = .ok P → ∀ (n : Name)
    (already already' : List Name) (ds : List TypeDef), generateWithDeps x P n already = .ok (ds, already') →
    ∀ d ∈ ds, ∀ i ∈ d.refs, ∃ m, (typeIdent x m = .ok i ∨ pascalIdent x m = .ok i) ∧
      (m ∈ already ∨ ∃ d' ∈ ds, generateElement x P.context m = .ok d' ∧ typeIdent x m = .ok d'.ident) := by
  intro h
  have hp := shared_generated
  cases hr : generateWithDeps sampleExt (groupSchema c!"AT") ⟨c!"B", .id 1⟩ [] with
  | err e => rw [hr] at hp; cases hp
  | panic => rw [hr] at hp; cases hp
  | diverge => rw [hr] at hp; cases hp
  | ok r =>
    rw [hr] at hp
    obtain ⟨ds, al⟩ := r
    rw [Prod.mk.injEq] at hp
    obtain ⟨h1, h2⟩ := hp
    obtain ⟨d, hd, hi⟩ := List.mem_flatMap.1 (List.contains_iff_mem.1 h2)
    obtain ⟨m, hm, h3⟩ := h _ _ _ _ _ shared_parsed _ _ _ _ hr d hd _ hi
    rcases h3 with h3 | ⟨d', hd', _, h3⟩
    · cases h3
    · have hid : d'.ident ∈ [c!"B", c!"AT"] := h1 ▸ List.mem_map.2 ⟨d', hd', rfl⟩
      have hp1 : ∀ {i}, typeIdent sampleExt m = .ok i → i = sampleExt.pascal m.name ∨ i = c!"r#" ++ sampleExt.pascal m.name := by
        intro i hi
        unfold typeIdent escapeIdent formatIdent at hi
        split at hi
        · split at hi
          · cases hi
          · cases hi; exact .inr rfl
        · split at hi
          · cases hi; exact .inl rfl
          · cases hi
      have hC : sampleExt.pascal m.name = c!"C" := by
        rcases hm with hm | hm
        · rcases hp1 hm with h | h
          · exact h.symm
          · exact absurd (congrArg List.head? h) (by simp)
        · unfold pascalIdent formatIdent at hm
          split at hm
          · exact Res.ok.inj hm
          · cases hm
      rcases hp1 h3 with h | h
      · rw [h, hC] at hid
        exact absurd hid (by decide)
      · rw [h, hC] at hid
        exact absurd hid (by decide)

end Xsd
