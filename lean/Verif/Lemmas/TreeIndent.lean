import Verif.Spec.Tree
import Verif.Model.Writer
/-!
# Indentation keeps documents valid
-/
namespace Xsd.Tree

/-- The same element, with other white space. -/
def IndE (e e' : Elem) : Prop := Indented (.elem e.1 e.2) (.elem e'.1 e'.2)

/-- The same elements, with other white space. -/
inductive IndEs : List Elem → List Elem → Prop where
  | nil : IndEs [] []
  | cons {e e' es es'} (h : IndE e e') (hs : IndEs es es') : IndEs (e :: es) (e' :: es')

theorem IndEs.nonempty {es es' : List Elem} (h : IndEs es es') (hn : es ≠ []) : es' ≠ [] := by
  cases h with
  | nil => exact absurd rfl hn
  | cons => exact nofun

theorem IndE.info {e e' : Elem} (h : IndE e e') : e'.1 = e.1 := by
  unfold IndE at h
  generalize he : XNode.elem e.1 e.2 = n at h
  generalize he' : XNode.elem e'.1 e'.2 = n' at h
  cases h with
  | text s => exact absurd he nofun
  | other => exact absurd he nofun
  | same h => injection he with h1 h2; injection he' with h1' h2'; rw [h1, h1']
  | sep h ht => injection he with h1 h2; injection he' with h1' h2'; rw [h1, h1']

theorem indentedL_kids {b : Bool} {cs cs' : List XNode} (h : IndentedL b cs cs') : IndEs (elemKids cs) (elemKids cs') := by
  match h with
  | .nil => exact .nil
  | .cons (c := c) (c' := c') h hs =>
    have ih := indentedL_kids hs
    unfold elemKids at *
    match h with
    | .text s => exact ih
    | .other => exact ih
    | .same h => exact .cons (.same h) ih
    | .sep h ht => exact .cons (.sep h ht) ih
  | .space hw h =>
    have ih := indentedL_kids h
    unfold elemKids at *
    rw [List.filterMap_cons_none (by rfl)]; exact ih

theorem IndE.kids {e e' : Elem} (h : IndE e e') : IndEs (elemKids e.2) (elemKids e'.2) := by
  unfold IndE at h
  generalize he : XNode.elem e.1 e.2 = n at h
  generalize he' : XNode.elem e'.1 e'.2 = n' at h
  cases h with
  | text s => exact absurd he nofun
  | other => exact absurd he nofun
  | same h => injection he with h1 h2; injection he' with h1' h2'; rw [h2, h2']; exact indentedL_kids h
  | sep h ht => injection he with h1 h2; injection he' with h1' h2'; rw [h2, h2']; exact indentedL_kids h

theorem IndE.hasText {junk : Bool} {e e' : Elem} (h : IndE e e') {s : Str} (ht : Flat.HasText junk e s) : Flat.HasText junk e' s := by
  obtain ⟨i, cs⟩ := e
  obtain ⟨i', cs'⟩ := e'
  unfold IndE at h
  simp only at h
  cases ht with
  | none hc =>
    simp only at hc; subst hc
    cases h with
    | same h => cases h; exact .none rfl
  | some hc =>
    simp only at hc; subst hc
    cases h with
    | same h =>
      cases h with
      | cons h hs => cases hs; cases h; exact .some rfl
    | sep _ h => exact absurd rfl (h _)
  | more hj hc =>
    simp only at hc; subst hc
    cases h with
    | same h =>
      cases h with
      | cons h hs => cases h; exact .more hj rfl
    | sep _ h => exact absurd rfl (h _)

theorem IndEs.split {as bs cs : List Elem} (h : IndEs (as ++ bs) cs) : ∃ as' bs', cs = as' ++ bs' ∧ IndEs as as' ∧ IndEs bs bs' := by
  induction as generalizing cs with
  | nil => exact ⟨[], cs, rfl, .nil, h⟩
  | cons a as ih =>
    rw [List.cons_append] at h
    cases h with
    | cons h hs =>
      obtain ⟨as', bs', h1, h2, h3⟩ := ih hs
      exact ⟨_ :: as', bs', by rw [h1]; rfl, .cons h h2, h3⟩

theorem IndEs.nil_inv {as : List Elem} (h : IndEs [] as) : as = [] := by cases h; rfl

theorem IndEs.empty {bs bs' : List Elem} (h : IndEs bs bs') (e : bs = []) : bs' = [] := by subst e; exact h.nil_inv

theorem IndEs.perm {as bs cs : List Elem} (hp : as.Perm bs) (h : IndEs bs cs) : ∃ ds, ds.Perm cs ∧ IndEs as ds := by
  induction hp generalizing cs with
  | nil => exact ⟨cs, .refl _, h⟩
  | cons a _ ih =>
    cases h with
    | cons h hs =>
      obtain ⟨ds, h1, h2⟩ := ih hs
      exact ⟨_ :: ds, h1.cons _, .cons h h2⟩
  | swap a b l =>
    cases h with
    | cons h hs =>
      cases hs with
      | cons h' hs => exact ⟨_, List.Perm.swap _ _ _, .cons h' (.cons h hs)⟩
  | trans _ _ ih1 ih2 =>
    obtain ⟨ds, h1, h2⟩ := ih2 h
    obtain ⟨ds', h3, h4⟩ := ih1 h2
    exact ⟨ds', h3.trans h1, h4⟩

section
variable {x : Ext} {F : Files} {path : Str} {junk : Bool} {occ : Rule}

theorem attrs_indent {d : XDoc} {as : List Nd} {e e' : Elem} (h : IndE e e') (ha : ∀ a ∈ as, ValidAttr x F path junk d a e.1) :
    ∀ a ∈ as, ValidAttr x F path junk d a e'.1 := by
  rw [h.info]; exact ha

mutual
theorem vTyp_indent {ty : Flat.Typ} {e e' : Elem} {es es' : List Elem} (h : VTyp x F path junk occ ty e es) (he : IndE e e') (hes : IndEs es es') :
    VTyp x F path junk occ ty e' es' := by
  match h with
  | .builtin ht h => rw [hes.nil_inv]; exact .builtin (he.hasText ht) h
  | .fixed ht => rw [hes.nil_inv]; exact .fixed (he.hasText ht)
  | .own ht hc h => exact .own ht hc (vDefn_indent h he hes)
theorem vDefn_indent {d : XDoc} {nd : Nd} {e e' : Elem} {es es' : List Elem} (h : VDefn x F path junk occ d nd e es) (he : IndE e e')
    (hes : IndEs es es') : VDefn x F path junk occ d nd e' es' := by
  match h with
  | .simple hn ht h => rw [hes.nil_inv]; exact .simple hn (he.hasText ht) h
  | .complex hn h => exact .complex hn (vComplex_indent h he hes)
  | .typed hn ht h => exact .typed hn ht (vTyp_indent h he hes)
  | .inline hn ht hc hcn h => exact .inline hn ht hc hcn (vDefn_indent h he hes)
  | .any hn ht hk hs => rw [hes.nil_inv]; exact .any hn ht hk (he.hasText hs)
theorem vComplex_indent {d : XDoc} {nd : Nd} {e e' : Elem} {es es' : List Elem} (h : VComplex x F path junk occ d nd e es) (he : IndE e e')
    (hes : IndEs es es') : VComplex x F path junk occ d nd e' es' := by
  match h with
  | .empty hk ha => rw [hes.nil_inv]; exact .empty hk (attrs_indent he ha)
  | .group hc hn ha h => exact .group hc hn (attrs_indent he ha) (vOcc_indent h hes)
  | .all hc hn ho ha h hj hp ht =>
    have ih := fun es' => vSeq_indent (es' := es') h
    have free : (occ.ordered = true → ∀ p ∈ _, Required p) → VComplex x F path junk occ d nd e' es' := fun hr => by
      obtain ⟨ds, h1, h2⟩ := IndEs.perm hp hes
      obtain ⟨as', bs', h3, h4, h5⟩ := h2.split
      subst h3
      exact .all hc hn ho (attrs_indent he ha) (ih _ h4) (fun hh => h5.empty (hj hh)) h1 fun hh => .inl (hr hh)
    by_cases hh : occ.ordered = true
    · rcases ht hh with hr | heq
      · exact free fun _ => hr
      · rw [heq] at hes
        obtain ⟨as', bs', h3, h4, h5⟩ := hes.split
        subst h3
        exact .all hc hn ho (attrs_indent he ha) (ih _ h4) (fun hh => h5.empty (hj hh)) (.refl _) fun _ => .inr rfl
    · exact free fun h => absurd h hh
  | .simpleContent hc hn hr hrn hb ha h => exact .simpleContent hc hn hr hrn hb (attrs_indent he ha) (vTyp_indent h he hes)
  | .complexContent hc hn hr hrn hb ha hg h => exact .complexContent hc hn hr hrn hb (attrs_indent he ha) hg (vTyp_indent h he hes)
  | .extension hc hn hr hrn hb ha hg hgn h h' =>
    have ih := fun e' es' => vTyp_indent (e' := e') (es' := es') h
    have ih' := fun es' => vOcc_indent (es' := es') h'
    obtain ⟨as', bs', h3, h4, h5⟩ := hes.split
    subst h3
    exact .extension hc hn hr hrn hb (attrs_indent he ha) hg hgn (ih _ _ he h4) (ih' _ h5)
theorem vOne_indent {d : XDoc} {p : Nd} {es es' : List Elem} (h : VOne x F path junk occ d p es) (hes : IndEs es es') :
    VOne x F path junk occ d p es' := by
  match h with
  | .ref hn hr h hq ht hc he hk hj hv =>
    have ih := fun e' es' => vDefn_indent (e' := e') (es' := es') hv
    cases hes with
    | cons h1 hs =>
      rw [hs.nil_inv]
      have h2 := h1.kids
      rw [hk] at h2
      obtain ⟨as', bs', h3, h4, h5⟩ := h2.split
      exact .ref hn hr h hq ht hc (by rw [h1.info]; exact he) h3 (fun hh => h5.empty (hj hh)) (ih _ _ h1 h4)
  | .element hn hr hna hns he hk hj hv =>
    have ih := fun e' es' => vDefn_indent (e' := e') (es' := es') hv
    cases hes with
    | cons h1 hs =>
      rw [hs.nil_inv]
      have h2 := h1.kids
      rw [hk] at h2
      obtain ⟨as', bs', h3, h4, h5⟩ := h2.split
      exact .element hn hr hna hns (by rw [h1.info]; exact he) h3 (fun hh => h5.empty (hj hh)) (ih _ _ h1 h4)
  | .sequence hn h => exact .sequence hn (vSeq_indent h hes)
  | .choice hn hc h hf => exact .choice hn hc (vOcc_indent h hes) (fun hh => hes.nonempty (hf hh))
theorem vSeq_indent {d : XDoc} {ps : List Nd} {es es' : List Elem} (h : VSeq x F path junk occ d ps es) (hes : IndEs es es') :
    VSeq x F path junk occ d ps es' := by
  match h with
  | .nil => rw [hes.nil_inv]; exact .nil
  | .cons h hs =>
    have ih := fun es' => vOcc_indent (es' := es') h
    have ih' := fun es' => vSeq_indent (es' := es') hs
    obtain ⟨as', bs', h3, h4, h5⟩ := hes.split
    subst h3
    exact .cons (ih _ h4) (ih' _ h5)
theorem vMany_indent {d : XDoc} {p : Nd} {n : Nat} {es es' : List Elem} (h : VMany x F path junk occ d p n es) (hes : IndEs es es') :
    VMany x F path junk occ d p n es' := by
  match h with
  | .zero => rw [hes.nil_inv]; exact .zero
  | .succ h hs =>
    have ih := fun es' => vOne_indent (es' := es') h
    have ih' := fun es' => vMany_indent (es' := es') hs
    obtain ⟨as', bs', h3, h4, h5⟩ := hes.split
    subst h3
    exact .succ (ih _ h4) (ih' _ h5)
theorem vOcc_indent {d : XDoc} {p : Nd} {es es' : List Elem} (h : VOcc x F path junk occ d p es) (hes : IndEs es es') :
    VOcc x F path junk occ d p es' := by
  match h with
  | .mk h ho => exact .mk (vMany_indent h hes) ho
end

/-- Indented documents are as valid as the others. -/
theorem validDoc_indent {q : QName} {e e' : Elem} (he : Indented (.elem e.1 e.2) (.elem e'.1 e'.2)) (h : ValidDoc x F path junk occ q e) :
    ValidDoc x F path junk occ q e' := by
  have he : IndE e e' := he
  obtain ⟨ht, hn, hk, hj, h⟩ := h
  have h2 := he.kids
  rw [hk] at h2
  obtain ⟨as', bs', h3, h4, h5⟩ := h2.split
  exact .mk ht (by rw [he.info]; exact hn) h3 (fun hh => h5.empty (hj hh)) (vDefn_indent h he h4)

end
end Xsd.Tree
