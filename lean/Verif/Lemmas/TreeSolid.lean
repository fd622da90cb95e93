import Verif.Lemmas.TreeCheck
/-!
# Where choices cannot be empty, and members of `xs:all` are required

If no choice of the files can be empty, then no choice is left empty in a valid document.
-/
namespace Xsd.Tree
open Xsd.Flat (Typ)

section
variable {x : Ext} {F : Files} {path : Str} {junk : Bool} {d : XDoc}

/-- A particle that cannot be empty is not. -/
theorem solid_nonempty {p : Nd} (hs : Solid p) {es : List Elem} (h : VOcc x F path junk Occurs d p es) : es ≠ [] := by
  have step : ∀ {p : Nd} {m : Nat} {es : List Elem}, MinOf p m → m ≠ 0 → VOcc x F path junk Occurs d p es →
      (∀ es1, VOne x F path junk Occurs d p es1 → es1 ≠ []) → es ≠ [] := by
    intro p m es hm h0 h h1
    cases h with
    | @mk _ _ n _ h ho =>
      obtain ⟨mn, mx, hmn, _, hle, _⟩ := ho
      cases minOf_functional hm hmn
      cases h with
      | zero => omega
      | succ h hs => exact fun h' => h1 _ h (List.append_eq_nil_iff.1 h').1
  induction hs generalizing es with
  | element hn hm h0 => exact step hm h0 h (fun es1 h1 => one_element h1 hn)
  | sequence hn hm h0 hc hs ih =>
    refine step hm h0 h (fun es1 h1 => ?_)
    cases h1 with
    | ref hn' => rw [hn] at hn'; exact absurd hn' (by decide)
    | element hn' => rw [hn] at hn'; exact absurd hn' (by decide)
    | choice hn' => rw [hn] at hn'; exact absurd hn' (by decide)
    | sequence _ h1 =>
      obtain ⟨es', h2, h3⟩ := seq_mem h1 hc
      exact h3 (ih h2)
  | choice hn hm h0 hs ih =>
    refine step hm h0 h (fun es1 h1 => ?_)
    cases h1 with
    | ref hn' => rw [hn] at hn'; exact absurd hn' (by decide)
    | element hn' => rw [hn] at hn'; exact absurd hn' (by decide)
    | sequence hn' => rw [hn] at hn'; exact absurd hn' (by decide)
    | choice _ hc h1 _ => exact ih _ hc h1

theorem SolidTree.kid {nd c : Nd} (h : SolidTree nd) (hc : c ∈ nd.xsdKids) : SolidTree c := by
  cases h with
  | mk _ _ hk => exact hk c hc

theorem SolidTree.alternatives {nd : Nd} (h : SolidTree nd) (hn : nd.name = c!"choice") : ∀ c ∈ nd.particles, Solid c := by
  cases h with
  | mk h _ _ => exact h hn

theorem SolidTree.members {nd : Nd} (h : SolidTree nd) (hn : nd.name = c!"all") : ∀ c ∈ nd.particles, Required c := by
  cases h with
  | mk _ h _ => exact h hn

theorem SolidFiles.top {q : QName} {d : XDoc} {c : Nd} (h : SolidFiles F path) (ht : Top F path q d c) : SolidTree c := by
  cases ht with
  | mk hr hc _ _ => exact h _ _ hr _ hc

/-- No choice is left empty. -/
theorem defn_tidy (hF : SolidFiles F path) {nd : Nd} {e : Elem} {es : List Elem} (h : VDefn x F path junk Occurs d nd e es) :
    SolidTree nd → VDefn x F path junk OccursTidy d nd e es := by
  refine VDefn.rec
    (motive_1 := fun ty e es _ => VTyp x F path junk OccursTidy ty e es)
    (motive_2 := fun d nd e es _ => SolidTree nd → VDefn x F path junk OccursTidy d nd e es)
    (motive_3 := fun d nd e es _ => SolidTree nd → VComplex x F path junk OccursTidy d nd e es)
    (motive_4 := fun d p es _ => SolidTree p → VOne x F path junk OccursTidy d p es)
    (motive_5 := fun d ps es _ => (∀ p ∈ ps, SolidTree p) → VSeq x F path junk OccursTidy d ps es)
    (motive_6 := fun d p n es _ => SolidTree p → VMany x F path junk OccursTidy d p n es)
    (motive_7 := fun d p es _ => SolidTree p → VOcc x F path junk OccursTidy d p es)
    ?builtin ?fixed ?own ?simple ?complex ?typed ?inline ?any ?empty ?group ?all ?simpleContent ?complexContent ?extension
    ?ref ?element ?sequence ?choice ?nil ?cons ?zero ?succ ?mk h
  case builtin => intro t e s ht h; exact .builtin ht h
  case fixed => intro s e ht; exact .fixed ht
  case own => intro q d c e es ht hc _ ih; exact .own ht hc (ih (hF.top ht))
  case simple => intro d nd e s hn ht h _; exact .simple hn ht h
  case complex => intro d nd e es hn _ ih hk; exact .complex hn (ih hk)
  case typed => intro d nd ty e es hn ht _ ih _; exact .typed hn ht ih
  case inline => intro d nd c e es hn ht hc hcn _ ih hk; exact .inline hn ht hc hcn (ih (hk.kid hc))
  case any => intro d nd e s hn ht hk hs _; exact .any hn ht hk hs
  case empty => intro d nd e hk ha _; exact .empty hk ha
  case group => intro d nd c e es hc hn ha _ ih hk; exact .group hc hn ha (ih (hk.kid hc))
  case all =>
    intro d nd c e es js es' hc hn ho ha _ hj hp _ ih hk
    exact .all hc hn ho ha (ih fun p hp => (hk.kid hc).kid (mem_particles hp)) hj hp fun _ => .inl ((hk.kid hc).members hn)
  case simpleContent => intro d nd c r ty e es hc hn hr hrn hb ha _ ih _; exact .simpleContent hc hn hr hrn hb ha ih
  case complexContent => intro d nd c r ty e es hc hn hr hrn hb ha hg _ ih _; exact .complexContent hc hn hr hrn hb ha hg ih
  case extension =>
    intro d nd c r g ty e es es' hc hn hr hrn hb ha hg hgn _ _ ih ih' hk
    exact .extension hc hn hr hrn hb ha hg hgn ih (ih' (((hk.kid hc).kid hr).kid hg))
  case ref => intro d p v q d' c e es js hn hr h hq ht hc he hk hj _ ih _; exact .ref hn hr h hq ht hc he hk hj (ih (hF.top ht))
  case element => intro d p n ns e es js hn hr hna hns he hk hj _ ih hs; exact .element hn hr hna hns he hk hj (ih hs)
  case sequence => intro d p es hn _ ih hk; exact .sequence hn (ih fun p hp => hk.kid (mem_particles hp))
  case choice =>
    intro d p c es hn hc h _ ih hk
    exact .choice hn hc (ih (hk.kid (mem_particles hc))) fun _ => solid_nonempty (hk.alternatives hn c hc) h
  case nil => intro d _; exact .nil
  case cons => intro d p ps es es' _ _ ih ih' hk; exact .cons (ih (hk _ (.head _))) (ih' fun p hp => hk p (.tail _ hp))
  case zero => intro d p _; exact .zero
  case succ => intro d p n es es' _ _ ih ih' hk; exact .succ (ih hk) (ih' hk)
  case mk => intro d p n es _ ho ih hk; exact .mk (ih hk) ho

/-- What is valid for a rule is valid for a weaker one. -/
theorem ValidDoc.weaken {occ occ' : Rule} (hc : ∀ p n, occ p n → occ' p n) (hf : occ'.filled = true → occ.filled = true)
    (hord : occ'.ordered = true → occ.ordered = true) {q : QName} {e : Elem}
    (h : ValidDoc x F path junk occ q e) : ValidDoc x F path junk occ' q e := by
  cases h with
  | mk ht hn hk hj h =>
  refine .mk ht hn hk hj ?_
  refine VDefn.rec
    (motive_1 := fun ty e es _ => VTyp x F path junk occ' ty e es)
    (motive_2 := fun d nd e es _ => VDefn x F path junk occ' d nd e es)
    (motive_3 := fun d nd e es _ => VComplex x F path junk occ' d nd e es)
    (motive_4 := fun d p es _ => VOne x F path junk occ' d p es)
    (motive_5 := fun d ps es _ => VSeq x F path junk occ' d ps es)
    (motive_6 := fun d p n es _ => VMany x F path junk occ' d p n es)
    (motive_7 := fun d p es _ => VOcc x F path junk occ' d p es)
    ?builtin ?fixed ?own ?simple ?complex ?typed ?inline ?any ?empty ?group ?all ?simpleContent ?complexContent ?extension
    ?ref ?element ?sequence ?choice ?nil ?cons ?zero ?succ ?many h
  case builtin => intro t e s ht h; exact .builtin ht h
  case fixed => intro s e ht; exact .fixed ht
  case own => intro q d c e es ht hc _ ih; exact .own ht hc ih
  case simple => intro d nd e s hn ht h; exact .simple hn ht h
  case complex => intro d nd e es hn _ ih; exact .complex hn ih
  case typed => intro d nd ty e es hn ht _ ih; exact .typed hn ht ih
  case inline => intro d nd c e es hn ht hc hcn _ ih; exact .inline hn ht hc hcn ih
  case any => intro d nd e s hn ht hk hs; exact .any hn ht hk hs
  case empty => intro d nd e hk ha; exact .empty hk ha
  case group => intro d nd c e es hc hn ha _ ih; exact .group hc hn ha ih
  case all =>
    intro d nd c e es js es' hcm hn ho ha _ hj hp ht ih
    exact .all hcm hn (hc _ _ ho) ha ih hj hp fun h => ht (hord h)
  case simpleContent => intro d nd c r ty e es hc hn hr hrn hb ha _ ih; exact .simpleContent hc hn hr hrn hb ha ih
  case complexContent => intro d nd c r ty e es hc hn hr hrn hb ha hg _ ih; exact .complexContent hc hn hr hrn hb ha hg ih
  case extension =>
    intro d nd c r g ty e es es' hc hn hr hrn hb ha hg hgn _ _ ih ih'
    exact .extension hc hn hr hrn hb ha hg hgn ih ih'
  case ref => intro d p v q d' c e es js hn hr h hq ht hc he hk hj _ ih; exact .ref hn hr h hq ht hc he hk hj ih
  case element => intro d p n ns e es js hn hr hna hns he hk hj _ ih; exact .element hn hr hna hns he hk hj ih
  case sequence => intro d p es hn _ ih; exact .sequence hn ih
  case choice => intro d p c es hn hc h hne ih; exact .choice hn hc ih fun h => hne (hf h)
  case nil => intro d; exact .nil
  case cons => intro d p ps es es' _ _ ih ih'; exact .cons ih ih'
  case zero => intro d p; exact .zero
  case succ => intro d p n es es' _ _ ih ih'; exact .succ ih ih'
  case many => intro d p n es _ ho ih; exact .mk ih (hc _ _ ho)

/-- The stronger validity is validity. -/
theorem ValidDoc.occurs {q : QName} {e : Elem} (h : ValidDoc x F path junk OccursTidy q e) : ValidDoc x F path junk Occurs q e :=
  h.weaken (occ := OccursTidy) (occ' := Occurs) (fun _ _ h => h) (fun h => absurd h (by decide)) (fun h => absurd h (by decide))

/-- Where no choice can be empty and no member of an `xs:all` is optional, valid documents are valid in the stronger sense. -/
theorem tidy_of_solid (hF : SolidFiles F path) {q : QName} {e : Elem} (h : ValidDoc x F path junk Occurs q e) :
    ValidDoc x F path junk OccursTidy q e := by
  cases h with
  | mk ht hn hk hj h => exact .mk ht hn hk hj (defn_tidy hF h (hF.top ht))

/-- No choice in the node or below can be empty, no member of an `xs:all` is optional, and nothing is nested deeper. -/
def solidTreeB : Nat → Nd → Bool
  | 0, _ => false
  | k + 1, nd => (decide (nd.name ≠ c!"choice") || nd.particles.all (solidB k)) &&
    (decide (nd.name ≠ c!"all") || nd.particles.all requiredB) && nd.xsdKids.all (solidTreeB k)

theorem solidTreeB_sound (k : Nat) : ∀ {nd : Nd}, solidTreeB k nd = true → SolidTree nd := by
  induction k with
  | zero => intro nd h; cases h
  | succ k ih =>
    intro nd h
    obtain ⟨h1, h2⟩ := Bool.and_eq_true_iff.1 h
    obtain ⟨h1, h3⟩ := Bool.and_eq_true_iff.1 h1
    refine .mk (fun hn c hc => ?_) (fun hn c hc => ?_) fun c hc => ih (List.all_eq_true.1 h2 c hc)
    rcases Bool.or_eq_true_iff.1 h1 with h1 | h1
    · exact absurd hn (of_decide_eq_true h1)
    · exact solidB_sound k (List.all_eq_true.1 h1 c hc)
    rcases Bool.or_eq_true_iff.1 h3 with h3 | h3
    · exact absurd hn (of_decide_eq_true h3)
    · exact requiredB_sound (List.all_eq_true.1 h3 c hc)

/-- The same of files. -/
def solidFilesB (F : Files) (k : Nat) (path : Str) : Bool :=
  match docsOf F k path with
  | some L => L.all (fun d => (Nd.of d.root).xsdKids.all (solidTreeB k))
  | none => false

theorem solidFilesB_sound {k : Nat} (h : solidFilesB F k path = true) : SolidFiles F path := by
  unfold solidFilesB at h
  split at h
  · next L hL =>
    intro p d hr c hc
    exact solidTreeB_sound k (List.all_eq_true.1 (List.all_eq_true.1 h d ((docsOf_spec k hL).1 p d hr)) c hc)
  · cases h

end
end Xsd.Tree
