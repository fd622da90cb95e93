import Verif.Spec.Outcome
import Verif.Lemmas.Gen
/-!
# There is one outcome of reading
-/
namespace Xsd

variable {x : Ext} {S : SchemaContext} {α β : Type}

/-- Outcomes of the two relations are the same. -/
def Agree (R R' : Res DErr α → Prop) : Prop := ∀ o o', R o → R' o' → o = o'

theorem Agree.val {a : Res DErr α} : Agree (fun o => o = a) (fun o => o = a) := by
  rintro _ _ rfl rfl; rfl

theorem Agree.then {R R' : Res DErr α → Prop} {F F' : α → Res DErr β → Prop} (h : Agree R R') (hF : ∀ a, Agree (F a) (F' a)) :
    Agree (Then R F) (Then R' F') := by
  rintro o o' (⟨a, h1, h2⟩ | ⟨E, h1, rfl⟩ | ⟨h1, rfl⟩) (⟨a', h1', h2'⟩ | ⟨E', h1', rfl⟩ | ⟨h1', rfl⟩) <;> cases h _ _ h1 h1'
  · exact hF _ _ _ h2 h2'
  · rfl
  · rfl

/-- Exactly one of two cases. -/
theorem Agree.either {p : Prop} {A B A' B' : Res DErr α → Prop} (h1 : p → Agree A A') (h2 : ¬ p → Agree B B') :
    Agree (fun o => (p ∧ A o) ∨ (¬ p ∧ B o)) (fun o => (p ∧ A' o) ∨ (¬ p ∧ B' o)) := by
  rintro o o' (⟨hp, h⟩ | ⟨hp, h⟩) (⟨hp', h'⟩ | ⟨hp', h'⟩)
  · exact h1 hp _ _ h h'
  · exact absurd hp hp'
  · exact absurd hp' hp
  · exact h2 hp _ _ h h'

theorem TextIs.lenient_unique {e : Elem} {s s' : Str} (h : TextIs .lenient e s) (h' : TextIs .lenient e s') : s = s' := by
  rcases h with ⟨h, rfl⟩ | ⟨r, h⟩ <;> rcases h' with ⟨h', rfl⟩ | ⟨r', h'⟩ <;> rw [h] at h' <;> cases h' <;> rfl

theorem Agree.text {e : Elem} {F F' : Str → Res DErr α → Prop} (hF : ∀ s, Agree (F s) (F' s)) :
    Agree (TextGives e F) (TextGives e F') := by
  rintro o o' (⟨s, h, h1⟩ | ⟨h, rfl⟩) (⟨s', h', h1'⟩ | ⟨h', rfl⟩)
  · cases h.lenient_unique h'; exact hF _ _ _ h1 h1'
  · exact absurd h (h' s)
  · exact absurd h' (h s')
  · rfl

theorem first_unique {δ : Type} {p : δ → Prop} : ∀ {a a' b b' : List δ} {c c' : δ}, a ++ c :: b = a' ++ c' :: b' → (∀ d ∈ a, ¬ p d) →
    (∀ d ∈ a', ¬ p d) → p c → p c' → a = a' ∧ c = c' ∧ b = b'
  | [], [], _, _, _, _, h, _, _, _, _ => by cases h; exact ⟨rfl, rfl, rfl⟩
  | [], d :: _, _, _, _, _, h, _, h2, hc, _ => by cases h; exact absurd hc (h2 _ (by simp))
  | d :: _, [], _, _, _, _, h, h1, _, _, hc => by cases h; exact absurd hc (h1 _ (by simp))
  | d :: a, d' :: a', _, _, _, _, h, h1, h2, hc, hc' => by
    simp only [List.cons_append, List.cons.injEq] at h
    obtain ⟨rfl, h⟩ := h
    obtain ⟨rfl, h3, h4⟩ := first_unique h (fun d hd => h1 d (by simp [hd])) (fun d hd => h2 d (by simp [hd])) hc hc'
    exact ⟨rfl, h3, h4⟩

theorem Found.unique {b : Bool} {q : QName} {rest r1 r2 : List Elem} {c1 c2 : Elem} (h1 : Found b q rest c1 r1) (h2 : Found b q rest c2 r2) :
    c1 = c2 ∧ r1 = r2 := by
  obtain ⟨a, b, rfl, rfl, hc, ha, _⟩ := h1
  obtain ⟨a', b', h, rfl, hc', ha', _⟩ := h2
  obtain ⟨rfl, rfl, rfl⟩ := first_unique (p := fun c : Elem => c.1.name = q) h ha ha' hc hc'
  exact ⟨rfl, rfl⟩

theorem GetsLiteral.agree {t : LiteralType} {s : Str} : Agree (GetsLiteral x t s) (GetsLiteral x t s) := by
  rintro o o' (⟨v, h, rfl⟩ | ⟨h, rfl⟩) (⟨v', h', rfl⟩ | ⟨h', rfl⟩) <;> rw [h] at h' <;> cases h' <;> rfl

theorem GetsEnum.agree {names : List Name} {s : Str} : Agree (GetsEnum x names s) (GetsEnum x names s) := by
  rintro o o' ⟨tab, ht, h⟩ ⟨tab', ht', h'⟩
  rw [ht] at ht'; cases ht'
  rcases h with ⟨a, v, b, rfl, h1, rfl⟩ | ⟨h, rfl⟩ <;> rcases h' with ⟨a', v', b', h2, h1', rfl⟩ | ⟨h', rfl⟩
  · obtain ⟨_, h3, _⟩ := first_unique (p := fun p : Str × Str => p.2 = s) h2 h1 h1' rfl rfl
    cases h3; rfl
  · exact absurd rfl (h' (v, s) (by simp))
  · exact absurd rfl (h (v', s) (by simp [h2]))
  · rfl

theorem GetsStr.agree {c : LeafContent} {s : Str} : Agree (GetsStr x S c s) (GetsStr x S c s) := by
  cases c with
  | literal t => exact GetsLiteral.agree
  | fixed f => exact Agree.val
  | named n =>
    rintro o o' ⟨c, hc, h⟩ ⟨c', hc', h'⟩
    cases hc.functional hc'
    cases c with
    | literal t => rcases h with ⟨h1, rfl⟩ | ⟨h1, rfl⟩ <;> rcases h' with ⟨h2, rfl⟩ | ⟨h2, rfl⟩ <;> first | rfl | contradiction
    | fixed f => exact Agree.val _ _ h h'
    | named m =>
      rcases h with ⟨ns, h1, h⟩ | ⟨h1, rfl⟩ <;> rcases h' with ⟨ns', h2, h'⟩ | ⟨h2, rfl⟩
      · rw [h1] at h2; cases h2; exact GetsEnum.agree _ _ h h'
      · exact absurd h1 (h2 _)
      · exact absurd h2 (h1 _)
      · rfl

theorem GetsAttr.agree {a : Attribute} {e : Elem} : Agree (GetsAttr x S a e) (GetsAttr x S a e) := by
  rintro o o' (⟨s, h, h1⟩ | ⟨h, rfl⟩) (⟨s', h', h1'⟩ | ⟨h', rfl⟩) <;> rw [h] at h' <;> cases h'
  · split at h1
    · next ho => rw [if_pos ho] at h1'; exact Agree.then GetsStr.agree (fun _ => Agree.val) _ _ h1 h1'
    · next ho => rw [if_neg ho] at h1'; exact GetsStr.agree _ _ h1 h1'

theorem GetsAttrs.agree {as : List Attribute} {e : Elem} : Agree (GetsAttrs x S as e) (GetsAttrs x S as e) := by
  induction as with
  | nil => exact Agree.val
  | cons a as ih =>
    rintro o o' ⟨f, hf, h⟩ ⟨f', hf', h'⟩
    rw [hf] at hf'; cases hf'
    exact Agree.then GetsAttr.agree (fun _ => Agree.then ih fun _ => Agree.val) _ _ h h'

section
variable {T T' : Name → Elem → List Elem → Res DErr (Val × List Elem) → Prop} (hT : ∀ n e rest, Agree (T n e rest) (T' n e rest))
include hT

theorem GetsVal.agree {c : LeafContent} {e : Elem} {rest : List Elem} : Agree (GetsVal x S T c e rest) (GetsVal x S T' c e rest) := by
  rintro o o' ⟨c, hc, h⟩ ⟨c', hc', h'⟩
  cases hc.functional hc'
  cases c with
  | literal t => exact Agree.then (Agree.text fun _ => GetsLiteral.agree) (fun _ => Agree.val) _ _ h h'
  | fixed f => exact Agree.text (fun _ => Agree.either (fun _ => Agree.val) (fun _ => Agree.val)) _ _ h h'
  | named n => exact hT _ _ _ _ _ h h'

theorem GetsOne.agree {b : Bool} {l : Leaf} {e : Elem} {rest : List Elem} :
    Agree (GetsOne x S T b l e rest) (GetsOne x S T' b l e rest) := by
  intro o o' h h'
  unfold GetsOne at h h'
  split at h
  · next hv => rw [if_pos hv] at h'; exact GetsVal.agree hT _ _ h h'
  · next hv =>
    rw [if_neg hv] at h'
    obtain ⟨q, hq, h⟩ := h
    obtain ⟨q', hq', h'⟩ := h'
    rw [hq] at hq'; cases hq'
    rcases h with ⟨ch, r, hf, h⟩ | ⟨hf, rfl⟩ <;> rcases h' with ⟨ch', r', hf', h'⟩ | ⟨hf', rfl⟩
    · obtain ⟨rfl, rfl⟩ := hf.unique hf'
      exact Agree.then (GetsVal.agree hT) (fun _ => Agree.val) _ _ h h'
    · exact absurd hf (hf' _ _)
    · exact absurd hf' (hf _ _)
    · rfl

theorem GetsMany.agree {l : Leaf} {e : Elem} {rest : List Elem} : Agree (GetsMany x S T l e rest) (GetsMany x S T' l e rest) := by
  intro o o' h
  have one := fun {rest o o'} => GetsOne.agree (x := x) (S := S) hT (b := false) (l := l) (e := e) (rest := rest) o o'
  induction h generalizing o' with
  | stop h =>
    intro h'
    cases h' <;> first | rfl | contradiction
  | fail h h1 =>
    intro h'
    cases h' <;> first | contradiction | skip
    · rename_i h1'; cases one h1 h1'; rfl
    · rename_i h1'; cases one h1 h1'
    · rename_i h1'; cases one h1 h1'
    · rename_i h1'; cases one h1 h1'
    · rename_i h1'; cases one h1 h1'
  | panic h h1 =>
    intro h'
    cases h' <;> first | contradiction | skip
    · rename_i h1'; cases one h1 h1'
    · rename_i h1'; cases one h1 h1'; rfl
    · rename_i h1'; cases one h1 h1'
    · rename_i h1'; cases one h1 h1'
    · rename_i h1'; cases one h1 h1'
  | more h h1 h2 ih =>
    intro h'
    cases h' <;> first | contradiction | skip
    · rename_i h1'; cases one h1 h1'
    · rename_i h1'; cases one h1 h1'
    · rename_i h2' _ h1'; cases one h1 h1'; cases ih _ h2'; rfl
    · rename_i h2' _ h1'; cases one h1 h1'; cases ih _ h2'
    · rename_i h2' _ h1'; cases one h1 h1'; cases ih _ h2'
  | moreFail h h1 h2 ih =>
    intro h'
    cases h' <;> first | contradiction | skip
    · rename_i h1'; cases one h1 h1'
    · rename_i h1'; cases one h1 h1'
    · rename_i h2' _ h1'; cases one h1 h1'; cases ih _ h2'
    · rename_i h2' _ h1'; cases one h1 h1'; cases ih _ h2'; rfl
    · rename_i h2' _ h1'; cases one h1 h1'; cases ih _ h2'
  | morePanic h h1 h2 ih =>
    intro h'
    cases h' <;> first | contradiction | skip
    · rename_i h1'; cases one h1 h1'
    · rename_i h1'; cases one h1 h1'
    · rename_i h2' _ h1'; cases one h1 h1'; cases ih _ h2'
    · rename_i h2' _ h1'; cases one h1 h1'; cases ih _ h2'
    · rename_i h2' _ h1'; cases one h1 h1'; cases ih _ h2'; rfl

theorem GetsOcc.agree {l : Leaf} {e : Elem} {rest : List Elem} : Agree (GetsOcc x S T l e rest) (GetsOcc x S T' l e rest) := by
  intro o o' h h'
  unfold GetsOcc at h h'
  split at h
  · next hr => rw [if_pos hr] at h'; exact Agree.then (GetsMany.agree hT) (fun _ => Agree.val) _ _ h h'
  · next hr =>
    rw [if_neg hr] at h'
    split at h
    · next ho =>
      rw [if_pos ho] at h'
      exact Agree.either (fun _ => Agree.val) (fun _ => Agree.then (GetsOne.agree hT) fun _ => Agree.val) _ _ h h'
    · next ho => rw [if_neg ho] at h'; exact GetsOne.agree hT _ _ h h'

theorem GetsLeaves.agree {ls : List Leaf} {e : Elem} {rest : List Elem} :
    Agree (GetsLeaves x S T ls e rest) (GetsLeaves x S T' ls e rest) := by
  induction ls generalizing rest with
  | nil => exact Agree.val
  | cons l ls ih =>
    rintro o o' ⟨f, hf, h⟩ ⟨f', hf', h'⟩
    rw [hf] at hf'; cases hf'
    exact Agree.then (GetsOcc.agree hT) (fun _ => Agree.then ih fun _ => Agree.val) _ _ h h'

theorem GetsContent.agree {c : Option ElementContent} {e : Elem} {rest : List Elem} :
    Agree (GetsContent x S T c e rest) (GetsContent x S T' c e rest) := by
  rcases c with _ | ⟨n, d⟩ | ls
  · exact Agree.val
  · rintro o o' ⟨f, hf, h⟩ ⟨f', hf', h'⟩
    rw [hf] at hf'; cases hf'
    exact Agree.then (GetsVal.agree hT) (fun _ => Agree.val) _ _ h h'
  · exact GetsLeaves.agree hT

theorem GetsVariant.agree {l : Leaf} {e : Elem} {rest : List Elem} : Agree (GetsVariant x S T l e rest) (GetsVariant x S T' l e rest) := by
  intro o o' h h'
  unfold GetsVariant at h h'
  split at h
  · next hr => rw [if_pos hr] at h'; exact Agree.then (GetsMany.agree hT) (fun _ => Agree.val) _ _ h h'
  · next hr => rw [if_neg hr] at h'; exact GetsOne.agree hT _ _ h h'

theorem GetsChoice.agree {n : Name} {vs : List Leaf} {e : Elem} {rest : List Elem} :
    Agree (GetsChoice x S T n vs e rest) (GetsChoice x S T' n vs e rest) := by
  induction vs with
  | nil =>
    rintro o o' ⟨i, hi, rfl⟩ ⟨i', hi', rfl⟩
    rw [hi] at hi'; cases hi'; rfl
  | cons l vs ih =>
    rintro o o' (⟨hn, i, hi, h⟩ | ⟨hn, h⟩) (⟨hn', i', hi', h'⟩ | ⟨hn', h'⟩)
    · rw [hi] at hi'; cases hi'
      exact Agree.then (GetsVariant.agree hT) (fun _ => Agree.val) _ _ h h'
    · exact absurd hn' hn
    · exact absurd hn hn'
    · exact ih _ _ h h'

theorem GetsRoot.agree {n : Name} {r : Root} {e : Elem} {rest : List Elem} :
    Agree (GetsRoot x S T n r e rest) (GetsRoot x S T' n r e rest) := by
  cases r with
  | leaf d => exact Agree.then (GetsVal.agree hT) fun _ => Agree.val
  | enum ns => exact Agree.then (Agree.text fun _ => GetsEnum.agree) fun _ => Agree.val
  | element d => exact Agree.then (GetsContent.agree hT) fun _ => Agree.then GetsAttrs.agree fun _ => Agree.val
  | choice vs b d => exact GetsChoice.agree hT

end

theorem GetsType.agree : ∀ (k k' : Nat) (n : Name) (e : Elem) (rest : List Elem), Agree (GetsType x S k n e rest) (GetsType x S k' n e rest)
  | 0, _, _, _, _ => fun _ _ h => h.elim
  | _ + 1, 0, _, _, _ => fun _ _ _ h => h.elim
  | k + 1, k' + 1, n, e, rest => by
    rintro o o' ⟨r, hr, h⟩ ⟨r', hr', h'⟩
    rw [hr] at hr'; cases hr'
    exact GetsRoot.agree (fun n e rest => GetsType.agree k k' n e rest) _ _ h h'

/-- There is at most one outcome. -/
theorem GetsDoc.agree {n : Name} {e : Elem} : Agree (GetsDoc x S n e) (GetsDoc x S n e) := by
  rintro o o' ⟨q, hq, h⟩ ⟨q', hq', h'⟩
  rw [hq] at hq'; cases hq'
  rcases h with ⟨hn, k, h⟩ | ⟨hn, rfl⟩ <;> rcases h' with ⟨hn', k', h'⟩ | ⟨hn', rfl⟩
  · exact Agree.then (GetsType.agree _ _ _ _ _) (fun _ => Agree.val) _ _ h h'
  · exact absurd hn hn'
  · exact absurd hn' hn
  · rfl

end Xsd
