import Verif.Spec.Eval
import Verif.Lemmas.Sound
/-! Fuel-free equations for the generated readers. -/
namespace Xsd

section
variable {ε α β : Type}

/-- More fuel, more defined. -/
def Mono (f : Nat → Res ε α) : Prop := ∀ k k', k ≤ k' → (f k).le (f k')

theorem Mono.const (r : Res ε α) : Mono (fun _ => r) := fun _ _ _ => Res.le_refl _

theorem Mono.bind {f : Nat → Res ε α} {g : Nat → α → Res ε β} (hf : Mono f) (hg : ∀ a, Mono (fun k => g k a)) :
    Mono (fun k => f k >>= g k) := fun k k' h => Res.le_bind (hf k k' h) (fun a => hg a k k' h)

theorem Ret.const {r r' : Res ε α} (h : r ≠ .diverge) : Ret (fun _ => r) r' ↔ r' = r := by
  constructor
  · rintro ⟨_, _, rfl⟩; rfl
  · rintro rfl; exact ⟨h, 0, rfl⟩

theorem Ret.unique {f : Nat → Res ε α} (hf : Mono f) {r r' : Res ε α} (h : Ret f r) (h' : Ret f r') : r = r' := by
  obtain ⟨hr, k, hk⟩ := h
  obtain ⟨hr', k', hk'⟩ := h'
  have e := Res.le_eq (hf _ _ (Nat.le_max_left k k')) (hk ▸ hr)
  have e' := Res.le_eq (hf _ _ (Nat.le_max_right k k')) (hk' ▸ hr')
  rw [hk] at e; rw [hk'] at e'
  rw [← e, ← e']

theorem Ret.ev {f : Nat → Res ε α} (hf : Mono f) {r : Res ε α} (h : Ret f r) : ∃ k0, ∀ k, k0 ≤ k → f k = r := by
  obtain ⟨hr, k, hk⟩ := h
  exact ⟨k, fun k' hk' => by rw [Res.le_eq (hf _ _ hk') (hk ▸ hr), hk]⟩

/-- Only large fuel matters. -/
theorem Ret.shift {f : Nat → Res ε α} (hf : Mono f) {r : Res ε α} : Ret f r ↔ Ret (fun k => f (k + 1)) r := by
  constructor
  · rintro ⟨hr, k, hk⟩
    exact ⟨hr, k, by show f (k + 1) = r; rw [Res.le_eq (hf _ _ (Nat.le_succ k)) (hk ▸ hr), hk]⟩
  · rintro ⟨hr, k, hk⟩; exact ⟨hr, k + 1, hk⟩

theorem Ret.bind_iff {f : Nat → Res ε α} {g : Nat → α → Res ε β} (hf : Mono f) (hg : ∀ a, Mono (fun k => g k a))
    {r : Res ε β} :
    Ret (fun k => f k >>= g k) r ↔ (∃ a, Ret f (.ok a) ∧ Ret (fun k => g k a) r) ∨ (∃ e, Ret f (.err e) ∧ r = .err e) ∨
      (Ret f .panic ∧ r = .panic) := by
  constructor
  · rintro ⟨hr, k, hk⟩
    simp only at hk
    cases hfk : f k with
    | ok a => rw [hfk] at hk; exact .inl ⟨a, ⟨by simp, k, hfk⟩, hr, k, hk⟩
    | err e => rw [hfk] at hk; exact .inr (.inl ⟨e, ⟨by simp, k, hfk⟩, hk.symm⟩)
    | panic => rw [hfk] at hk; exact .inr (.inr ⟨⟨by simp, k, hfk⟩, hk.symm⟩)
    | diverge => rw [hfk] at hk; exact absurd hk.symm hr
  · rintro (⟨a, ha, hb⟩ | ⟨e, ⟨_, k, hk⟩, rfl⟩ | ⟨⟨_, k, hk⟩, rfl⟩)
    · have hr := hb.1
      obtain ⟨k1, h1⟩ := ha.ev hf
      obtain ⟨k2, h2⟩ := hb.ev (hg a)
      refine ⟨hr, max k1 k2, ?_⟩
      show f _ >>= g _ = r
      rw [h1 _ (Nat.le_max_left _ _)]
      exact h2 _ (Nat.le_max_right _ _)
    · exact ⟨by simp, k, by simp only [hk]; rfl⟩
    · exact ⟨by simp, k, by simp only [hk]; rfl⟩

/-- The continuation does not use fuel. -/
theorem Ret.map_iff {f : Nat → Res ε α} {g : α → Res ε β} (hf : Mono f) {r : Res ε β} :
    Ret (fun k => f k >>= g) r ↔ (∃ a, Ret f (.ok a) ∧ r = g a ∧ g a ≠ .diverge) ∨ (∃ e, Ret f (.err e) ∧ r = .err e) ∨
      (Ret f .panic ∧ r = .panic) := by
  rw [Ret.bind_iff (g := fun _ => g) hf (fun _ => Mono.const _)]
  constructor
  · rintro (⟨a, ha, hr, _, rfl⟩ | h)
    · exact .inl ⟨a, ha, rfl, hr⟩
    · exact .inr h
  · rintro (⟨a, ha, rfl, hr⟩ | h)
    · exact .inl ⟨a, ha, hr, 0, rfl⟩
    · exact .inr h

theorem Ret.map_ok_iff {f : Nat → Res ε α} {g : α → Res ε β} (hf : Mono f) {b : β} :
    Ret (fun k => f k >>= g) (.ok b) ↔ ∃ a, Ret f (.ok a) ∧ g a = .ok b := by
  rw [Ret.map_iff hf]
  constructor
  · rintro (⟨a, ha, h, _⟩ | ⟨_, _, h⟩ | ⟨_, h⟩)
    · exact ⟨a, ha, h.symm⟩
    · cases h
    · cases h
  · rintro ⟨a, ha, h⟩; exact .inl ⟨a, ha, h.symm, by simp [h]⟩

theorem Ret.bind_ok_iff {f : Nat → Res ε α} {g : Nat → α → Res ε β} (hf : Mono f) (hg : ∀ a, Mono (fun k => g k a))
    {b : β} : Ret (fun k => f k >>= g k) (.ok b) ↔ ∃ a, Ret f (.ok a) ∧ Ret (fun k => g k a) (.ok b) := by
  rw [Ret.bind_iff hf hg]; simp

theorem Ret.bind_of_ok {f : Nat → Res ε α} {g : Nat → α → Res ε β} (hf : Mono f) (hg : ∀ a, Mono (fun k => g k a))
    {a : α} (ha : Ret f (.ok a)) {r : Res ε β} : Ret (fun k => f k >>= g k) r ↔ Ret (fun k => g k a) r := by
  rw [Ret.bind_iff hf hg]
  constructor
  · rintro (⟨a', ha', h⟩ | ⟨e, he, _⟩ | ⟨he, _⟩)
    · cases ha.unique hf ha'; exact h
    · cases ha.unique hf he
    · cases ha.unique hf he
  · intro h; exact .inl ⟨a, ha, h⟩

theorem Ret.bind_of_err {f : Nat → Res ε α} {g : Nat → α → Res ε β} (hf : Mono f) (hg : ∀ a, Mono (fun k => g k a))
    {e : ε} (ha : Ret f (.err e)) {r : Res ε β} : Ret (fun k => f k >>= g k) r ↔ r = .err e := by
  rw [Ret.bind_iff hf hg]
  constructor
  · rintro (⟨a', ha', h⟩ | ⟨e', he, rfl⟩ | ⟨he, _⟩)
    · cases ha.unique hf ha'
    · cases ha.unique hf he; rfl
    · cases ha.unique hf he
  · intro h; exact .inr (.inl ⟨e, ha, h⟩)

end

variable {x : Ext} {S : SchemaContext} {P : List TypeDef}

theorem fromNode_monoF (i : Str) (s : Queue) : Mono (fun k => fromNode x queueOps P k i s) :=
  fun _ _ h => fromNode_mono h i s

theorem Cursor.abs_surj (s : Queue) : ∃ c : Cursor, c.abs = s :=
  ⟨⟨s.node, s.pending, [], none⟩, by simp [abs, Cursor.pending]⟩

/-- The specification of the cursor can be used instead of the cursor. -/
theorem FromNode.queue {i : Str} {s : Queue} {r : Res DErr (Val × Queue)} :
    FromNode x P i s r ↔ Ret (fun k => fromNode x queueOps P k i s) r := by
  constructor
  · intro h
    obtain ⟨c, rfl⟩ := Cursor.abs_surj s
    have := h c rfl
    simpa only [← fromNode_hom cursor_hom] using this
  · rintro h c rfl
    simpa only [← fromNode_hom cursor_hom] using h

theorem FromNode.unique {i : Str} {s : Queue} {r r' : Res DErr (Val × Queue)} (h : FromNode x P i s r)
    (h' : FromNode x P i s r') : r = r' := Ret.unique (fromNode_monoF i s) (FromNode.queue.1 h) (FromNode.queue.1 h')

/-- One call. -/
theorem FromNode.step {i : Str} {t : TypeDef} (hf : findType P i = some t) {s : Queue} {r : Res DErr (Val × Queue)} :
    FromNode x P i s r ↔
      Ret (fun k => runFrom x queueOps P (fromNode x queueOps P k) (lookahead queueOps P k) k t s) r := by
  rw [FromNode.queue]
  rw [Ret.shift (fromNode_monoF i s)]
  simp only [fromNode, hf]

theorem runFrom_monoF (t : TypeDef) (s : Queue) :
    Mono (fun k => runFrom x queueOps P (fromNode x queueOps P k) (lookahead queueOps P k) k t s) :=
  fun _ _ h => runFrom_mono (fun i s => fromNode_mono h i s) (fun i s => lookahead_mono h i s) h t s

theorem readVal_monoF (v : ValRead) (s : Queue) : Mono (fun k => readVal x queueOps (fromNode x queueOps P k) v s) :=
  fun _ _ h => readVal_mono (fun i s => fromNode_mono h i s) v s

theorem readOn_monoF (v : ValRead) (e : Elem) : Mono (fun k => readOn x queueOps (fromNode x queueOps P k) v e) :=
  fun _ _ h => readOn_mono (fun i s => fromNode_mono h i s) v e

theorem loopNext_monoF (q : QName) (v : ValRead) (s : Queue) :
    Mono (fun k => loopNext x queueOps (fromNode x queueOps P k) q v k s) :=
  fun _ _ h => loopNext_mono (fun i s => fromNode_mono h i s) q v h s

theorem loopLook_monoF (i : Str) (v : ValRead) (s : Queue) :
    Mono (fun k => loopLook x queueOps (fromNode x queueOps P k) (lookahead queueOps P k) i v k s) :=
  fun _ _ h => loopLook_mono (fun i s => fromNode_mono h i s) (fun i s => lookahead_mono h i s) i v h s

theorem readLeaf_monoF (l : LeafRead) (s : Queue) :
    Mono (fun k => readLeaf x queueOps (fromNode x queueOps P k) (lookahead queueOps P k) k l s) :=
  fun _ _ h => readLeaf_mono (fun i s => fromNode_mono h i s) (fun i s => lookahead_mono h i s) h l s

theorem readLeaves_monoF (ls : List (Str × LeafRead)) (s : Queue) :
    Mono (fun k => readLeaves x queueOps (fromNode x queueOps P k) (lookahead queueOps P k) k ls s) :=
  fun _ _ h => readLeaves_mono (fun i s => fromNode_mono h i s) (fun i s => lookahead_mono h i s) h ls s

theorem readChoice_monoF (self : Str) (vs : List (Str × VarRead)) (s : Queue) :
    Mono (fun k => readChoice x queueOps (fromNode x queueOps P k) (lookahead queueOps P k) k self vs s) :=
  fun _ _ h => readChoice_mono (fun i s => fromNode_mono h i s) (fun i s => lookahead_mono h i s) h self vs s

theorem lookahead_monoF (i : Str) (s : Queue) : Mono (fun k => lookahead queueOps P k i s) :=
  fun _ _ h => lookahead_mono h i s

/-- The value of a child element, in terms of the schema. -/
theorem readOn_iff {c : LeafContent} {vr : ValRead} (hc : contentRead x S c = .ok vr) {ch : Elem} {r : Res DErr Val} :
    Ret (fun k => readOn x queueOps (fromNode x queueOps P k) vr ch) r ↔ ReadsAs x S P c ch r := by
  have htx : queueOps.text (queueOps.mkNode ch) = Queue.textVal ch := rfl
  rcases contentRead_ok hc with ⟨t, hm, rfl⟩ | ⟨f, hm, rfl⟩ | ⟨n, i, hm, hi, rfl⟩
  · have hR : ReadsAs x S P c ch r ↔ r = withText ch (fun s =>
        match parsePrim x t.prim s with | some v => .ok v | none => .err (.parseType t.xsdName s)) := by
      constructor
      · rintro ⟨c', hm', h⟩; cases hm.functional hm'; exact h
      · intro h; exact ⟨_, hm, h⟩
    rw [hR]
    have : ∀ k, readOn x queueOps (fromNode x queueOps P k) (.text t) ch = withText ch (fun s =>
        match parsePrim x t.prim s with | some v => .ok v | none => .err (.parseType t.xsdName s)) := by
      intro k
      simp only [readOn, readVal, htx, withText]
      cases Queue.textVal ch with
      | error e => rfl
      | ok s =>
        simp only [ofExcept, Res.bind_ok, parseLit]
        cases parsePrim x t.prim s <;> rfl
    simp only [this]
    refine Ret.const ?_
    unfold withText
    split
    · simp only; split <;> simp
    · simp
  · have hR : ReadsAs x S P c ch r ↔ r = withText ch (fun s => if s = f then .ok .unit else .err (.fixedMismatch f s)) := by
      constructor
      · rintro ⟨c', hm', h⟩; cases hm.functional hm'; exact h
      · intro h; exact ⟨_, hm, h⟩
    rw [hR]
    have : ∀ k, readOn x queueOps (fromNode x queueOps P k) (.fixed f) ch =
        withText ch (fun s => if s = f then .ok .unit else .err (.fixedMismatch f s)) := by
      intro k
      simp only [readOn, readVal, htx, withText]
      cases Queue.textVal ch with
      | error e => rfl
      | ok s =>
        simp only [ofExcept, Res.bind_ok]
        split <;> rfl
    simp only [this]
    refine Ret.const ?_
    unfold withText
    split
    · simp only; split <;> simp
    · simp
  · have hR : ReadsAs x S P c ch r ↔ ∃ r', FromNode x P i (Queue.new ch) r' ∧ r = r'.fst := by
      constructor
      · rintro ⟨c', hm', h⟩
        cases hm.functional hm'
        obtain ⟨i', r', hi', h, rfl⟩ := h
        rw [hi] at hi'; cases hi'
        exact ⟨r', h, rfl⟩
      · rintro ⟨r', h, rfl⟩; exact ⟨_, hm, i, r', hi, h, rfl⟩
    rw [hR]
    have : ∀ k, readOn x queueOps (fromNode x queueOps P k) (.call i) ch =
        (fromNode x queueOps P k i (Queue.new ch)).fst := by
      intro k
      have : queueOps.mkNode ch = Queue.new ch := rfl
      simp only [readOn, readVal, this]
      cases fromNode x queueOps P k i (Queue.new ch) <;> rfl
    simp only [this, FromNode.queue]
    constructor
    · rintro ⟨hr, k, rfl⟩
      refine ⟨_, ⟨?_, k, rfl⟩, rfl⟩
      intro h
      simp only at h hr
      rw [h] at hr; exact hr rfl
    · rintro ⟨r', ⟨hr, k, rfl⟩, rfl⟩
      refine ⟨?_, k, rfl⟩
      cases h : fromNode x queueOps P k i (Queue.new ch) with
      | diverge => exact absurd h hr
      | _ => simp [Res.fst, h]

end Xsd
