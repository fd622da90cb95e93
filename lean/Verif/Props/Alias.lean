import Verif.Model.Codegen
import Verif.Props.Enums
import Verif.Props.Literals
/-!
# Following type aliases (C48)

A root that is a `Leaf` with a named content is an alias. `SchemaContext::resolve` and the three functions of
`LeafContent` follow aliases without a bound; here: with fuel. More than `aliasFuel` never helps, so a divergence of the
model is a divergence of the code.
-/
namespace Xsd

/-- Specification: `n` is defined as another name for `m`. -/
def SchemaContext.AliasOf (S : SchemaContext) (n m : Name) : Prop :=
  ∃ d, S.get n = some (.leaf d) ∧ d.content = .named m

/-- One or more alias steps. -/
inductive SchemaContext.Aliases (S : SchemaContext) : Name → Name → Prop where
  | one {n m : Name} (h : S.AliasOf n m) : Aliases S n m
  | step {n m k : Name} (h : S.AliasOf n m) (t : Aliases S m k) : Aliases S n k

theorem SchemaContext.Aliases.snoc {S : SchemaContext} {a b c : Name} (h : S.Aliases a b) (h' : S.AliasOf b c) :
    S.Aliases a c := by
  induction h with
  | one h => exact .step h (.one h')
  | step h _ ih => exact .step h (ih h')

/-- A chain of `k` alias steps from `n`: the names passed through. -/
inductive SchemaContext.Chain (S : SchemaContext) : Name → List Name → Prop where
  | nil (n : Name) : Chain S n []
  | cons {n m : Name} {l : List Name} (h : S.AliasOf n m) (t : Chain S m l) : Chain S n (n :: l)

theorem SchemaContext.Chain.mem {S : SchemaContext} {n : Name} {l : List Name} (h : S.Chain n l) :
    ∀ m ∈ l, m ∈ S.elements.map Prod.fst := by
  induction h with
  | nil => simp
  | cons h _ ih =>
    intro m hm
    rcases List.mem_cons.1 hm with rfl | hm
    · obtain ⟨d, hd, _⟩ := h
      exact List.mem_map.2 ⟨_, alookup_mem hd, rfl⟩
    · exact ih m hm

/-- Every name further along the chain is reached by aliases from the start. -/
theorem SchemaContext.Chain.reach {S : SchemaContext} {n m : Name} {l : List Name} (h : S.AliasOf n m) (t : S.Chain m l) :
    ∀ k ∈ l, S.Aliases n k := by
  induction t generalizing n with
  | nil => simp
  | cons h' t ih =>
    intro k hk
    rcases List.mem_cons.1 hk with rfl | hk
    · exact .one h
    · exact .step h (ih h' k hk)

theorem SchemaContext.Chain.nodup {S : SchemaContext} (hac : ∀ n, ¬ S.Aliases n n) {n : Name} {l : List Name}
    (h : S.Chain n l) : l.Nodup := by
  induction h with
  | nil => exact List.nodup_nil
  | cons h t ih => exact List.nodup_cons.2 ⟨fun hm => hac _ (t.reach h _ hm), ih⟩

theorem inlineAlias_diverge {S : SchemaContext} : ∀ {k : Nat} {n : Name}, inlineAlias S k (.named n) = .diverge →
    ∃ l, S.Chain n l ∧ l.length = k
  | 0, n, _ => ⟨[], .nil n, rfl⟩
  | k + 1, n, h => by
    simp only [inlineAlias] at h
    split at h
    · next d hd =>
      cases hc : d.content with
      | literal t => rw [hc] at h; simp [inlineAlias] at h
      | fixed t => rw [hc] at h; simp [inlineAlias] at h
      | named m =>
        rw [hc] at h
        obtain ⟨l, hl, hk⟩ := inlineAlias_diverge h
        exact ⟨n :: l, .cons ⟨d, hd, hc⟩ hl, by simp [hk]⟩
    · cases h

theorem inlineAlias_total {S : SchemaContext} : ∀ {k : Nat} {c : LeafContent},
    inlineAlias S k c = .diverge ∨ ∃ c', inlineAlias S k c = .ok c'
  | k, .literal t => .inr ⟨_, by simp only [inlineAlias]; rfl⟩
  | k, .fixed t => .inr ⟨_, by simp only [inlineAlias]; rfl⟩
  | 0, .named n => .inl rfl
  | k + 1, .named n => by
    simp only [inlineAlias]
    split
    · exact inlineAlias_total
    · exact .inr ⟨_, rfl⟩

theorem inlineAlias_chain {S : SchemaContext} {n : Name} {l : List Name} (h : S.Chain n l) : ∀ k, k ≤ l.length →
    inlineAlias S k (.named n) = .diverge := by
  induction h with
  | nil => intro k hk; cases Nat.le_zero.1 hk; rfl
  | cons h t ih =>
    intro k hk
    cases k with
    | zero => rfl
    | succ k =>
      obtain ⟨d, hd, hc⟩ := h
      simp only [inlineAlias, hd, hc]
      exact ih k (by simpa using hk)

theorem SchemaContext.Aliases.chain {S : SchemaContext} {n m : Name} (h : S.Aliases n m) :
    ∀ l, S.Chain m l → ∃ l', S.Chain n l' ∧ l.length < l'.length := by
  induction h with
  | one h => intro l hl; exact ⟨_ :: l, .cons h hl, by simp⟩
  | step h t ih =>
    intro l hl
    obtain ⟨l', h1, h2⟩ := ih l hl
    exact ⟨_ :: l', .cons h h1, by simp; omega⟩

/-- A cycle gives chains of every length. -/
theorem cycle_chain {S : SchemaContext} {n : Name} (h : S.Aliases n n) (k : Nat) : ∃ l, S.Chain n l ∧ k ≤ l.length := by
  induction k with
  | zero => exact ⟨[], .nil n, Nat.zero_le _⟩
  | succ k ih =>
    obtain ⟨l, h1, h2⟩ := ih
    obtain ⟨l', h3, h4⟩ := h.chain l h1
    exact ⟨l', h3, by omega⟩

/-- **C48**, schemas without alias cycles: following aliases ends, at a name that is not an alias, or at a literal or
fixed value.

Missing: schemas with a cycle; there it never ends (`C48_cycle`, `C48_false`). -/
theorem C48_terminates_partial (S : SchemaContext) (hac : ∀ n, ¬ S.Aliases n n) (c : LeafContent) :
    ∃ c', inlined S c = .ok c' ∧ ∀ m, c' = .named m → ¬ ∃ d, S.get m = some (.leaf d) := by
  have key : ∀ k c c', inlineAlias S k c = .ok c' → ∀ m, c' = .named m → ¬ ∃ d, S.get m = some (.leaf d) := by
    intro k
    induction k with
    | zero =>
      intro c c' h m hm
      cases c <;> simp [inlineAlias] at h <;> subst h <;> cases hm
    | succ k ih =>
      intro c c' h m hm
      cases c with
      | literal t => simp [inlineAlias] at h; subst h; cases hm
      | fixed t => simp [inlineAlias] at h; subst h; cases hm
      | named n =>
        simp only [inlineAlias] at h
        split at h
        · exact ih _ _ h m hm
        · next hn =>
          cases h; cases hm
          rintro ⟨d, hd⟩
          exact hn d hd
  rcases inlineAlias_total (S := S) (k := S.aliasFuel) (c := c) with h | ⟨c', h⟩
  · exfalso
    cases c with
    | literal t => simp [inlineAlias, SchemaContext.aliasFuel] at h
    | fixed t => simp [inlineAlias, SchemaContext.aliasFuel] at h
    | named n =>
      obtain ⟨l, hl, hk⟩ := inlineAlias_diverge h
      have := nodup_length_le (hl.nodup hac) hl.mem
      simp [hk, SchemaContext.aliasFuel] at this
      omega
  · exact ⟨c', h, key _ _ _ h⟩

/-- **C48**, `SchemaContext::resolve` on schemas without alias cycles.

Missing: as for `C48_terminates_partial`. -/
theorem C48_resolve_partial (S : SchemaContext) (hac : ∀ n, ¬ S.Aliases n n) (n : Name) :
    ∃ r, S.resolve n = .ok r ∧ ∀ d m, r = some (.leaf d) → d.content ≠ .named m := by
  have hd : ∀ k n, S.resolveFrom k (S.get n) = .diverge → ∃ l, S.Chain n l ∧ l.length + 1 ≥ k := by
    intro k
    induction k with
    | zero => intro n _; exact ⟨[], .nil n, Nat.zero_le _⟩
    | succ k ih =>
      intro n h
      simp only [SchemaContext.resolveFrom] at h
      split at h
      · next d hd =>
        split at h
        · next m hm =>
          obtain ⟨l, hl, hk⟩ := ih m h
          exact ⟨n :: l, .cons ⟨d, hd, hm⟩ hl, by simp; omega⟩
        · cases h
      · cases h
  have ht : ∀ k r, S.resolveFrom k r = .diverge ∨ ∃ r', S.resolveFrom k r = .ok r' ∧
      ∀ d m, r' = some (.leaf d) → d.content ≠ .named m := by
    intro k
    induction k with
    | zero => intro r; exact .inl rfl
    | succ k ih =>
      intro r
      simp only [SchemaContext.resolveFrom]
      split
      · next d =>
        split
        · exact ih _
        · next hc =>
          refine .inr ⟨_, rfl, fun d' m h => ?_⟩
          cases h
          exact fun h => hc m h
      · next hr =>
        refine .inr ⟨_, rfl, fun d m h => ?_⟩
        exact absurd h (hr d)
  rcases ht S.aliasFuel (S.get n) with h | h
  · exfalso
    obtain ⟨l, hl, hk⟩ := hd _ _ h
    have := nodup_length_le (hl.nodup hac) hl.mem
    simp [SchemaContext.aliasFuel] at this hk
    omega
  · exact h

/-- **C48**: with a cycle, no amount of fuel is enough. -/
theorem C48_cycle {S : SchemaContext} {n : Name} (h : S.Aliases n n) (k : Nat) :
    inlineAlias S k (.named n) = .diverge := by
  obtain ⟨l, h1, h2⟩ := cycle_chain h k
  exact inlineAlias_chain h1 k h2

/-- More fuel never helps: a divergence of the model is a divergence of the code. -/
theorem inlined_fuel (S : SchemaContext) (c : LeafContent) (h : inlined S c = .diverge) (k : Nat) :
    inlineAlias S k c = .diverge := by
  cases c with
  | literal t => simp [inlined, inlineAlias, SchemaContext.aliasFuel] at h
  | fixed t => simp [inlined, inlineAlias, SchemaContext.aliasFuel] at h
  | named n =>
    obtain ⟨l, hl, hk⟩ := inlineAlias_diverge h
    -- the chain is longer than the number of names, so a name repeats
    have hdup : ¬ l.Nodup := fun hnd => by
      have := nodup_length_le hnd hl.mem
      simp [hk, SchemaContext.aliasFuel] at this
      omega
    suffices ∀ k, ∃ l, S.Chain n l ∧ k ≤ l.length by
      obtain ⟨l, h1, h2⟩ := this k
      exact inlineAlias_chain h1 k h2
    clear h hk
    induction hl with
    | nil => exact absurd List.nodup_nil hdup
    | @cons n m l h t ih =>
      by_cases hm : n ∈ l
      · exact fun k => cycle_chain (t.reach h n hm) k
      · have := ih (fun hnd => hdup (List.nodup_cons.2 ⟨hm, hnd⟩))
        intro k
        obtain ⟨l', h1, h2⟩ := this k
        exact ⟨n :: l', .cons h h1, by simp; omega⟩

/-- Aliases that go down in some rank have no cycle. -/
theorem acyclic_of_rank {S : SchemaContext} (rank : Name → Nat) (h : ∀ n m, S.AliasOf n m → rank m < rank n) (n : Name) :
    ¬ S.Aliases n n := by
  have : ∀ a b, S.Aliases a b → rank b < rank a := by
    intro a b hab
    induction hab with
    | one hh => exact h _ _ hh
    | step hh _ ih => exact Nat.lt_trans ih (h _ _ hh)
  exact fun hn => Nat.lt_irrefl _ (this n n hn)

namespace Alias

/-- `<element name="a" type="tns:a"/>` beside a type `a`: the element becomes an alias of the type of the same
name and overwrites that type. -/
def n : Name := ⟨c!"a", .id 1⟩
def selfAlias : SchemaContext where
  elements := [(n, .leaf ⟨.named n, [], none⟩)]
  target := .id 1
  isQualified := true
  namespaces := (Namespaces.empty.getOrInsert c!"urn:a").2

/-- **C48** is false in general: an element with the same name as its type. -/
theorem C48_false : (∀ k, inlineAlias selfAlias k (.named n) = .diverge) ∧ inlined selfAlias (.named n) = .diverge :=
  have h : selfAlias.Aliases n n := .one ⟨_, rfl, rfl⟩
  ⟨C48_cycle h, C48_cycle h _⟩

/-- An element of a type that is another name of a literal type. -/
def b : Name := ⟨c!"b", .id 1⟩
def c : Name := ⟨c!"c", .id 1⟩
def good : SchemaContext where
  elements := [(n, .leaf ⟨.named b, [], none⟩), (b, .leaf ⟨.named c, [], none⟩), (c, .leaf ⟨.literal .string, [], none⟩)]
  target := .id 1
  isQualified := true
  namespaces := (Namespaces.empty.getOrInsert c!"urn:a").2

theorem good_acyclic (m : Name) : ¬ good.Aliases m m := by
  refine acyclic_of_rank (fun m => if m = n then 2 else if m = b then 1 else 0) ?_ m
  rintro m k ⟨d, hd, hk⟩
  simp only [SchemaContext.get, good, alookup] at hd
  split at hd
  · next h => cases hd; cases hk; cases h; decide
  · split at hd
    · next h => cases hd; cases hk; cases h; decide
    · split at hd
      · cases hd; cases hk
      · cases hd

example : inlined good (.named n) = .ok (.literal .string) := by decide +kernel

end Alias

end Xsd
