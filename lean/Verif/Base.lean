/-!
# Base

Strings are lists of characters, so that every function on them is a small structural function the
kernel can evaluate. `c!"abc"` is the literal notation.
-/
open Lean

namespace Xsd

/-- A Rust `String`/`&str`, as its sequence of `char`s. Byte offsets are not modelled, except where the
code slices by byte (see `Verif/Model/VirtualName.lean`)
(the `String`s and `&str`s of xsd/src and xsd-internal/src, e.g. xsd-internal/src/ast/name.rs:16). -/
abbrev Str := List Char

/-- `c!"abc"` is `['a', 'b', 'c']`. -/
macro:max "c!" s:str : term => do
  let cs := s.getString.toList
  let elems : Array (TSyntax `term) := cs.toArray.map (fun c => Syntax.mkCharLit c)
  `(([$elems,*] : List Char))

/-- Outcome of a Rust computation: a value, an error value of type `ε`, a panic, or
non-termination. The last two are values of the model so that their absence is a theorem
(`Result`, e.g. xsd/src/decode.rs:51, and panics, e.g. xsd-internal/src/ast/namespaces.rs:41). -/
inductive Res (ε α : Type) where
  | ok (a : α)
  | err (e : ε)
  | panic
  | diverge
  deriving Repr, DecidableEq

namespace Res

variable {ε α β : Type}

/-- Rust's `?` operator (e.g. xsd/src/decode.rs:52). -/
def bind (x : Res ε α) (f : α → Res ε β) : Res ε β :=
  match x with
  | ok a => f a
  | err e => err e
  | panic => panic
  | diverge => diverge

/-- `?` (e.g. xsd/src/decode.rs:52). -/
instance : Monad (Res ε) where
  pure := ok
  bind := bind

@[simp] theorem pure_eq (a : α) : (pure a : Res ε α) = ok a := rfl
@[simp] theorem bind_ok (a : α) (f : α → Res ε β) : (ok a >>= f : Res ε β) = f a := rfl
@[simp] theorem bind_err (e : ε) (f : α → Res ε β) : (err e >>= f : Res ε β) = err e := rfl
@[simp] theorem bind_panic (f : α → Res ε β) : (panic >>= f : Res ε β) = panic := rfl
@[simp] theorem bind_diverge (f : α → Res ε β) : (diverge >>= f : Res ε β) = diverge := rfl

theorem bind_eq_ok {x : Res ε α} {f : α → Res ε β} {b : β} :
    (x >>= f) = ok b ↔ ∃ a, x = ok a ∧ f a = ok b := by
  cases x <;> simp

end Res

/-- Lookup in an association list: Rust's `HashMap::get`
(e.g. xsd-internal/src/ast/namespaces.rs:19, xsd-internal/src/xsd/context.rs:178). -/
def alookup {κ ν : Type} [DecidableEq κ] : List (κ × ν) → κ → Option ν
  | [], _ => none
  | (k, v) :: m, q => if k = q then some v else alookup m q

/-- Rust's `HashMap::insert`: replace the value of an existing key, otherwise add the key. The position of
a key in the list stands for nothing: HashMap iteration order is unspecified
(e.g. xsd-internal/src/ast/namespaces.rs:23, xsd-internal/src/xsd/context.rs:72). -/
def ainsert {κ ν : Type} [DecidableEq κ] : List (κ × ν) → κ → ν → List (κ × ν)
  | [], q, w => [(q, w)]
  | (k, v) :: m, q, w => if k = q then (k, w) :: m else (k, v) :: ainsert m q w

section AList
variable {κ ν : Type} [DecidableEq κ]

theorem alookup_ainsert (m : List (κ × ν)) (k q : κ) (v : ν) :
    alookup (ainsert m k v) q = if k = q then some v else alookup m q := by
  induction m with
  | nil => simp [ainsert, alookup]
  | cons p m ih =>
    obtain ⟨k', v'⟩ := p
    by_cases h : k' = k
    · subst h; simp only [ainsert, if_true, alookup]; split <;> simp_all
    · simp only [ainsert, if_neg h, alookup, ih]
      by_cases h2 : k' = q
      · subst h2; simp [Ne.symm h]
      · simp [h2]

theorem alookup_isSome_iff (m : List (κ × ν)) (q : κ) :
    (alookup m q).isSome = true ↔ q ∈ m.map Prod.fst := by
  induction m with
  | nil => simp [alookup]
  | cons p m ih =>
    obtain ⟨k', v'⟩ := p
    by_cases h : k' = q
    · simp [alookup, h]
    · simp only [alookup, if_neg h, ih, List.map_cons, List.mem_cons]
      constructor
      · exact Or.inr
      · rintro (h' | h')
        · exact absurd h'.symm h
        · exact h'

theorem alookup_eq_none_iff (m : List (κ × ν)) (q : κ) :
    alookup m q = none ↔ q ∉ m.map Prod.fst := by
  rw [← alookup_isSome_iff]; cases alookup m q <;> simp

theorem alookup_mem {m : List (κ × ν)} {q : κ} {v : ν} (h : alookup m q = some v) : (q, v) ∈ m := by
  induction m with
  | nil => simp [alookup] at h
  | cons p m ih =>
    obtain ⟨k', v'⟩ := p
    by_cases hk : k' = q
    · simp [alookup, hk] at h; simp [hk, h]
    · simp [alookup, hk] at h; exact List.mem_cons_of_mem _ (ih h)

theorem alookup_of_mem {m : List (κ × ν)} (hn : (m.map Prod.fst).Nodup) {q : κ} {v : ν}
    (h : (q, v) ∈ m) : alookup m q = some v := by
  induction m with
  | nil => simp at h
  | cons p m ih =>
    obtain ⟨k', v'⟩ := p
    simp only [List.map_cons, List.nodup_cons] at hn
    rcases List.mem_cons.1 h with h | h
    · cases h; simp [alookup]
    · have : k' ≠ q := by
        rintro rfl
        exact hn.1 (List.mem_map.2 ⟨_, h, rfl⟩)
      simp [alookup, this, ih hn.2 h]

theorem keys_ainsert (m : List (κ × ν)) (k : κ) (v : ν) :
    (ainsert m k v).map Prod.fst =
      if k ∈ m.map Prod.fst then m.map Prod.fst else m.map Prod.fst ++ [k] := by
  induction m with
  | nil => simp [ainsert]
  | cons p m ih =>
    obtain ⟨k', v'⟩ := p
    by_cases h : k' = k
    · simp [ainsert, h]
    · simp only [ainsert, if_neg h, List.map_cons, ih, List.mem_cons, Ne.symm h, false_or]
      split <;> simp

theorem nodup_keys_ainsert {m : List (κ × ν)} (hn : (m.map Prod.fst).Nodup) (k : κ) (v : ν) :
    ((ainsert m k v).map Prod.fst).Nodup := by
  rw [keys_ainsert]
  split
  · exact hn
  · next h =>
    rw [List.nodup_append]
    refine ⟨hn, by simp, ?_⟩
    intro a ha b hb
    simp at hb; subst hb
    rintro rfl
    exact h ha

theorem mem_keys_ainsert (m : List (κ × ν)) (k q : κ) (v : ν) :
    q ∈ (ainsert m k v).map Prod.fst ↔ q = k ∨ q ∈ m.map Prod.fst := by
  rw [keys_ainsert]
  split
  · next h =>
    constructor
    · exact Or.inr
    · rintro (rfl | h')
      · exact h
      · exact h'
  · simp [or_comm]

end AList

end Xsd
