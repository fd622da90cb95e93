import Verif.Model.Prim
import Verif.Spec.Numeral
/-!
# C26: literal values survive formatting and parsing
-/
namespace Xsd

theorem digitVal_digitChar {d : Nat} (h : d < 10) : digitVal (digitChar d) = some d := by
  have : ∀ d : Fin 10, digitVal (digitChar d.val) = some d.val := by decide
  exact this ⟨d, h⟩

theorem parseDigits_append (a : Nat) (s t : Str) :
    parseDigits a (s ++ t) = (parseDigits a s).bind (fun b => parseDigits b t) := by
  induction s generalizing a with
  | nil => simp [parseDigits]
  | cons c cs ih =>
    simp only [List.cons_append, parseDigits]
    cases digitVal c <;> simp [ih]

theorem parseDigits_showDigits (f n : Nat) (h : n < f) : parseDigits 0 (showDigits f n) = some n := by
  induction f generalizing n with
  | zero => omega
  | succ f ih =>
    simp only [showDigits]
    split
    · next h10 => simp [parseDigits, digitVal_digitChar h10]
    · next h10 =>
      rw [parseDigits_append, ih (n / 10) (by omega)]
      simp [parseDigits, digitVal_digitChar (Nat.mod_lt n (by omega : 0 < 10))]
      omega

theorem showDigits_ne_nil (f n : Nat) (h : n < f) : showDigits f n ≠ [] := by
  cases f with
  | zero => omega
  | succ f => simp only [showDigits]; split <;> simp

theorem parseNat_showNat (n : Nat) : parseNat (showNat n) = some n := by
  unfold parseNat showNat
  rw [if_neg (showDigits_ne_nil _ _ (by omega)), parseDigits_showDigits _ _ (by omega)]

theorem showNat_all_digits (f n : Nat) : ∀ c ∈ showDigits f n, ∃ d, d < 10 ∧ c = digitChar d := by
  induction f generalizing n with
  | zero => simp [showDigits]
  | succ f ih =>
    simp only [showDigits]
    split
    · next h => intro c hc; simp at hc; exact ⟨n, h, hc⟩
    · intro c hc
      rcases List.mem_append.1 hc with hc | hc
      · exact ih _ c hc
      · simp at hc; exact ⟨n % 10, Nat.mod_lt _ (by omega), hc⟩

theorem digitChar_ne_sign {d : Nat} (h : d < 10) : digitChar d ≠ '+' ∧ digitChar d ≠ '-' := by
  have : ∀ d : Fin 10, digitChar d.val ≠ '+' ∧ digitChar d.val ≠ '-' := by decide
  exact this ⟨d, h⟩

theorem parseInt_showInt (signed : Bool) (lo hi i : Int) (h1 : lo ≤ i) (h2 : i ≤ hi)
    (hs : signed = true ∨ 0 ≤ i) : parseInt signed lo hi (showInt i) = some i := by
  unfold showInt
  by_cases hneg : i < 0
  · have hsg : signed = true := by rcases hs with h | h; exact h; omega
    have : (-(i.natAbs : Int)) = i := by omega
    simp [parseInt, parseSigned, hneg, hsg, parseNat_showNat, this, h1, h2]
  · rw [if_neg hneg]
    have hv : (i.natAbs : Int) = i := by omega
    have hp := parseNat_showNat i.natAbs
    have hd := showNat_all_digits (i.natAbs + 1) i.natAbs
    unfold showNat at *
    cases hsd : showDigits (i.natAbs + 1) i.natAbs with
    | nil => exact absurd hsd (showDigits_ne_nil _ _ (by omega))
    | cons c cs =>
      rw [hsd] at hp hd
      obtain ⟨d, hd10, rfl⟩ := hd c (by simp)
      have hns := digitChar_ne_sign hd10
      have : parseSigned signed (digitChar d :: cs) = some i := by
        unfold parseSigned
        split
        · next heq => exact absurd (List.cons.inj heq).1 hns.1
        · next heq => exact absurd (List.cons.inj heq).1 hns.2
        · simp [hp, hv]
      simp [parseInt, this, h1, h2]

/-- Specification: the values of the Rust type of a literal. -/
def PrimVal : Prim → Val → Prop
  | .string, v => ∃ s, v = .str s
  | .bool, v => ∃ b, v = .bool b
  | .i64, v => ∃ i, v = .int i ∧ -(2 ^ 63) ≤ i ∧ i < 2 ^ 63
  | .u64, v => ∃ i, v = .int i ∧ 0 ≤ i ∧ i < 2 ^ 64
  | .i32, v => ∃ i, v = .int i ∧ -(2 ^ 31) ≤ i ∧ i < 2 ^ 31
  | .decimal, v => ∃ n, v = .dec n
  | .f32, v => ∃ n, v = .flt n

/-- The only law assumed of third-party number types: parsing what was displayed gives the value
back. -/
def Ext.NumLaws (x : Ext) : Prop :=
  (∀ n, x.parseDecimal (x.showDecimal n) = some n) ∧ (∀ n, x.parseFloat (x.showFloat n) = some n)

/-- **C26.** Every value of every literal type is written as some text, and parsing that text gives the
same value. (For Decimal and f32 this is the assumed `NumLaws`.) -/
theorem C26_literal_roundtrip (x : Ext) (hx : x.NumLaws) (p : Prim) (v : Val) (hv : PrimVal p v) :
    ∃ s, showPrim x p v = some s ∧ parsePrim x p s = some v := by
  cases p with
  | string => obtain ⟨s, rfl⟩ := hv; exact ⟨s, rfl, rfl⟩
  | bool => obtain ⟨b, rfl⟩ := hv; cases b <;> exact ⟨_, rfl, rfl⟩
  | i64 =>
    obtain ⟨i, rfl, h1, h2⟩ := hv
    refine ⟨_, rfl, ?_⟩
    simp only [parsePrim]
    rw [parseInt_showInt true i64Min i64Max i (by unfold i64Min; omega) (by unfold i64Max; omega)
      (.inl rfl)]
    rfl
  | u64 =>
    obtain ⟨i, rfl, h1, h2⟩ := hv
    refine ⟨_, rfl, ?_⟩
    simp only [parsePrim]
    rw [parseInt_showInt false 0 u64Max i h1 (by unfold u64Max; omega) (.inr h1)]
    rfl
  | i32 =>
    obtain ⟨i, rfl, h1, h2⟩ := hv
    refine ⟨_, rfl, ?_⟩
    simp only [parsePrim]
    rw [parseInt_showInt true i32Min i32Max i (by unfold i32Min; omega) (by unfold i32Max; omega)
      (.inl rfl)]
    rfl
  | decimal => obtain ⟨n, rfl⟩ := hv; exact ⟨_, rfl, by simp [parsePrim, hx.1 n]⟩
  | f32 => obtain ⟨n, rfl⟩ := hv; exact ⟨_, rfl, by simp [parsePrim, hx.2 n]⟩

theorem digitVal_some {c : Char} {d : Nat} (h : digitVal c = some d) : d < 10 ∧ c = digitChar d := by
  unfold digitVal at h
  split at h
  · next hc =>
    have h0 : '0'.toNat = 48 := rfl
    have h9 : '9'.toNat = 57 := rfl
    rw [h0, h9] at hc
    simp only [Option.some.injEq] at h
    rw [h0] at h
    refine ⟨by omega, ?_⟩
    unfold digitChar
    rw [h0]
    have : 48 + d = c.toNat := by omega
    rw [this]
    exact (Char.ofNat_toNat c).symm
  · exact absurd h (by simp)

theorem numeral_parse {s : Str} {n : Nat} (h : Numeral s n) : s ≠ [] ∧ parseDigits 0 s = some n := by
  induction h with
  | digit d h => simp [parseDigits, digitVal_digitChar h]
  | snoc s n d hs h ih =>
    refine ⟨by simp, ?_⟩
    rw [parseDigits_append, ih.2]
    simp [parseDigits, digitVal_digitChar h]

theorem parse_numeral_aux (cs : Str) (a n : Nat) (pre : Str) (hpre : Numeral pre a)
    (h : parseDigits a cs = some n) : Numeral (pre ++ cs) n := by
  induction cs generalizing a pre with
  | nil => simp [parseDigits] at h; subst h; simpa using hpre
  | cons c cs ih =>
    simp only [parseDigits] at h
    cases hd : digitVal c with
    | none => rw [hd] at h; simp at h
    | some d =>
      rw [hd] at h
      obtain ⟨h10, rfl⟩ := digitVal_some hd
      have := ih _ (pre ++ [digitChar d]) (Numeral.snoc pre a d hpre h10) h
      simpa using this

theorem parseNat_iff (s : Str) (n : Nat) : parseNat s = some n ↔ Numeral s n := by
  constructor
  · intro h
    unfold parseNat at h
    split at h
    · simp at h
    · cases s with
      | nil => contradiction
      | cons c cs =>
        simp only [parseDigits] at h
        cases hd : digitVal c with
        | none => rw [hd] at h; simp at h
        | some d =>
          rw [hd] at h
          obtain ⟨h10, rfl⟩ := digitVal_some hd
          have := parse_numeral_aux cs d n [digitChar d] (Numeral.digit d h10) (by simpa using h)
          simpa using this
  · intro h
    obtain ⟨h1, h2⟩ := numeral_parse h
    simp [parseNat, h1, h2]

theorem numeral_no_sign {s : Str} {n : Nat} (h : Numeral s n) (c : Char) (hc : c = '+' ∨ c = '-')
    (cs : Str) : s ≠ c :: cs := by
  intro hs
  obtain ⟨h1, h2⟩ := numeral_parse h
  subst hs
  have : digitVal c = none := by rcases hc with rfl | rfl <;> decide
  simp [parseDigits, this] at h2

/-- **C26.** Integer literals: a text is accepted exactly when it is an optionally signed decimal numeral
(`-` only for signed types) whose value is in range, and then the value is that one; everything
else is rejected. In particular surrounding white space is rejected. -/
theorem C26_integer_texts (signed : Bool) (lo hi : Int) (s : Str) (i : Int) :
    parseInt signed lo hi s = some i ↔ IntText signed s i ∧ lo ≤ i ∧ i ≤ hi := by
  have key : parseInt signed lo hi s = some i ↔ parseSigned signed s = some i ∧ lo ≤ i ∧ i ≤ hi := by
    unfold parseInt
    cases parseSigned signed s with
    | none => simp
    | some j =>
      simp only [Option.some.injEq]
      split
      · next h => constructor
                  · intro hj; cases hj; exact ⟨rfl, h⟩
                  · rintro ⟨rfl, _⟩; rfl
      · next h => constructor
                  · intro hj; cases hj
                  · rintro ⟨rfl, h'⟩; exact absurd h' h
  rw [key]
  have : parseSigned signed s = some i ↔ IntText signed s i := by
    unfold parseSigned
    split
    · next ds =>
      constructor
      · intro h
        simp only [Option.map_eq_some_iff] at h
        obtain ⟨n, hn, rfl⟩ := h
        exact ⟨ds, n, (parseNat_iff _ _).1 hn, .inr (.inl ⟨rfl, rfl⟩)⟩
      · rintro ⟨ds', n, hn, ⟨h, _⟩ | ⟨h, rfl⟩ | ⟨_, h, _⟩⟩
        · exact absurd h.symm (numeral_no_sign hn _ (.inl rfl) _)
        · cases h; simp [(parseNat_iff _ _).2 hn]
        · cases h
    · next ds =>
      constructor
      · intro h
        split at h
        · next hs =>
          simp only [Option.map_eq_some_iff] at h
          obtain ⟨n, hn, rfl⟩ := h
          exact ⟨ds, n, (parseNat_iff _ _).1 hn, .inr (.inr ⟨hs, rfl, rfl⟩)⟩
        · cases h
      · rintro ⟨ds', n, hn, ⟨h, _⟩ | ⟨h, _⟩ | ⟨hs, h, rfl⟩⟩
        · exact absurd h.symm (numeral_no_sign hn _ (.inr rfl) _)
        · cases h
        · cases h; simp [hs, (parseNat_iff _ _).2 hn]
    · next h1 h2 =>
      constructor
      · intro h
        simp only [Option.map_eq_some_iff] at h
        obtain ⟨n, hn, rfl⟩ := h
        exact ⟨s, n, (parseNat_iff _ _).1 hn, .inl ⟨rfl, rfl⟩⟩
      · rintro ⟨ds', n, hn, ⟨h, rfl⟩ | ⟨h, _⟩ | ⟨_, h, _⟩⟩
        · subst h; simp [(parseNat_iff _ _).2 hn]
        · exact absurd h (h1 ds')
        · exact absurd h (h2 ds')
  rw [this]

/-- **C26.** The integer types: the accepted texts are the numerals of the values of the type, and no others. -/
theorem C26_ranges (x : Ext) (s : Str) (v : Val) :
    (parsePrim x .i32 s = some v ↔ ∃ i, v = .int i ∧ IntText true s i ∧ -2 ^ 31 ≤ i ∧ i < 2 ^ 31) ∧
    (parsePrim x .i64 s = some v ↔ ∃ i, v = .int i ∧ IntText true s i ∧ -2 ^ 63 ≤ i ∧ i < 2 ^ 63) ∧
    (parsePrim x .u64 s = some v ↔ ∃ i, v = .int i ∧ IntText false s i ∧ 0 ≤ i ∧ i < 2 ^ 64) ∧
    (parsePrim x .string s = some v ↔ v = .str s) := by
  have key : ∀ (b : Bool) (lo hi : Int), (parseInt b lo hi s).map Val.int = some v ↔ ∃ i, v = .int i ∧ IntText b s i ∧ lo ≤ i ∧ i ≤ hi := by
    intro b lo hi
    rw [Option.map_eq_some_iff]
    constructor
    · rintro ⟨i, h, rfl⟩
      exact ⟨i, rfl, (C26_integer_texts b lo hi s i).1 h⟩
    · rintro ⟨i, rfl, h⟩
      exact ⟨i, (C26_integer_texts b lo hi s i).2 h, rfl⟩
  refine ⟨(key _ _ _).trans ?_, (key _ _ _).trans ?_, (key _ _ _).trans ?_, ?_⟩
  · constructor <;> rintro ⟨i, h1, h2, h3, h4⟩ <;> refine ⟨i, h1, h2, ?_⟩ <;> unfold i32Min i32Max at * <;> omega
  · constructor <;> rintro ⟨i, h1, h2, h3, h4⟩ <;> refine ⟨i, h1, h2, ?_⟩ <;> unfold i64Min i64Max at * <;> omega
  · constructor <;> rintro ⟨i, h1, h2, h3, h4⟩ <;> refine ⟨i, h1, h2, ?_⟩ <;> unfold u64Max at * <;> omega
  · simp [parsePrim, eq_comm]

/-- **C26.** `bool` accepts exactly `true` and `false` (in particular not `1`, `0` or padded text). -/
theorem C26_bool_texts (x : Ext) (s : Str) (v : Val) :
    parsePrim x .bool s = some v ↔
      (s = c!"true" ∧ v = .bool true) ∨ (s = c!"false" ∧ v = .bool false) := by
  simp only [parsePrim]
  split
  · next h => subst h; simp [eq_comm]
  · next h =>
    split
    · next h2 => subst h2; simp [eq_comm]
    · next h2 => simp [h, h2]

/-! Non-vacuity: boundary values, and laws that can be met. -/
example : PrimVal .i64 (.int (-9223372036854775808)) ∧ PrimVal .u64 (.int 18446744073709551615) :=
  ⟨⟨_, rfl, by omega, by omega⟩, ⟨_, rfl, by omega, by omega⟩⟩
example : showInt (-9223372036854775808) = c!"-9223372036854775808" := by decide +kernel
example : parseInt true i32Min i32Max c!"2147483648" = none ∧
    parseInt false 0 u64Max c!"-1" = none ∧ parseInt true i32Min i32Max c!"+7" = some 7 ∧
    parseInt true i32Min i32Max c!" 7" = none := by decide +kernel
example : IntText true c!"-12" (-12) :=
  ⟨c!"12", 12, Numeral.snoc c!"1" 1 2 (Numeral.digit 1 (by omega)) (by omega), .inr (.inr ⟨rfl, rfl, rfl⟩)⟩
/-- The laws are satisfiable: decimals/floats with the integer syntax. -/
def sampleExt : Ext where
  pascal s := match s with | [] => [] | c :: cs => c.toUpper :: cs
  snake s := s.map Char.toLower
  isAlphanumeric := Char.isAlphanum
  isAlphabetic := Char.isAlpha
  isWhitespace := Char.isWhitespace
  identOk s := s != [] && s.all (fun c => c.isAlphanum || c == '_')
  parseDecimal := parseNat
  showDecimal := showNat
  parseFloat := parseNat
  showFloat := showNat
example : sampleExt.NumLaws := ⟨parseNat_showNat, parseNat_showNat⟩

end Xsd
