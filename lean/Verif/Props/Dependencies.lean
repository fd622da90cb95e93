import Verif.Props.FileSample
/-!
# Generating a type and everything it depends on (C46)
-/
namespace Xsd

/-- `Needs deps a b`: `b` is `a`, or a dependency of a name that `a` needs. -/
inductive Needs (deps : List (Name × List Name)) (a : Name) : Name → Prop where
  | self : Needs deps a a
  | dep {b c l} (h : Needs deps a b) (hl : alookup deps b = some l) (hc : c ∈ l) : Needs deps a c

section
variable {α : Type} [DecidableEq α]

theorem mem_sinsert {l : List α} {a b : α} : b ∈ sinsert l a ↔ b ∈ l ∨ b = a := by
  unfold sinsert
  split
  · rename_i h
    constructor
    · exact .inl
    · rintro (h' | rfl)
      · exact h'
      · exact h
  · rw [List.mem_append, List.mem_singleton]

theorem nodup_sinsert {l : List α} {a : α} (h : l.Nodup) : (sinsert l a).Nodup := by
  unfold sinsert
  split
  · exact h
  · rename_i hn
    exact List.nodup_append.2 ⟨h, List.nodup_cons.2 ⟨List.not_mem_nil, List.nodup_nil⟩, fun b hb c hc => by
      rw [List.mem_singleton.1 hc]; rintro rfl; exact hn hb⟩

theorem mem_foldl_sinsert {l m : List α} {b : α} : b ∈ m.foldl sinsert l ↔ b ∈ l ∨ b ∈ m := by
  induction m generalizing l with
  | nil => simp
  | cons a m ih => rw [List.foldl_cons, ih, mem_sinsert, List.mem_cons, or_assoc]

theorem nodup_foldl_sinsert {l m : List α} (h : l.Nodup) : (m.foldl sinsert l).Nodup := by
  induction m generalizing l with
  | nil => exact h
  | cons a m ih => exact ih (nodup_sinsert h)

end

theorem mem_foldl_new {names new : List Name} {b : Name} : ∀ {l acc : List Name},
    b ∈ l.foldl (fun acc d => if d ∉ names ∧ d ∉ new then sinsert acc d else acc) acc ↔
      b ∈ acc ∨ (b ∈ l ∧ b ∉ names ∧ b ∉ new)
  | [], acc => by simp
  | d :: l, acc => by
    rw [List.foldl_cons, mem_foldl_new]
    by_cases hd : d ∉ names ∧ d ∉ new
    · rw [if_pos hd, mem_sinsert, List.mem_cons]
      constructor
      · rintro ((h | rfl) | h)
        · exact .inl h
        · exact .inr ⟨.inl rfl, hd⟩
        · exact .inr ⟨.inr h.1, h.2⟩
      · rintro (h | ⟨rfl | h, h'⟩)
        · exact .inl (.inl h)
        · exact .inl (.inr rfl)
        · exact .inr ⟨h, h'⟩
    · rw [if_neg hd, List.mem_cons]
      constructor
      · rintro (h | h)
        · exact .inl h
        · exact .inr ⟨.inr h.1, h.2⟩
      · rintro (h | ⟨rfl | h, h'⟩)
        · exact .inl h
        · exact absurd h' hd
        · exact .inr ⟨h, h'⟩

theorem mem_nextNames {deps : List (Name × List Name)} {names new : List Name} {b : Name} : ∀ {l acc : List Name},
    b ∈ nextNames deps names new l acc ↔
      b ∈ acc ∨ ∃ a ∈ l, b ∈ (alookup deps a).getD [] ∧ b ∉ names ∧ b ∉ new
  | [], acc => by simp [nextNames]
  | a :: l, acc => by
    unfold nextNames
    rw [mem_nextNames, mem_foldl_new]
    constructor
    · rintro ((h | h) | ⟨c, hc, h⟩)
      · exact .inl h
      · exact .inr ⟨a, .head _, h⟩
      · exact .inr ⟨c, .tail _ hc, h⟩
    · rintro (h | ⟨c, hc, h⟩)
      · exact .inl (.inl h)
      · rcases List.mem_cons.1 hc with rfl | hc
        · exact .inl (.inr h)
        · exact .inr ⟨c, hc, h⟩

theorem getD_needs {deps : List (Name × List Name)} {n a b : Name} (h : Needs deps n a) (hb : b ∈ (alookup deps a).getD []) :
    Needs deps n b := by
  cases hl : alookup deps a with
  | none => rw [hl] at hb; cases hb
  | some l => rw [hl] at hb; exact .dep h hl hb

/-- What the loop maintains. -/
structure Collect (deps : List (Name × List Name)) (n : Name) (names new : List Name) : Prop where
  nodup : names.Nodup
  needed : ∀ a, a ∈ names ∨ a ∈ new → Needs deps n a
  start : n ∈ names ∨ n ∈ new
  closed : ∀ a ∈ names, ∀ b ∈ (alookup deps a).getD [], b ∈ names ∨ b ∈ new
  fresh : ∀ a ∈ new, a ∉ names

/-- The names that may still be collected. -/
def missing (deps : List (Name × List Name)) (n : Name) (names : List Name) : Nat :=
  ((n :: deps.flatMap Prod.snd).filter (fun a => a ∉ names)).length

theorem needs_univ {deps : List (Name × List Name)} {n a : Name} (h : Needs deps n a) : a ∈ n :: deps.flatMap Prod.snd := by
  cases h with
  | self => exact .head _
  | dep h hl hc => exact .tail _ (List.mem_flatMap.2 ⟨_, alookup_mem hl, hc⟩)

theorem filter_length_lt {α : Type} {p q : α → Bool} {l : List α} (h : ∀ a, q a = true → p a = true) {b : α} (hb : b ∈ l)
    (hp : p b = true) (hq : q b = false) : (l.filter q).length < (l.filter p).length := by
  induction l with
  | nil => cases hb
  | cons a l ih =>
    have hle : (l.filter q).length ≤ (l.filter p).length := by
      rw [← List.countP_eq_length_filter, ← List.countP_eq_length_filter]
      exact List.countP_mono_left (fun x _ => h x)
    rcases List.mem_cons.1 hb with rfl | hb
    · rw [List.filter_cons_of_pos hp, List.filter_cons_of_neg (by rw [hq]; exact Bool.false_ne_true), List.length_cons]
      omega
    · have := ih hb
      by_cases hqa : q a = true
      · rw [List.filter_cons_of_pos hqa, List.filter_cons_of_pos (h a hqa), List.length_cons, List.length_cons]
        omega
      · rw [List.filter_cons_of_neg hqa]
        by_cases hpa : p a = true
        · rw [List.filter_cons_of_pos hpa, List.length_cons]
          omega
        · rw [List.filter_cons_of_neg hpa]
          omega

theorem collect_step {deps : List (Name × List Name)} {n : Name} {names new : List Name} (h : Collect deps n names new) :
    Collect deps n (new.foldl sinsert names) (nextNames deps names new new []) := by
  refine ⟨nodup_foldl_sinsert h.nodup, ?_, ?_, ?_, ?_⟩
  · rintro a (ha | ha)
    · exact h.needed a (mem_foldl_sinsert.1 ha)
    · rcases mem_nextNames.1 ha with ha | ⟨c, hc, hb, _⟩
      · cases ha
      · exact getD_needs (h.needed c (.inr hc)) hb
  · exact .inl (mem_foldl_sinsert.2 h.start)
  · intro a ha b hb
    by_cases hin : b ∈ names ∨ b ∈ new
    · exact .inl (mem_foldl_sinsert.2 hin)
    · rcases mem_foldl_sinsert.1 ha with ha | ha
      · exact absurd (h.closed a ha b hb) hin
      · exact .inr (mem_nextNames.2 (.inr ⟨a, ha, hb, fun hb => hin (.inl hb), fun hb => hin (.inr hb)⟩))
  · intro a ha hn
    rcases mem_nextNames.1 ha with ha | ⟨c, hc, hb, h1, h2⟩
    · cases ha
    · rcases mem_foldl_sinsert.1 hn with h' | h'
      · exact h1 h'
      · exact h2 h'

theorem collect_run {deps : List (Name × List Name)} {n : Name} : ∀ (k : Nat) (names new : List Name), Collect deps n names new →
    missing deps n names < k → ∃ l, collectNames deps k names new = .ok l ∧ l.Nodup ∧ ∀ a, a ∈ l ↔ Needs deps n a
  | 0, _, _, _, hk => absurd hk (Nat.not_lt_zero _)
  | k + 1, names, new, h, hk => by
    unfold collectNames
    by_cases hn : new = []
    · rw [if_pos hn]
      refine ⟨names, rfl, h.nodup, fun a => ⟨fun ha => h.needed a (.inl ha), fun ha => ?_⟩⟩
      subst hn
      induction ha with
      | self => exact h.start.resolve_right (by nofun)
      | dep _ hl hc ih => exact (h.closed _ ih _ (by rw [hl]; exact hc)).resolve_right (by nofun)
    · rw [if_neg hn]
      refine collect_run k _ _ (collect_step h) ?_
      obtain ⟨a, as, rfl⟩ := List.exists_cons_of_ne_nil hn
      have ha : a ∈ a :: as := .head _
      refine Nat.lt_of_lt_of_le ?_ (Nat.le_of_lt_succ hk)
      unfold missing
      refine filter_length_lt (b := a) ?_ (needs_univ (h.needed a (.inr ha))) ?_ ?_
      · intro b hb
        replace hb := of_decide_eq_true hb
        exact decide_eq_true fun hb' => hb (mem_foldl_sinsert.2 (.inl hb'))
      · exact decide_eq_true (h.fresh a ha)
      · exact decide_eq_false (fun hf => hf (mem_foldl_sinsert.2 (.inr ha)))

/-- C46, collecting the names: for every dependency graph, cyclic or not, the loop ends with exactly the names that are
needed, each once. -/
theorem C46_collect (deps : List (Name × List Name)) (n : Name) :
    ∃ l, collectNames deps (depsFuel deps) [] [n] = .ok l ∧ l.Nodup ∧ ∀ a, a ∈ l ↔ Needs deps n a := by
  refine collect_run _ _ _ ⟨List.nodup_nil, ?_, .inr (.head _), by nofun, by nofun⟩ ?_
  · rintro a (ha | ha)
    · cases ha
    · rw [List.mem_singleton.1 ha]; exact .self
  · unfold missing depsFuel
    have := List.length_filter_le (fun a => decide (a ∉ ([] : List Name))) (n :: deps.flatMap Prod.snd)
    rw [List.length_cons] at this
    omega

theorem emit_ok {x : Ext} {S : SchemaContext} : ∀ {names already : List Name} {ds : List TypeDef} {already' : List Name},
    names.Nodup → emitNames x S names already = .ok (ds, already') →
      (names.filter (fun a => a ∉ already)).map (generateElement x S) = ds.map Res.ok ∧
      ∀ a, a ∈ already' ↔ a ∈ already ∨ a ∈ names
  | [], already, ds, already', _, h => by
    cases h
    exact ⟨rfl, fun a => by simp⟩
  | n :: ns, already, ds, already', hnd, h => by
    rw [List.nodup_cons] at hnd
    unfold emitNames at h
    by_cases hn : n ∈ already
    · rw [if_pos hn] at h
      obtain ⟨h1, h2⟩ := emit_ok hnd.2 h
      rw [List.filter_cons_of_neg (by simpa using hn)]
      refine ⟨h1, fun a => (h2 a).trans ?_⟩
      rw [List.mem_cons]
      constructor
      · rintro (h | h)
        · exact .inl h
        · exact .inr (.inr h)
      · rintro (h | rfl | h)
        · exact .inl h
        · exact .inl hn
        · exact .inr h
    · rw [if_neg hn] at h
      rw [List.filter_cons_of_pos (by simpa using hn)]
      cases hg : generateElement x S n with
      | err e => rw [hg] at h; cases h
      | panic => rw [hg] at h; cases h
      | diverge => rw [hg] at h; cases h
      | ok d =>
        rw [hg] at h
        cases he : emitNames x S ns (sinsert already n) with
        | err e => rw [he] at h; cases h
        | panic => rw [he] at h; cases h
        | diverge => rw [he] at h; cases h
        | ok r =>
          rw [he] at h
          cases h
          obtain ⟨h1, h2⟩ := emit_ok hnd.2 he
          have hf : ns.filter (fun a => decide (a ∉ sinsert already n)) = ns.filter (fun a => decide (a ∉ already)) := by
            apply List.filter_congr
            intro a ha
            rw [decide_eq_decide]
            rw [mem_sinsert]
            constructor
            · exact fun h h' => h (.inl h')
            · rintro h (h' | rfl)
              · exact h h'
              · exact hnd.1 ha
          rw [hf] at h1
          refine ⟨by rw [List.map_cons, List.map_cons, hg, h1], fun a => (h2 a).trans ?_⟩
          rw [mem_sinsert, List.mem_cons, or_assoc]

/-- C46: the collection of names always ends; if code is generated for every name, then the items are those of exactly the needed names
that were not generated before, one each, and afterwards exactly the needed names have been added to the generated ones. -/
theorem C46 (x : Ext) (P : PSchema) (n : Name) (already already' : List Name) (ds : List TypeDef)
    (h : generateWithDeps x P n already = .ok (ds, already')) :
    ∃ names : List Name, names.Nodup ∧ (∀ a, a ∈ names ↔ Needs P.deps n a ∧ a ∉ already) ∧
      names.map (generateElement x P.context) = ds.map Res.ok ∧
      ∀ a, a ∈ already' ↔ a ∈ already ∨ Needs P.deps n a := by
  obtain ⟨l, hl, hnd, hmem⟩ := C46_collect P.deps n
  unfold generateWithDeps at h
  rw [hl] at h
  change (match emitNames x P.context l already with | .ok r => _ | .err m => _ | .panic => _ | .diverge => _) = _ at h
  cases he : emitNames x P.context l already with
  | err e => rw [he] at h; cases h
  | panic => rw [he] at h; cases h
  | diverge => rw [he] at h; cases h
  | ok r =>
    rw [he] at h
    cases h
    obtain ⟨h1, h2⟩ := emit_ok hnd he
    refine ⟨_, hnd.filter _, fun a => ?_, h1, fun a => ?_⟩
    · rw [List.mem_filter, hmem, decide_eq_true_iff]
    · rw [h2, hmem]

theorem emit_fail {x : Ext} {S : SchemaContext} : ∀ {names already : List Name},
    (∀ a ∈ names, a ∉ already → ∃ d, generateElement x S a = .ok d) → ∃ r, emitNames x S names already = .ok r
  | [], already, _ => ⟨_, rfl⟩
  | n :: ns, already, h => by
    unfold emitNames
    by_cases hn : n ∈ already
    · rw [if_pos hn]
      exact emit_fail (fun a ha => h a (.tail _ ha))
    · rw [if_neg hn]
      obtain ⟨d, hd⟩ := h n (.head _) hn
      obtain ⟨r, hr⟩ := emit_fail (x := x) (S := S) (names := ns) (already := sinsert already n)
        (fun a ha hna => h a (.tail _ ha) (fun h' => hna (mem_sinsert.2 (.inl h'))))
      exact ⟨_, by rw [hd, Res.bind_ok, hr]; rfl⟩

/-- C46, success: if every needed name that was not generated before can be generated, the whole does not fail. -/
theorem C46_succeeds (x : Ext) (P : PSchema) (n : Name) (already : List Name)
    (h : ∀ a, Needs P.deps n a → a ∉ already → ∃ d, generateElement x P.context a = .ok d) :
    ∃ r, generateWithDeps x P n already = .ok r := by
  obtain ⟨l, hl, hnd, hmem⟩ := C46_collect P.deps n
  obtain ⟨r, hr⟩ := emit_fail (x := x) (S := P.context) (names := l) (already := already) (fun a ha => h a ((hmem a).1 ha))
  refine ⟨r, ?_⟩
  unfold generateWithDeps
  rw [hl]
  change (match emitNames x P.context l already with | .ok r => _ | .err m => _ | .panic => _ | .diverge => _) = _
  rw [hr]

/-- C46, again: after a name was generated, generating it once more gives nothing and changes nothing. -/
theorem C46_again (x : Ext) (P : PSchema) (n : Name) (already already' : List Name) (ds : List TypeDef)
    (h : generateWithDeps x P n already = .ok (ds, already')) :
    ∃ already'', generateWithDeps x P n already' = .ok ([], already'') ∧ ∀ a, a ∈ already'' ↔ a ∈ already' := by
  obtain ⟨names, _, _, _, h4⟩ := C46 x P n already already' ds h
  obtain ⟨⟨ds', r⟩, hr⟩ := C46_succeeds x P n already' (fun a ha hna => absurd ((h4 a).2 (.inr ha)) hna)
  obtain ⟨names', _, h2', h3', h4'⟩ := C46 x P n already' r ds' hr
  have : names' = [] := by
    cases names' with
    | nil => rfl
    | cons a as =>
      have := (h2' a).1 (.head _)
      exact absurd ((h4 a).2 (.inr this.1)) this.2
  subst this
  cases ds' with
  | cons d ds' => cases h3'
  | nil =>
  refine ⟨r, hr, fun a => (h4' a).trans ⟨?_, .inl⟩⟩
  rintro (h | h)
  · exact h
  · exact (h4 a).2 (.inr h)

namespace SchemaSample

/-- A cyclic graph; `d` is not needed. -/
def cyclicDeps : List (Name × List Name) :=
  [(⟨c!"a", .none⟩, [⟨c!"b", .none⟩, ⟨c!"c", .none⟩]), (⟨c!"b", .none⟩, [⟨c!"a", .none⟩, ⟨c!"b", .none⟩]),
   (⟨c!"d", .none⟩, [⟨c!"a", .none⟩])]

example : collectNames cyclicDeps (depsFuel cyclicDeps) [] [⟨c!"a", .none⟩] =
    .ok [⟨c!"a", .none⟩, ⟨c!"b", .none⟩, ⟨c!"c", .none⟩] := by decide

/-- The hypothesis of C46 is met: `order` of the sample schema, when `Country` was generated before. -/
example : (match generateWithDeps sampleExt parsedSchema ⟨c!"order", .id 1⟩ [⟨c!"Country", .id 2⟩] with
    | .ok r => (r.1.map TypeDef.ident, r.2.map Name.name)
    | _ => ([], [])) = ([c!"Order", c!"Order", c!"City", c!"OrderNoteData"],
      [c!"Country", c!"order", c!"Order", c!"City", c!"OrderNoteData"]) := by decide +kernel

end SchemaSample

end Xsd
