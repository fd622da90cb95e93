import Verif.Model.Writer
/-!
# Properties of the writing context (C08-C10)

A client history is a list of calls, each made directly on the context (depth 0) or through a chain of
`Context::wrap`s of the given depth. The context's only API is the list `WOp`.
-/
namespace Xsd

/-- A call on a `Context` (xsd/src/lib.rs:42-106). -/
inductive WOp where
  | attr (n v : Str)
  | ns (p u : Str)
  | defaultNs (u : Str)
  | start
  | fin
  deriving DecidableEq

/-- A call made directly on a context. -/
def Ctx.call (c : Ctx) : WOp → List Ev × Ctx
  | .attr n v => ([], c.setAttr n v)
  | .ns p u => ([], c.setNs p u)
  | .defaultNs u => ([], c.setDefaultNs u)
  | .start => c.writeStart
  | .fin => (c.writeEnd, c)

/-- A call made through `depth` nested wraps. -/
def Ctx.callAt : Nat → Ctx → WOp → List Ev × Ctx
  | 0, c, op => c.call op
  | k + 1, c, op =>
    let (evs, b) := Ctx.callAt k c.wrap op
    (evs, c.endBorrow b)

/-- A history. -/
def Ctx.history : Ctx → List (Nat × WOp) → List Ev × Ctx
  | c, [] => ([], c)
  | c, (k, op) :: ops =>
    let (evs, c) := Ctx.callAt k c op
    let (evs', c) := c.history ops
    (evs ++ evs', c)

/-- Specification: the attributes that the calls of a history set, in call order. -/
def attrsSet (h : List (Nat × WOp)) : List (Str × Str) :=
  h.filterMap (fun o => match o.2 with | .attr n v => some (n, v) | _ => none)

/-- Specification: the namespace bindings that the calls of a history ask for, in call order. -/
def nssSet (h : List (Nat × WOp)) : List (Str × Str) :=
  h.filterMap (fun o => match o.2 with
    | .ns p u => some (p, u) | .defaultNs u => some ([], u) | _ => none)

/-- Specification of "first binding of a prefix wins": `m` binds exactly the requested prefixes, each
once, to the first URI requested for it. -/
def FirstWins (req m : List (Str × Str)) : Prop :=
  (m.map Prod.fst).Nodup ∧ ∀ p u, (p, u) ∈ m ↔ (req.find? (fun b => b.1 = p)).map Prod.snd = some u

theorem callAt_virt (k : Nat) (c : Ctx) (op : WOp) : (Ctx.callAt k c op).2.virt = c.virt := by
  cases k with
  | zero =>
    obtain ⟨b, i⟩ := c
    cases op <;> cases b <;> rfl
  | succ k => rfl

theorem callAt_wrapped (k : Nat) (c : Ctx) (op : WOp) :
    (Ctx.callAt k c.wrap op).1 = [] ∧
    (Ctx.callAt k c.wrap op).2.inner =
      match op with
      | .attr n v => (c.setAttr n v).inner
      | .ns p u => (c.setNs p u).inner
      | .defaultNs u => (c.setDefaultNs u).inner
      | _ => c.inner := by
  induction k generalizing c with
  | zero => obtain ⟨b, i⟩ := c; cases op <;> cases b <;> exact ⟨rfl, rfl⟩
  | succ k ih =>
    have := ih c.wrap
    simp only [Ctx.callAt]
    refine ⟨this.1, ?_⟩
    simp only [Ctx.endBorrow, this.2]
    obtain ⟨b, i⟩ := c
    cases op <;> cases b <;> rfl

/-- **C09.** Through any number `k + 1` of wraps, no call writes anything; a setter changes the wrapped
context exactly as the direct call would; writing tags changes nothing. -/
theorem C09_wrap_transparent (k : Nat) (c : Ctx) (op : WOp) :
    (Ctx.callAt (k + 1) c op).1 = [] ∧
    ((op = .start ∨ op = .fin) → (Ctx.callAt (k + 1) c op).2 = c) ∧
    ((op ≠ .start ∧ op ≠ .fin) → (Ctx.callAt (k + 1) c op).2 = (c.call op).2) := by
  have h := callAt_wrapped k c op
  simp only [Ctx.callAt]
  refine ⟨h.1, ?_, ?_⟩
  · rintro (rfl | rfl) <;> simp [Ctx.endBorrow, h.2]
  · intro hop
    obtain ⟨b, i⟩ := c
    cases op <;> simp_all [Ctx.endBorrow, Ctx.call] <;> cases b <;> rfl

theorem firstWins_nil : FirstWins [] [] := by simp [FirstWins]

theorem firstWins_put {req m : List (Str × Str)} (h : FirstWins req m) (p u : Str) :
    FirstWins (req ++ [(p, u)]) (nsPut m p u) := by
  obtain ⟨hn, hm⟩ := h
  have hnone : alookup m p = none ↔ req.find? (fun b => b.1 = p) = none := by
    constructor
    · intro hl
      cases hf : req.find? (fun b => b.1 = p) with
      | none => rfl
      | some x =>
        have : (p, x.2) ∈ m := (hm p x.2).2 (by rw [hf]; rfl)
        rw [alookup_of_mem hn this] at hl
        exact absurd hl (by simp)
    · intro hf
      cases hl : alookup m p with
      | none => rfl
      | some x =>
        have := (hm p x).1 (alookup_mem hl)
        rw [hf] at this; exact absurd this (by simp)
  unfold nsPut
  by_cases hs : (alookup m p).isSome
  · rw [if_pos hs]
    refine ⟨hn, fun p' u' => ?_⟩
    rw [hm, List.find?_append]
    by_cases hp : p = p'
    · subst hp
      cases hf : req.find? (fun b => b.1 = p) with
      | none => rw [hnone.2 hf] at hs; simp at hs
      | some x => simp
    · simp [hp]
  · rw [if_neg hs]
    have hl : alookup m p = none := by simpa using hs
    have hf := hnone.1 hl
    refine ⟨?_, fun p' u' => ?_⟩
    · rw [List.map_append, List.nodup_append]
      refine ⟨hn, by simp, ?_⟩
      intro a ha b hb
      simp only [List.map_cons, List.map_nil, List.mem_singleton] at hb
      subst hb
      rintro rfl
      exact (alookup_eq_none_iff m a).1 hl ha
    · rw [List.mem_append, hm, List.find?_append]
      by_cases hp : p = p'
      · subst hp; rw [hf]; simp [eq_comm]
      · have : ¬ p' = p := fun h => hp h.symm
        simp [hp, this]

/-- State of a context as a function of the calls made since its creation or its last start tag. -/
def Since (name : Str) (virt : Bool) (h : List (Nat × WOp)) (c : Ctx) : Prop :=
  c.virt = virt ∧ c.inner.name = name ∧ c.inner.attrs = attrsSet h ∧ FirstWins (nssSet h) c.inner.nss

theorem since_step {name : Str} {h : List (Nat × WOp)} {c : Ctx} (hc : Since name false h c)
    (k : Nat) (op : WOp) (hop : ¬ (k = 0 ∧ op = .start)) :
    Since name false (h ++ [(k, op)]) (Ctx.callAt k c op).2 := by
  obtain ⟨v, i⟩ := c
  obtain ⟨h1, h2, h3, h4⟩ := hc
  subst h1
  have hd : ∀ op, op ≠ .start → Since name false (h ++ [(k, op)]) (Ctx.call ⟨false, i⟩ op).2 := by
    intro op hop
    refine ⟨by cases op <;> rfl, by cases op <;> simp_all [Ctx.call, Ctx.setAttr, Ctx.setNs,
      Ctx.setDefaultNs], ?_, ?_⟩
    · cases op <;> simp_all [Ctx.call, Ctx.setAttr, Ctx.setNs, Ctx.setDefaultNs, attrsSet]
    · cases op with
      | ns p u => simpa [Ctx.call, Ctx.setNs, nssSet] using firstWins_put h4 p u
      | defaultNs u => simpa [Ctx.call, Ctx.setDefaultNs, nssSet] using firstWins_put h4 [] u
      | start => exact absurd rfl hop
      | attr n v => simpa [Ctx.call, Ctx.setAttr, nssSet] using h4
      | fin => simpa [Ctx.call, nssSet] using h4
  cases k with
  | zero =>
    have : op ≠ .start := fun h => hop ⟨rfl, h⟩
    exact hd op this
  | succ k =>
    have hw := C09_wrap_transparent k ⟨false, i⟩ op
    by_cases ho : op = .start ∨ op = .fin
    · rw [hw.2.1 ho]
      refine ⟨rfl, h2, ?_, ?_⟩
      · rcases ho with rfl | rfl <;> simpa [attrsSet] using h3
      · rcases ho with rfl | rfl <;> simpa [nssSet] using h4
    · rw [hw.2.2 ⟨fun h => ho (.inl h), fun h => ho (.inr h)⟩]
      exact hd op (fun h => ho (.inl h))

theorem since_history {name : Str} {h : List (Nat × WOp)} {c : Ctx} (hc : Since name false h c)
    (ops : List (Nat × WOp)) (hops : (0, WOp.start) ∉ ops) :
    Since name false (h ++ ops) (c.history ops).2 := by
  induction ops generalizing h c with
  | nil => simpa [Ctx.history] using hc
  | cons o ops ih =>
    obtain ⟨k, op⟩ := o
    have h1 : ¬ (k = 0 ∧ op = .start) := by
      rintro ⟨rfl, rfl⟩; exact hops (by simp)
    have := ih (since_step hc k op h1) (fun hm => hops (by simp [hm]))
    simpa [Ctx.history] using this

theorem history_append (c : Ctx) (a b : List (Nat × WOp)) :
    c.history (a ++ b) = ((c.history a).1 ++ ((c.history a).2.history b).1,
      ((c.history a).2.history b).2) := by
  induction a generalizing c with
  | nil => simp [Ctx.history]
  | cons o a ih =>
    obtain ⟨k, op⟩ := o
    simp only [List.cons_append, Ctx.history, ih, List.append_assoc]

theorem history_name_virt (c : Ctx) (h : List (Nat × WOp)) :
    (c.history h).2.virt = c.virt ∧ (c.history h).2.inner.name = c.inner.name := by
  induction h generalizing c with
  | nil => exact ⟨rfl, rfl⟩
  | cons o h ih =>
    obtain ⟨k, op⟩ := o
    have := ih (Ctx.callAt k c op).2
    simp only [Ctx.history]
    refine ⟨this.1.trans (callAt_virt k c op), this.2.trans ?_⟩
    cases k with
    | zero => obtain ⟨b, i⟩ := c; cases op <;> cases b <;> rfl
    | succ k =>
      have hw := C09_wrap_transparent k c op
      by_cases ho : op = .start ∨ op = .fin
      · rw [hw.2.1 ho]
      · rw [hw.2.2 ⟨fun h => ho (.inl h), fun h => ho (.inr h)⟩]
        obtain ⟨b, i⟩ := c; cases op <;> cases b <;> rfl

/-- **C08.** On a context made by `Context::new(name)`, after any history, the next direct
`write_start_element` writes exactly one start tag, with the context's name, with exactly the
attributes set (directly or through any wraps) since the previous start tag, in call order, and with
the first binding requested for each prefix since then. `pre` is empty or ends with the previous
start tag; `since` contains no start tag. -/
theorem C08_start_tag (name : Str) (pre since : List (Nat × WOp))
    (hpre : pre = [] ∨ ∃ p, pre = p ++ [(0, .start)]) (hs : (0, WOp.start) ∉ since) :
    ∃ nss, (((Ctx.new name).history (pre ++ since)).2.call .start).1 =
        [.start name (attrsSet since) nss] ∧ FirstWins (nssSet since) nss := by
  have base : Since name false [] ((Ctx.new name).history pre).2 := by
    rcases hpre with rfl | ⟨p, rfl⟩
    · exact ⟨rfl, rfl, rfl, firstWins_nil⟩
    · rw [history_append]
      have hv := history_name_virt (Ctx.new name) p
      generalize ((Ctx.new name).history p).2 = c at hv ⊢
      obtain ⟨v, i⟩ := c
      obtain ⟨h1, h2⟩ := hv
      simp only [Ctx.new] at h1 h2
      subst h1
      refine ⟨rfl, h2, rfl, firstWins_nil⟩
  have := since_history base since hs
  rw [history_append]
  simp only [List.nil_append] at this
  generalize (((Ctx.new name).history pre).2.history since).2 = c at this ⊢
  obtain ⟨v, i⟩ := c
  obtain ⟨h1, h2, h3, h4⟩ := this
  simp only at h1; subst h1
  exact ⟨i.nss, by simp only [Ctx.call, Ctx.writeStart]; rw [← h2, ← h3], h4⟩

/-- **C08.** Nothing is left behind: two start tags in a row give a second one without attributes and
declarations; and setters and end tags never write start tags. -/
theorem C08_drained (name : Str) (h : List (Nat × WOp)) :
    (((Ctx.new name).history (h ++ [(0, .start)])).2.call .start).1 = [.start name [] []] := by
  obtain ⟨nss, h1, h2⟩ := C08_start_tag name (h ++ [(0, .start)]) [] (.inr ⟨h, rfl⟩) (by simp)
  have : nss = [] := by
    cases nss with
    | nil => rfl
    | cons b bs =>
      have := (h2.2 b.1 b.2).1 (by simp)
      simp [nssSet] at this
  subst this
  simpa [attrsSet] using h1

/-- A request for a namespace binding: prefix (none is `[]`) and URI. -/
def WOp.binding : WOp → Option (Str × Str)
  | .ns p u => some (p, u)
  | .defaultNs u => some ([], u)
  | _ => none

theorem alookup_snoc (m : List (Str × Str)) (p u q : Str) :
    alookup (m ++ [(p, u)]) q = (alookup m q).or (if p = q then some u else none) := by
  induction m with
  | nil => rfl
  | cons a m ih =>
    obtain ⟨r, v⟩ := a
    show (if r = q then some v else alookup (m ++ [(p, u)]) q) = _
    show _ = (if r = q then some v else alookup m q).or _
    split
    · rfl
    · exact ih

/-- **C10, the first binding of a prefix wins**: in any context, a request, direct or through wraps, writes nothing, binds the prefix unless
it is bound already, and changes no other binding and no attribute. -/
theorem C10_first_wins (c : Ctx) (k : Nat) (op : WOp) {p u : Str} (hb : op.binding = some (p, u)) :
    (Ctx.callAt k c op).1 = [] ∧ (Ctx.callAt k c op).2.inner.attrs = c.inner.attrs ∧ (Ctx.callAt k c op).2.inner.name = c.inner.name ∧
    (Ctx.callAt k c op).2.virt = c.virt ∧
    ∀ q, alookup (Ctx.callAt k c op).2.inner.nss q =
      if q = p then (alookup c.inner.nss p).or (some u) else alookup c.inner.nss q := by
  have hop : op = .ns p u ∨ (p = [] ∧ op = .defaultNs u) := by
    cases op <;> simp only [WOp.binding, Option.some.injEq, Prod.mk.injEq, reduceCtorEq] at hb
    · exact .inl (by rw [hb.1, hb.2])
    · exact .inr ⟨hb.1.symm, by rw [hb.2]⟩
  have h1 : (Ctx.callAt k c op).1 = [] ∧ (Ctx.callAt k c op).2 = (c.call op).2 := by
    cases k with
    | zero => rcases hop with rfl | ⟨_, rfl⟩ <;> exact ⟨rfl, rfl⟩
    | succ k =>
      obtain ⟨h, _, h'⟩ := C09_wrap_transparent k c op
      exact ⟨h, h' (by rcases hop with rfl | ⟨_, rfl⟩ <;> exact ⟨nofun, nofun⟩)⟩
  have h2 : (c.call op).2 = ⟨c.virt, { c.inner with nss := nsPut c.inner.nss p u }⟩ := by
    obtain ⟨b, i⟩ := c
    rcases hop with rfl | ⟨rfl, rfl⟩ <;> cases b <;> rfl
  rw [h1.2, h2]
  refine ⟨h1.1, rfl, rfl, rfl, fun q => ?_⟩
  show alookup (nsPut c.inner.nss p u) q = _
  unfold nsPut
  cases hl : alookup c.inner.nss p with
  | some w =>
    rw [if_pos (show (some w).isSome = true from rfl)]
    split
    · next h => rw [h, hl]; rfl
    · rfl
  | none =>
    rw [if_neg (by simp), alookup_snoc]
    by_cases h : q = p
    · rw [if_pos h, if_pos h.symm, h, hl]
    · rw [if_neg h, if_neg (fun h' => h h'.symm), Option.or_none]

/-- No call but a direct `write_start_element` takes a binding away. -/
theorem history_keeps (h : List (Nat × WOp)) (hs : (0, WOp.start) ∉ h) (c : Ctx) (p : Str) :
    ((alookup c.inner.nss p).isSome = true ∨ p ∈ (nssSet h).map Prod.fst) → (alookup (c.history h).2.inner.nss p).isSome = true := by
  induction h generalizing c with
  | nil =>
    rintro (h | h)
    · exact h
    · cases h
  | cons o h ih =>
    obtain ⟨k, op⟩ := o
    intro hp
    show (alookup ((Ctx.callAt k c op).2.history h).2.inner.nss p).isSome = true
    refine ih (fun hm => hs (.tail _ hm)) _ ?_
    cases hb : op.binding with
    | some b =>
      obtain ⟨q, u⟩ := b
      have hn := (C10_first_wins c k op hb).2.2.2.2 p
      have hset : nssSet ((k, op) :: h) = (q, u) :: nssSet h := by
        cases op <;> simp only [WOp.binding, Option.some.injEq, Prod.mk.injEq, reduceCtorEq] at hb <;>
          simp [nssSet, hb]
      rw [hset, List.map_cons, List.mem_cons] at hp
      rw [hn]
      by_cases hq : p = q
      · left; rw [if_pos hq]; cases alookup c.inner.nss q <;> rfl
      · rw [if_neg hq]
        rcases hp with hp | hp | hp
        · exact .inl hp
        · exact absurd hp hq
        · exact .inr hp
    | none =>
      have hset : nssSet ((k, op) :: h) = nssSet h := by
        cases op <;> simp only [WOp.binding, reduceCtorEq] at hb <;> rfl
      rw [hset] at hp
      have hn : (Ctx.callAt k c op).2.inner.nss = c.inner.nss := by
        cases k with
        | zero =>
          obtain ⟨b, i⟩ := c
          cases op <;> simp only [WOp.binding, reduceCtorEq] at hb
          · cases b <;> rfl
          · exact absurd (.head _) hs
          · cases b <;> rfl
        | succ k =>
          obtain ⟨_, h', h''⟩ := C09_wrap_transparent k c op
          cases op <;> simp only [WOp.binding, reduceCtorEq] at hb
          · rw [h'' ⟨nofun, nofun⟩]; obtain ⟨b, i⟩ := c; cases b <;> rfl
          · rw [h' (.inl rfl)]
          · rw [h' (.inr rfl)]
      rw [hn]
      exact hp

/-- **C10.** Asking again for prefixes that are bound already (as every nested generated type does) changes nothing: take any context and
any history of calls on it without a start tag; further requests, direct or through wraps, for prefixes that were requested write nothing and leave the
whole context as it is. -/
theorem C10_redeclare (c : Ctx) (h again : List (Nat × WOp)) (hs : (0, WOp.start) ∉ h)
    (hag : ∀ o ∈ again, ∃ b, o.2.binding = some b ∧ b.1 ∈ (nssSet h).map Prod.fst) :
    (c.history h).2.history again = ([], (c.history h).2) := by
  generalize hc : (c.history h).2 = c'
  have hb : ∀ o ∈ again, ∃ b, o.2.binding = some b ∧ (alookup c'.inner.nss b.1).isSome = true := by
    intro o ho
    obtain ⟨b, hb, hm⟩ := hag o ho
    exact ⟨b, hb, hc ▸ history_keeps h hs c b.1 (.inr hm)⟩
  clear hc hag
  induction again with
  | nil => rfl
  | cons o again ih =>
    obtain ⟨k, op⟩ := o
    obtain ⟨⟨p, u⟩, hop, hl⟩ := hb _ (.head _)
    have h1 : Ctx.callAt k c' op = ([], c') := by
      have hop' : op = .ns p u ∨ (p = [] ∧ op = .defaultNs u) := by
        cases op <;> simp only [WOp.binding, Option.some.injEq, Prod.mk.injEq, reduceCtorEq] at hop
        · exact .inl (by rw [hop.1, hop.2])
        · exact .inr ⟨hop.1.symm, by rw [hop.2]⟩
      have hput : nsPut c'.inner.nss p u = c'.inner.nss := by unfold nsPut; rw [if_pos hl]
      have h2 : (c'.call op) = ([], c') := by
        obtain ⟨b, i⟩ := c'
        rcases hop' with rfl | ⟨rfl, rfl⟩ <;> cases b <;>
          simp only [Ctx.call, Ctx.setNs, Ctx.setDefaultNs] <;> simp only at hput <;> rw [hput]
      cases k with
      | zero => exact h2
      | succ k =>
        obtain ⟨h, _, h'⟩ := C09_wrap_transparent k c' op
        have h' := h' (by rcases hop' with rfl | ⟨_, rfl⟩ <;> exact ⟨nofun, nofun⟩)
        rw [h2] at h'
        exact Prod.ext h h'
    have h2 := ih (fun o ho => hb o (.tail _ ho))
    show ((Ctx.callAt k c' op).1 ++ ((Ctx.callAt k c' op).2.history again).1, ((Ctx.callAt k c' op).2.history again).2) = _
    rw [h1]
    show ([] ++ (c'.history again).1, (c'.history again).2) = _
    rw [h2]
    rfl

/-! Non-vacuity. -/

/-- A history with two start tags, attributes set through wraps of depth 0, 1 and 2, a repeated
prefix, and calls through a wrap that try to write tags. -/
example : ((Ctx.new c!"x").history [(0, .attr c!"old" c!"0"), (0, .start), (1, .attr c!"a" c!"1"),
    (2, .attr c!"b" c!"2"), (1, .start), (0, .ns c!"p" c!"u"), (2, .ns c!"p" c!"v"), (3, .fin),
    (1, .defaultNs c!"d"), (0, .start), (0, .fin)]).1 =
  [.start c!"x" [(c!"old", c!"0")] [], .start c!"x" [(c!"a", c!"1"), (c!"b", c!"2")]
    [(c!"p", c!"u"), ([], c!"d")], .fin] := by decide

/-- The hypotheses of C10 are met by a nested type that asks for the bindings of its parent through a wrap. -/
example : ∀ o ∈ [(1, WOp.ns c!"p" c!"v"), (2, .defaultNs c!"d")],
    ∃ b, o.2.binding = some b ∧ b.1 ∈ (nssSet [(0, .attr c!"a" c!"1"), (0, .ns c!"p" c!"u"), (0, .defaultNs c!"d")]).map Prod.fst := by
  intro o ho
  rcases List.mem_cons.1 ho with rfl | ho
  · exact ⟨_, rfl, by decide⟩
  · cases List.mem_singleton.1 ho; exact ⟨_, rfl, by decide⟩

/-- The hypotheses of C08 and C10 are met by that history. -/
example : (0, WOp.start) ∉ ([(1, .attr c!"a" c!"1"), (1, .start)] : List (Nat × WOp)) := by decide
example : FirstWins [(c!"p", c!"u"), (c!"p", c!"v")] [(c!"p", c!"u")] := by
  have := firstWins_put (firstWins_put firstWins_nil c!"p" c!"u") c!"p" c!"v"
  exact this

end Xsd
