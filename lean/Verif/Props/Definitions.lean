import Verif.Lemmas.Log
import Verif.Lemmas.Deps
import Verif.Props.Grammar
/-!
# Which types a parsed schema has (C39, C45)
-/
namespace Xsd

theorem applyLog_nodup (log : List Entry) (m : List (Name × Root)) (h : (m.map Prod.fst).Nodup) :
    ((applyLog log m).map Prod.fst).Nodup := by
  induction log generalizing m with
  | nil => exact h
  | cons b log ih => exact ih _ (nodup_keys_ainsert h _ _)

theorem alookup_foldl_ainsert {κ ν : Type} [DecidableEq κ] (l : List (κ × ν)) (m : List (κ × ν)) (n : κ)
    (h : (l.map Prod.fst).Nodup) :
    alookup (l.foldl (fun m p => ainsert m p.1 p.2) m) n = (alookup l n).or (alookup m n) := by
  induction l generalizing m with
  | nil => rfl
  | cons p l ih =>
    obtain ⟨k, v⟩ := p
    have h := List.nodup_cons.1 (show (k :: l.map Prod.fst).Nodup from h)
    show alookup (l.foldl _ _) n = _
    rw [ih _ h.2, alookup_ainsert]
    show _ = (if k = n then some v else alookup l n).or _
    by_cases hk : k = n
    · subst hk
      have : alookup l k = none := (alookup_eq_none_iff _ _).2 h.1
      rw [this, if_pos rfl, if_pos rfl]
      rfl
    · rw [if_neg hk, if_neg hk]

theorem foldl_addRoot_roots (l : List (Name × Root)) (s : PCtx) :
    (l.foldl (fun s p => s.addRoot p.1 p.2) s).roots = l.foldl (fun m p => ainsert m p.1 p.2) s.roots := by
  induction l generalizing s with
  | nil => rfl
  | cons p l ih => exact ih _

/-- The types of a file are logged. -/
def Logged (x : Ext) (F : Files) (path : Str) (P : PSchema) : Prop :=
  (P.context.elements.map Prod.fst).Nodup ∧
  ∀ t, P.context.namespaces.Extends t → ∃ log, FileLog x F t path log ∧ ∀ n, alookup P.context.elements n = lastNamed n log

theorem Interpreted.unseen {x : Ext} {e : Env} {t : Namespaces} {c : Nd} {l : List Str} {n : Name} {r : Root}
    (h : Interpreted x e t { c with seen := l } n r) : Interpreted x e t c n r := by
  cases h with
  | element hn he hi ht h => exact .element hn he hi ht h
  | complexType hn he hi ht h => exact .complexType hn he hi ht h
  | simpleType hn he hi ht h => exact .simpleType hn he hi ht h
  | sequence hn he hi ht h => exact .sequence hn he hi ht h
  | all hn he hi ht h => exact .all hn he hi ht h
  | choice hn he hi ht h => exact .choice hn he hi ht h

section
variable {x : Ext} {F : Files} {incl : Str → Namespaces → List (Name × List Name) → Res SErr PSchema}
  (hincl : ∀ path t deps P, t.Reachable → incl path t deps = .ok P → NamesOK t P)
  (hlog : ∀ path t deps P, t.Reachable → incl path t deps = .ok P → Logged x F path P)
include hincl hlog

theorem parseItems_log {path : Str} {cs : List Nd} {s s' : PCtx} (hI : nsLaw.I s) (hnd : (s.roots.map Prod.fst).Nodup)
    (h : parseItems x F incl (F.parent path) cs s = .ok s') : (s'.roots.map Prod.fst).Nodup ∧
    ∀ t, s'.nss.Extends t → ∃ log, ItemsLog x F t path s.env cs log ∧
      ∀ n, alookup s'.roots n = (lastNamed n log).or (alookup s.roots n) := by
  induction cs generalizing s with
  | nil =>
    cases h
    exact ⟨hnd, fun t _ => ⟨[], .nil, fun n => rfl⟩⟩
  | cons c cs ih =>
    obtain ⟨s1, h1, h2⟩ := Res.bind_eq_ok.1 h
    obtain ⟨hI1, hR1⟩ := parseItem_names hincl hI h1
    have hR2 := (parseItems_names hincl hI1 h2).2
    replace h1 := parseItem_run h1
    have he := itemRun_env h1
    cases h1 with
    | «include» location schema hn hl h =>
      obtain ⟨hd, hl1⟩ := hlog _ _ _ _ hI.1 h
      have hroots := foldl_addRoot_roots schema.context.elements s
      obtain ⟨h3, h4⟩ := ih hI1 (by
        show (List.map _ (List.foldl _ s _).roots).Nodup
        rw [hroots]
        exact foldl_ainsert_nodup _ _ hnd) h2
      refine ⟨h3, fun t ht => ?_⟩
      obtain ⟨log', h5, h6⟩ := h4 t ht
      obtain ⟨log, h7, h8⟩ := hl1 t (hR2.1.trans ht)
      rw [he] at h5
      refine ⟨log ++ log', .include hn (value_some hl) h7 h5, fun n => ?_⟩
      rw [h6, lastNamed_append]
      show Option.or _ (alookup (List.foldl _ s _).roots n) = _
      rw [hroots, alookup_foldl_ainsert _ _ _ hd, h8, Option.or_assoc]
    | definition nameAttr root s1 hn ha h =>
      obtain ⟨k, hk, hL, hint⟩ : ∃ k, topKind c.name = some k ∧ Logs x (AnonymousWithin k c) s s1 ∧
          Makes x s s1 c ⟨nameAttr.value, s.target⟩ root := by
        rcases (logAll x _).root h with ⟨h1, h2, _, h4⟩ | ⟨h1, h2, h4⟩ | ⟨h1, h2, h4⟩
        · have h1 : c.name = _ := h1
          refine ⟨_, by rw [h1]; rfl, h2.congr (fun a => ?_), ?_⟩
          · rw [aw_topElement, aw_topElement]; exact Iff.rfl
          · exact fun t hi ht => (h4 t hi ht).unseen
        · have h1 : c.name = _ := h1
          refine ⟨_, by rw [h1]; rfl, h2.congr (fun a => ?_), ?_⟩
          · rw [aw_complexType, aw_complexType]; exact Iff.rfl
          · exact fun t hi ht => (h4 t hi ht).unseen
        · have h1 : c.name = _ := h1
          refine ⟨_, by rw [h1]; rfl, h2.congr (fun a => ?_), ?_⟩
          · exact ⟨fun h => absurd h aw_simpleType, fun h => absurd h aw_simpleType⟩
          · exact fun t hi ht => (h4 t hi ht).unseen
      obtain ⟨hlt, log, h5, h6, h7⟩ := hL
      obtain ⟨h3, h4⟩ := ih hI1 (by
        show (List.map _ (ainsert s1.roots _ _)).Nodup
        rw [h5]
        exact nodup_keys_ainsert (applyLog_nodup _ _ hnd) _ _) h2
      refine ⟨h3, fun t ht => ?_⟩
      obtain ⟨log', h8, h9⟩ := h4 t ht
      rw [he] at h8
      refine ⟨log ++ ⟨c, ⟨nameAttr.value, s.target⟩, root⟩ :: log',
        .definition (e := s.env) hk (value_some ha) (hint t hI.1 (hR2.1.trans ht)) h6
          (fun b hb => ⟨(h7 b hb).1 t hI.1 (hR2.1.trans ht), (h7 b hb).2⟩) h8, fun n => ?_⟩
      have : (s1.addRoot ⟨nameAttr.value, s.target⟩ root).roots =
          applyLog (log ++ [⟨c, ⟨nameAttr.value, s.target⟩, root⟩]) s.roots := by
        rw [applyLog_append, ← h5]; rfl
      rw [h9, this, alookup_applyLog, ← Option.or_assoc, ← lastNamed_append, List.append_assoc]
      rfl

theorem parseDoc_log {path : Str} {d : XDoc} {t : Namespaces} {deps : List (Name × List Name)} {P : PSchema}
    (ht : t.Reachable) (hf : F.read path = some (.doc d)) (h : parseDoc x F incl path d t deps = .ok P) : Logged x F path P := by
  obtain ⟨s, hs, _, ⟨s', h1, rfl⟩, hext, _⟩ := parseDoc_items hincl ht h
  obtain ⟨h2, h3⟩ := parseItems_log hincl hlog (hs ▸ nsLaw_new ht) (by rw [hs]; exact List.nodup_nil) h1
  refine ⟨h2, fun t' ht' => ?_⟩
  obtain ⟨log, h4, h5⟩ := h3 t' ht'
  refine ⟨log, .mk hf (by rw [hs]; exact envOf_new _ _ _ _) ?_ h4, fun n => ?_⟩
  · have : Stands s.nss s.target (targetOf d) := by rw [hs]; exact stands_new
    exact (this.mono hext).mono ht'
  · show alookup s'.roots n = _
    rw [h5, hs]
    show Option.or _ none = _
    rw [Option.or_none]

end

theorem parseFileWith_log {x : Ext} {F : Files} (k : Nat) : ∀ path t deps P, t.Reachable →
    parseFileWith x F k path t deps = .ok P → Logged x F path P := by
  induction k with
  | zero => intro path t deps P _ h; cases h
  | succ k ih =>
    intro path t deps P ht h
    unfold parseFileWith at h
    split at h
    · cases h
    · cases h
    · next d hf => exact parseDoc_log (parseFileWith_names k) ih ht hf h


/-- C39: the types of a parsed schema are those that its file defines, together with those of all files it includes or
imports, directly or not. Under a name that is defined more than once the last definition in processing order is found. -/
theorem C39 (x : Ext) (F : Files) (k : Nat) (path : Str) (P : PSchema) (h : parseFile x F k path = .ok P) :
    ∃ log, FileLog x F P.context.namespaces path log ∧ ∀ n, P.context.get n = lastNamed n log :=
  (parseFileWith_log k path _ _ P ⟨[], rfl⟩ h).2 _ (.refl _)

/-- The last definition with a name is the one after which there is no other with that name. -/
theorem lastNamed_eq {n : Name} {r : Root} {log : List Entry} : lastNamed n log = some r ↔
    ∃ l b l', log = l ++ b :: l' ∧ b.name = n ∧ b.root = r ∧ ∀ b' ∈ l', b'.name ≠ n := by
  induction log with
  | nil => simp [lastNamed]
  | cons b log ih =>
    have hnone : lastNamed n log = none ↔ ∀ b' ∈ log, b'.name ≠ n := by
      clear ih
      induction log with
      | nil => simp [lastNamed]
      | cons b log ih =>
        have hc : lastNamed n (b :: log) =
          match lastNamed n log with | some r => some r | none => if b.name = n then some b.root else none := rfl
        rw [List.forall_mem_cons, ← ih, hc]
        cases lastNamed n log with
        | some r => simp
        | none => simp
    have hc : lastNamed n (b :: log) =
      match lastNamed n log with | some r => some r | none => if b.name = n then some b.root else none := rfl
    rw [hc]
    cases hl : lastNamed n log with
    | some r' =>
      rw [hl] at ih
      constructor
      · intro h
        obtain ⟨l, b', l', rfl, h1, h2, h3⟩ := ih.1 h
        exact ⟨b :: l, b', l', rfl, h1, h2, h3⟩
      · rintro ⟨l, b', l', he, h1, h2, h3⟩
        cases l with
        | nil =>
          cases he
          rw [hnone.2 h3] at hl
          cases hl
        | cons c l =>
          cases he
          exact ih.2 ⟨l, b', l', rfl, h1, h2, h3⟩
    | none =>
      have hn := hnone.1 hl
      show (if b.name = n then some b.root else none) = some r ↔ _
      constructor
      · intro h
        split at h
        · next hb => cases h; exact ⟨[], b, log, rfl, hb, rfl, hn⟩
        · cases h
      · rintro ⟨l, b', l', he, h1, h2, h3⟩
        cases l with
        | nil => cases he; rw [if_pos h1, h2]
        | cons c l => cases he; exact absurd h1 (hn b' (by simp))

/-- A node of a file that is read which becomes a type: a top-level definition or an anonymous type. -/
def Defines (F : Files) (path : Str) (c : Nd) : Prop :=
  ∃ q d top k, Reads F path q d ∧ top ∈ (Nd.of d.root).xsdKids ∧ topKind top.name = some k ∧ (c = top ∨ AnonymousWithin k top c)

section
variable {x : Ext} {F : Files} {t : Namespaces}

theorem topKind_not_include {n : Str} {k : Kind} (h : topKind n = some k) : ¬ (n = c!"include" ∨ n = c!"import") := by
  rintro (rfl | rfl) <;> cases h

/-- The children of a schema node that has a log. -/
theorem ItemsLog.kids {path : Str} {e : Env} {cs : List Nd} {log : List Entry} (h : ItemsLog x F t path e cs log) :
    ∀ c ∈ cs, ((c.name = c!"include" ∨ c.name = c!"import") ∧ ∃ l log', c.value c!"schemaLocation" = some l ∧
        FileLog x F t (F.push (F.parent path) l) log' ∧ ∀ b ∈ log', b ∈ log) ∨
      ∃ k v r, topKind c.name = some k ∧ c.value c!"name" = some v ∧ (⟨c, ⟨v, e.target⟩, r⟩ : Entry) ∈ log ∧
        Interpreted x e t c ⟨v, e.target⟩ r ∧ ∀ a, AnonymousWithin k c a → ∃ b ∈ log, b.node = a := by
  match h with
  | .nil => exact nofun
  | .include (log := log1) (log' := log2) hn hl h1 hs =>
    intro c hc
    rcases List.mem_cons.1 hc with rfl | hc
    · exact .inl ⟨hn, _, log1, hl, h1, fun b hb => List.mem_append_left _ hb⟩
    · rcases ItemsLog.kids hs c hc with ⟨h1, l, log', h2, h3, h4⟩ | ⟨k, v, r, h1, h2, h3, h4, h5⟩
      · exact .inl ⟨h1, l, log', h2, h3, fun b hb => List.mem_append_right _ (h4 b hb)⟩
      · refine .inr ⟨k, v, r, h1, h2, List.mem_append_right _ h3, h4, fun a ha => ?_⟩
        obtain ⟨b, hb, h⟩ := h5 a ha
        exact ⟨b, List.mem_append_right _ hb, h⟩
  | .definition (log := log1) (log' := log2) hk hv hr hcov hl hs =>
    intro c hc
    rcases List.mem_cons.1 hc with rfl | hc
    · refine .inr ⟨_, _, _, hk, hv, by simp, hr, fun a ha => ?_⟩
      obtain ⟨b, hb, h⟩ := (hcov a).1 ha
      exact ⟨b, List.mem_append_left _ hb, h⟩
    · rcases ItemsLog.kids hs c hc with ⟨h1, l, log', h2, h3, h4⟩ | ⟨k, v, r, h1, h2, h3, h4, h5⟩
      · exact .inl ⟨h1, l, log', h2, h3, fun b hb => List.mem_append_right _ (.tail _ (h4 b hb))⟩
      · refine .inr ⟨k, v, r, h1, h2, List.mem_append_right _ (.tail _ h3), h4, fun a ha => ?_⟩
        obtain ⟨b, hb, h⟩ := h5 a ha
        exact ⟨b, List.mem_append_right _ (.tail _ hb), h⟩

theorem Reads.read {path q : Str} {d : XDoc} (h : Reads F path q d) : F.read q = some (.doc d) := by
  cases h with
  | here h => exact h
  | there _ _ _ _ h => exact h

/-- The log of a file that is read is part of the log of the file it is read from. -/
theorem FileLog.reads {path q : Str} {d : XDoc} (hr : Reads F path q d) {log : List Entry} (h : FileLog x F t path log) :
    ∃ log', FileLog x F t q log' ∧ ∀ b ∈ log', b ∈ log := by
  induction hr with
  | here hf => exact ⟨log, h, fun _ h => h⟩
  | there hr hc hn hl hf ih =>
    obtain ⟨log1, h1, h2⟩ := ih
    cases h1 with
    | mk h he ht hs =>
      have hd := Reads.read hr
      rw [hd] at h
      cases h
      rcases hs.kids _ hc with ⟨_, l, log', h3, h4, h5⟩ | ⟨k, v, r, h3, _⟩
      · rw [hl] at h3
        cases h3
        exact ⟨log', h4, fun b hb => h2 b (h5 b hb)⟩
      · exact absurd hn (topKind_not_include h3)

/-- What an entry of a log is: a definition or an anonymous type of a file that is read. -/
structure FromFile (x : Ext) (F : Files) (t : Namespaces) (path : Str) (b : Entry) (q : Str) (d : XDoc) (e : Env) (top : Nd)
    (k : Kind) : Prop where
  reads : Reads F path q d
  env : EnvOf d.root.1 e
  target : Stands t e.target (targetOf d)
  kid : top ∈ (Nd.of d.root).xsdKids
  kind : topKind top.name = some k
  made : Interpreted x e t b.node b.name b.root
  own : (b.node = top ∧ ∃ v, top.value c!"name" = some v ∧ b.name = ⟨v, e.target⟩) ∨
    (AnonymousWithin k top b.node ∧ b.name.ns = if e.isQualified then e.target else .none)

mutual
theorem FileLog.entry {path q : Str} {log : List Entry} (h : FileLog x F t q log)
    (hr : ∀ d, F.read q = some (.doc d) → Reads F path q d) :
    ∀ b ∈ log, ∃ q d e top k, FromFile x F t path b q d e top k := by
  match h with
  | .mk h he ht hs => exact ItemsLog.entry hs (hr _ h) he ht (fun _ h => h)
theorem ItemsLog.entry {path q : Str} {e : Env} {cs : List Nd} {log : List Entry} (h : ItemsLog x F t q e cs log)
    {d : XDoc} (hr : Reads F path q d) (he : EnvOf d.root.1 e) (ht : Stands t e.target (targetOf d))
    (hc : ∀ c ∈ cs, c ∈ (Nd.of d.root).xsdKids) :
    ∀ b ∈ log, ∃ q d e top k, FromFile x F t path b q d e top k := by
  match h with
  | .nil => exact nofun
  | .include hn hl h1 hs =>
    intro b hb
    rcases List.mem_append.1 hb with hb | hb
    · exact FileLog.entry h1 (fun d' h' => .there hr (hc _ (.head _)) hn hl h') b hb
    · exact ItemsLog.entry hs hr he ht (fun c h => hc c (.tail _ h)) b hb
  | .definition hk hv hi hcov hl hs =>
    intro b hb
    rcases List.mem_append.1 hb with hb | hb
    · exact ⟨q, d, e, _, _, hr, he, ht, hc _ (.head _), hk, (hl b hb).1, .inr ⟨(hcov _).2 ⟨b, hb, rfl⟩, (hl b hb).2⟩⟩
    · rcases List.mem_cons.1 hb with rfl | hb
      · exact ⟨q, d, e, _, _, hr, he, ht, hc _ (.head _), hk, hi, .inl ⟨rfl, _, hv, rfl⟩⟩
      · exact ItemsLog.entry hs hr he ht (fun c h => hc c (.tail _ h)) b hb
end

/-- The log of a file has the nodes that it defines, and no other. -/
theorem FileLog.nodes {path : Str} {log : List Entry} (h : FileLog x F t path log) (c : Nd) :
    Defines F path c ↔ ∃ b ∈ log, b.node = c := by
  constructor
  · rintro ⟨q, d, top, k, hr, hm, hk, hc⟩
    obtain ⟨log', h', hsub⟩ := h.reads hr
    cases h' with
    | mk h he ht hs =>
      rw [hr.read] at h
      cases h
      rcases hs.kids _ hm with ⟨hn, _⟩ | ⟨k', v, r, h1, h2, h3, h4, h5⟩
      · exact absurd hn (topKind_not_include hk)
      · rw [hk] at h1
        cases h1
        rcases hc with rfl | hc
        · exact ⟨_, hsub _ h3, rfl⟩
        · obtain ⟨b, hb, he⟩ := h5 c hc
          exact ⟨b, hsub b hb, he⟩
  · rintro ⟨b, hb, rfl⟩
    obtain ⟨q, d, e, top, k, hf⟩ := h.entry (path := path) (fun d h => .here h) b hb
    refine ⟨q, d, top, k, hf.reads, hf.kid, hf.kind, ?_⟩
    rcases hf.own with ⟨h, _⟩ | ⟨h, _⟩
    · exact .inl h
    · exact .inr h

theorem lastNamed_of_mem {log : List Entry} {b : Entry} (hb : b ∈ log) : ∃ b' ∈ log, b'.name = b.name ∧ lastNamed b.name log = some b'.root := by
  cases hl : lastNamed b.name log with
  | some r =>
    obtain ⟨l, b', l', rfl, h1, h2, _⟩ := lastNamed_eq.1 hl
    exact ⟨b', by simp, h1, by rw [h2]⟩
  | none =>
    exfalso
    induction log with
    | nil => cases hb
    | cons c log ih =>
      have hc : lastNamed b.name (c :: log) =
        match lastNamed b.name log with | some r => some r | none => if c.name = b.name then some c.root else none := rfl
      rw [hc] at hl
      cases hl' : lastNamed b.name log with
      | some r => rw [hl'] at hl; cases hl
      | none =>
        rcases List.mem_cons.1 hb with rfl | hb
        · rw [hl'] at hl
          simp at hl
        · exact ih hb hl'

end

/-- C39: every top-level definition of a file that is read is available under its name. -/
theorem C39_available (x : Ext) (F : Files) (k : Nat) (path : Str) (P : PSchema) (h : parseFile x F k path = .ok P)
    (q : Str) (d : XDoc) (hr : Reads F path q d) (c : Nd) (hc : c ∈ (Nd.of d.root).xsdKids)
    (hn : ¬ (c.name = c!"include" ∨ c.name = c!"import")) :
    ∃ v ns, c.value c!"name" = some v ∧ Stands P.context.namespaces ns (targetOf d) ∧ P.context.get ⟨v, ns⟩ ≠ none := by
  obtain ⟨log, hl, hg⟩ := C39 x F k path P h
  obtain ⟨log', h', hsub⟩ := hl.reads hr
  cases h' with
  | mk h he ht hs =>
    rw [hr.read] at h
    cases h
    rcases hs.kids _ hc with ⟨h, _⟩ | ⟨k', v, r, h1, h2, h3, h4, h5⟩
    · exact absurd h hn
    · obtain ⟨b', hb', h6, h7⟩ := lastNamed_of_mem (hsub _ h3)
      refine ⟨v, _, h2, ht, ?_⟩
      rw [hg, h7]
      exact nofun

/-- C45: the nodes that are defined and the types of the schema. When two nodes get the same name only if they are the same
node with the same definition, every definition and every anonymous type keeps its own type. -/
theorem C45_partial (x : Ext) (F : Files) (k : Nat) (path : Str) (P : PSchema) (h : parseFile x F k path = .ok P) :
    ∃ log, FileLog x F P.context.namespaces path log ∧ (∀ c, Defines F path c ↔ ∃ b ∈ log, b.node = c) ∧
      (∀ n r, P.context.get n = some r → ∃ b ∈ log, b.name = n ∧ b.root = r) ∧
      ((∀ b ∈ log, ∀ b' ∈ log, b.name = b'.name → b.node = b'.node ∧ b.root = b'.root) →
        ∀ b ∈ log, P.context.get b.name = some b.root) := by
  obtain ⟨log, hl, hg⟩ := C39 x F k path P h
  refine ⟨log, hl, hl.nodes, fun n r hr => ?_, fun hu b hb => ?_⟩
  · rw [hg] at hr
    obtain ⟨l, b, l', rfl, h1, h2, _⟩ := lastNamed_eq.1 hr
    exact ⟨b, by simp, h1, h2⟩
  · obtain ⟨b', hb', h1, h2⟩ := lastNamed_of_mem hb
    rw [hg, h2, (hu b' hb' b hb h1).2]

/-- Two namespaces with one identifier are the same. -/
theorem Stands.unique {t : Namespaces} (ht : t.Inv) {n : Namespace} {u u' : Option Str} (h : Stands t n u) (h' : Stands t n u') :
    u = u' := by
  cases n with
  | none =>
    cases u with
    | some u => cases h
    | none =>
      cases u' with
      | some u => cases h'
      | none => rfl
  | id i =>
    cases u with
    | none => cases h
    | some u =>
      cases u' with
      | none => cases h'
      | some u' =>
        obtain ⟨p, h1⟩ := (ht.agree u i).1 h
        obtain ⟨p', h2⟩ := (ht.agree u' i).1 h'
        rw [h1] at h2
        cases h2
        rfl

/-- C45 for files without anonymous types: when no two top-level definitions, be they elements or types, have the same name in
the same namespace, every one has its own type, made from its own node. -/
theorem C45_named_partial (x : Ext) (F : Files) (k : Nat) (path : Str) (P : PSchema) (h : parseFile x F k path = .ok P)
    (ha : ∀ q d, Reads F path q d → ∀ c ∈ (Nd.of d.root).xsdKids, ∀ k, topKind c.name = some k → ∀ a, ¬ AnonymousWithin k c a)
    (hu : ∀ q d q' d', Reads F path q d → Reads F path q' d' → targetOf d = targetOf d' → ∀ c ∈ (Nd.of d.root).xsdKids,
      ∀ c' ∈ (Nd.of d'.root).xsdKids, (topKind c.name).isSome → (topKind c'.name).isSome →
      c.value c!"name" = c'.value c!"name" → c = c' ∧ d = d')
    (q : Str) (d : XDoc) (hr : Reads F path q d) (c : Nd) (hc : c ∈ (Nd.of d.root).xsdKids) (hk : (topKind c.name).isSome) :
    ∃ v e r, c.value c!"name" = some v ∧ EnvOf d.root.1 e ∧ Stands P.context.namespaces e.target (targetOf d) ∧
      Interpreted x e P.context.namespaces c ⟨v, e.target⟩ r ∧ P.context.get ⟨v, e.target⟩ = some r := by
  obtain ⟨log, hl, hg⟩ := C39 x F k path P h
  obtain ⟨us, hus⟩ := C32_table x F k path P h
  have hinv : P.context.namespaces.Inv := Namespaces.Reachable.inv ⟨us, hus⟩
  obtain ⟨log', h', hsub⟩ := hl.reads hr
  cases h' with
  | mk h he ht hs =>
    rw [hr.read] at h
    cases h
    obtain ⟨k0, hk0⟩ := Option.isSome_iff_exists.1 hk
    rcases hs.kids _ hc with ⟨h, _⟩ | ⟨k', v, r, h1, h2, h3, h4, h5⟩
    · exact absurd h (topKind_not_include hk0)
    · obtain ⟨b', hb', h6, h7⟩ := lastNamed_of_mem (hsub _ h3)
      obtain ⟨q', d', e', top, k'', hf⟩ := hl.entry (path := path) (fun d h => .here h) b' hb'
      rcases hf.own with ⟨ho, v', hv', hn⟩ | ⟨ho, _⟩
      · have hn' : (⟨v, _⟩ : Name) = ⟨v', e'.target⟩ := h6.symm.trans hn
        injection hn' with hv ht'
        subst hv
        have htt := Stands.unique hinv (ht' ▸ hf.target) ht
        obtain ⟨rfl, rfl⟩ := hu _ _ _ _ hr hf.reads htt.symm c hc top hf.kid hk (by rw [hf.kind]; rfl) (by rw [h2, hv'])
        refine ⟨v, e', b'.root, h2, hf.env, hf.target, ?_, ?_⟩
        · have := hf.made
          rw [ho, hn] at this
          exact this
        · rw [hg, ← ht', h7]
      · exact absurd ho (ha _ _ hf.reads _ hf.kid _ hf.kind _)

end Xsd
