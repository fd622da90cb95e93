import Verif.Props.OrderCode
import Verif.Props.Enums
import Verif.Lemmas.Encode
/-!
# C50: iteration order of maps, the behaviour of the generated code
-/
namespace Xsd

/-- Variants and namespaces of a definition are for different strings, prefixes. -/
structure TypeDef.Distinct (t : TypeDef) : Prop where
  nss : (t.nss.map Prod.fst).Nodup
  names : ∀ vs, t.decl = .enum vs → (vs.map Prod.fst).Nodup
  values : ∀ vs, t.decl = .enum vs → (vs.map Prod.snd).Nodup

namespace SameDef
variable {t t' : TypeDef} (h : SameDef t t')
include h

theorem ident : t'.ident = t.ident := by have := congrArg TypeDef.ident h.rest; exact this
theorem xmlName : t'.xmlName = t.xmlName := by have := congrArg TypeDef.xmlName h.rest; exact this
theorem toXml : t'.toXml = t.toXml := by have := congrArg TypeDef.toXml h.rest; exact this
theorem rootName : t'.rootName = t.rootName := by have := congrArg TypeDef.rootName h.rest; exact this
theorem fromXml : t'.fromXml = t.fromXml := by have := congrArg TypeDef.fromXml h.rest; exact this
theorem look : t'.look = t.look := by have := congrArg TypeDef.look h.rest; exact this

end SameDef

/-- Programs whose types are the same, where the order of variants and of namespaces cannot matter. -/
structure SameProg (P P' : List TypeDef) : Prop where
  find : ∀ i, (findType P i = none ∧ findType P' i = none) ∨
    ∃ t t', findType P i = some t ∧ findType P' i = some t' ∧ SameDef t t' ∧ t.Distinct

theorem find_snd_perm {vs vs' : List (Str × Str)} (hn : (vs.map Prod.snd).Nodup) (h : vs'.Perm vs) (s : Str) :
    vs'.find? (fun p => decide (p.2 = s)) = vs.find? (fun p => decide (p.2 = s)) := by
  have hn' : (vs'.map Prod.snd).Nodup := (h.map Prod.snd).nodup_iff.2 hn
  cases hq : vs.find? (fun p => decide (p.2 = s)) with
  | some p =>
    have h1 := List.mem_of_find?_eq_some hq
    have h2 := List.find?_some hq
    simp only [decide_eq_true_eq] at h2
    obtain ⟨v, w⟩ := p
    subst h2
    exact find_unique hn' (h.mem_iff.2 h1)
  | none =>
    rw [List.find?_eq_none] at hq ⊢
    exact fun p hp => hq p (h.mem_iff.1 hp)

section Read
variable {σ : Type} {x : Ext} {o : Ops σ} {P P' : List TypeDef} (h : SameProg P P')
include h

theorem SameProg.lookahead : ∀ k, Xsd.lookahead o P' k = Xsd.lookahead o P k := by
  intro k
  induction k with
  | zero => rfl
  | succ k ih =>
    funext i s
    unfold Xsd.lookahead
    rcases h.find i with ⟨h1, h2⟩ | ⟨t, t', h1, h2, hd, _⟩
    · rw [h1, h2]
    · rw [h1, h2]
      dsimp only
      rw [hd.look, ih]

theorem SameProg.fromStrAt (ty : Ty) (s : Str) : Xsd.fromStrAt x P' ty s = Xsd.fromStrAt x P ty s := by
  unfold Xsd.fromStrAt
  split
  · rfl
  · rename_i i
    rcases h.find i with ⟨h1, h2⟩ | ⟨t, t', h1, h2, hd, hu⟩
    · rw [h1, h2]
    · rw [h1, h2]
      dsimp only
      have hdecl := hd.decl
      generalize hg : t.decl = d, t'.decl = d' at hdecl
      cases hdecl with
      | same => rfl
      | enum hp =>
        dsimp only [enumFromStr]
        rw [find_snd_perm (hu.values _ hg) hp]
  · rfl

theorem SameProg.readAttrs : ∀ (as : List AttrRead) (s : σ), Xsd.readAttrs x o P' as s = Xsd.readAttrs x o P as s := by
  have h1 : ∀ r s, readStr x P' r s = readStr x P r s := by
    intro r s
    unfold readStr
    split
    · rfl
    · exact h.fromStrAt _ _
    · rfl
  intro as
  induction as with
  | nil => intro s; rfl
  | cons a as ih =>
    intro s
    unfold Xsd.readAttrs readAttr
    rw [ih]
    simp only [h1]

theorem SameProg.fromNode : ∀ k, Xsd.fromNode x o P' k = Xsd.fromNode x o P k := by
  intro k
  induction k with
  | zero => rfl
  | succ k ih =>
    funext i s
    unfold Xsd.fromNode
    rcases h.find i with ⟨h1, h2⟩ | ⟨t, t', h1, h2, hd, hu⟩
    · rw [h1, h2]
    · rw [h1, h2]
      dsimp only
      unfold runFrom
      rw [hd.fromXml, ih, h.lookahead, hd.ident]
      split
      · rfl
      · congr 1
        funext val
        have hdecl := hd.decl
        generalize hg : t.decl = d, t'.decl = d' at hdecl
        cases hdecl with
        | same => rfl
        | enum hp =>
          dsimp only [enumFromStr]
          rw [find_snd_perm (hu.values _ hg) hp]
      · simp only [h.readAttrs]
      · rfl

/-- Reading is the same. -/
theorem SameProg.fromXml (k : Nat) (i : Str) (d : Doc) : Xsd.fromXml x o P' k i d = Xsd.fromXml x o P k i d := by
  unfold Xsd.fromXml
  rcases h.find i with ⟨h1, h2⟩ | ⟨t, t', h1, h2, hd, _⟩
  · rw [h1, h2]
  · rw [h1, h2]
    dsimp only
    rw [hd.rootName, h.fromNode]

end Read

/-! ## Writing -/

/-- Bindings in any order. -/
structure SameNss (m m' : List (Str × Str)) : Prop where
  nodup : (m.map Prod.fst).Nodup
  perm : m'.Perm m

theorem SameNss.put {m m' : List (Str × Str)} (h : SameNss m m') (p u : Str) : SameNss (nsPut m p u) (nsPut m' p u) := by
  unfold nsPut
  rw [alookup_perm h.nodup h.perm]
  split
  · exact h
  · rename_i hn
    refine ⟨?_, h.perm.append (.refl _)⟩
    have hp : p ∉ m.map Prod.fst := by
      intro hm
      exact hn ((alookup_isSome_iff m p).2 hm)
    rw [List.map_append, List.nodup_append]
    refine ⟨h.nodup, by simp, ?_⟩
    intro a ha b hb
    simp only [List.map_cons, List.map_nil, List.mem_singleton] at hb
    rintro rfl
    exact hp (hb ▸ ha)

theorem SameNss.puts {m m' l : List (Str × Str)} (h : SameNss m m') :
    SameNss (l.foldl (fun m b => nsPut m b.1 b.2) m) (l.foldl (fun m b => nsPut m b.1 b.2) m') := by
  induction l generalizing m m' with
  | nil => exact h
  | cons b l ih => exact ih (h.put b.1 b.2)

theorem nsPut_comm {m : List (Str × Str)} {p q u v : Str} (h : p ≠ q) (hn : (m.map Prod.fst).Nodup) :
    SameNss (nsPut (nsPut m p u) q v) (nsPut (nsPut m q v) p u) := by
  have h0 : SameNss m m := ⟨hn, .refl _⟩
  refine ⟨((h0.put p u).put q v).nodup, ?_⟩
  refine perm_of_alookup ((h0.put p u).put q v).nodup ((h0.put q v).put p u).nodup ?_
  have key : ∀ (m : List (Str × Str)) (p u r : Str), alookup (nsPut m p u) r = (alookup m r).or (if p = r then some u else none) := by
    intro m p u r
    unfold nsPut
    by_cases hs : (alookup m p).isSome = true
    · rw [if_pos hs]
      by_cases hr : p = r
      · subst hr
        cases ha : alookup m p with
        | none => rw [ha] at hs; cases hs
        | some w => rfl
      · rw [if_neg hr]; cases alookup m r <;> rfl
    · rw [if_neg hs, alookup_append]
      rfl
  intro r
  simp only [key]
  by_cases h1 : p = r
  · subst h1
    rw [if_pos rfl, if_neg (fun e => h e.symm)]
    cases alookup m p <;> rfl
  · rw [if_neg h1]
    cases alookup m r <;> simp

theorem SameNss.trans {a b c : List (Str × Str)} (h : SameNss a b) (h' : SameNss b c) : SameNss a c := ⟨h.nodup, h'.perm.trans h.perm⟩

/-- Bindings for different prefixes may be put in any order. -/
theorem SameNss.perm_puts {l l' : List (Str × Str)} (hp : l'.Perm l) (hn : (l.map Prod.fst).Nodup) :
    ∀ {m m' : List (Str × Str)}, SameNss m m' →
      SameNss (l.foldl (fun m b => nsPut m b.1 b.2) m) (l'.foldl (fun m b => nsPut m b.1 b.2) m') := by
  induction hp with
  | nil => intro m m' h; exact h
  | cons b _ ih =>
    intro m m' h
    exact ih (List.nodup_cons.1 hn).2 (h.put b.1 b.2)
  | swap a b l =>
    intro m m' h
    rw [List.map_cons, List.map_cons, List.nodup_cons, List.mem_cons, not_or] at hn
    refine SameNss.puts (m := nsPut (nsPut m a.1 a.2) b.1 b.2) (m' := nsPut (nsPut m' b.1 b.2) a.1 a.2) (l := l) ?_
    exact ((h.put a.1 a.2).put b.1 b.2).trans (nsPut_comm (fun e => hn.1.1 e) ((h.perm.map Prod.fst).nodup_iff.2 h.nodup))
  | trans h1 h2 ih1 ih2 =>
    intro m m' h
    have hn2 := (h2.map Prod.fst).nodup_iff.2 hn
    exact (ih2 hn ⟨h.nodup, .refl _⟩).trans (ih1 hn2 h)

/-- Contexts that differ in the order of bindings. -/
structure SameC (c c' : Ctx) : Prop where
  virt : c'.virt = c.virt
  name : c'.inner.name = c.inner.name
  attrs : c'.inner.attrs = c.inner.attrs
  nss : SameNss c.inner.nss c'.inner.nss

theorem SameEvs.append {a a' b b' : List Ev} (h : SameEvs a a') (h' : SameEvs b b') : SameEvs (a ++ b) (a' ++ b') := by
  induction h with
  | nil => exact h'
  | cons h _ ih => exact .cons h ih

theorem SameEvs.refl (a : List Ev) : SameEvs a a := by
  induction a with
  | nil => exact .nil
  | cons e a ih => exact .cons (.same e) ih

namespace SameC

theorem new (n : Str) : SameC (Ctx.new n) (Ctx.new n) := ⟨rfl, rfl, rfl, List.nodup_nil, .refl _⟩

variable {c c' : Ctx} (h : SameC c c')
include h

theorem wrap : SameC c.wrap c'.wrap := ⟨rfl, h.name, h.attrs, h.nss⟩

theorem endBorrow {d d' : Ctx} (h' : SameC d d') : SameC (c.endBorrow d) (c'.endBorrow d') := ⟨h.virt, h'.name, h'.attrs, h'.nss⟩

theorem setAttr (n v : Str) : SameC (c.setAttr n v) (c'.setAttr n v) := by
  unfold Ctx.setAttr
  rw [h.virt]
  split
  · exact ⟨rfl, h.name, by show _ ++ _ = _; rw [h.attrs], h.nss⟩
  · exact ⟨rfl, h.name, by show _ ++ _ = _; rw [h.attrs], h.nss⟩

theorem setNss {N N' : List (Str × Str)} (hp : N'.Perm N) (hn : (N.map Prod.fst).Nodup) : SameC (Xsd.setNss N c) (Xsd.setNss N' c') := by
  rw [setNss_eq, setNss_eq]
  exact ⟨h.virt, h.name, h.attrs, SameNss.perm_puts hp hn h.nss⟩

theorem start : SameEvs c.writeStart.1 c'.writeStart.1 ∧ SameC c.writeStart.2 c'.writeStart.2 := by
  unfold Ctx.writeStart
  rw [h.virt]
  split
  · exact ⟨.nil, h⟩
  · refine ⟨.cons ?_ .nil, rfl, h.name, rfl, List.nodup_nil, .refl _⟩
    rw [h.name, h.attrs]
    exact .start h.nss.nodup h.nss.perm

theorem fin : SameEvs c.writeEnd c'.writeEnd := by
  unfold Ctx.writeEnd
  rw [h.virt]
  exact .refl _

end SameC

/-- Results of writers. -/
abbrev SameW : WRes → WRes → Prop := Res.Rel (fun a b => SameEvs a.1 b.1 ∧ SameC a.2 b.2)

section Write
variable {x : Ext} {P P' : List TypeDef} {callW callW' : Str → Val → Ctx → WRes}

theorem writeVal_same (hW : ∀ i v c c', SameC c c' → SameW (callW i v c) (callW' i v c')) (w : ValWrite) (v : Val) {c c' : Ctx} (h : SameC c c') :
    SameW (writeVal x callW w v c) (writeVal x callW' w v c') := by
  cases w with
  | chars t =>
    simp only [writeVal]
    split
    · exact .ok ⟨.refl _, h⟩
    · exact .panic
  | fixed s => exact .ok ⟨.refl _, h⟩
  | call i => exact hW i v c c' h

theorem withTags_same {body body' : Ctx → WRes} (hb : ∀ c c', SameC c c' → SameW (body c) (body' c')) (tags : Bool) {c c' : Ctx}
    (h : SameC c c') : SameW (withTags tags body c) (withTags tags body' c') := by
  unfold withTags
  split
  · refine (hb _ _ h.start.2).bind fun a b hab => ?_
    exact .ok ⟨(h.start.1.append hab.1).append hab.2.fin, hab.2⟩
  · exact hb _ _ h

theorem forEach_same {body body' : Val → Ctx → WRes} (hb : ∀ v c c', SameC c c' → SameW (body v c) (body' v c')) (vs : List Val) {c c' : Ctx}
    (h : SameC c c') : SameW (forEach body vs c) (forEach body' vs c') := by
  induction vs generalizing c c' with
  | nil => exact .ok ⟨.nil, h⟩
  | cons v vs ih =>
    refine (hb v _ _ h).bind fun a b hab => ?_
    refine (ih hab.2).bind fun a2 b2 hab2 => ?_
    exact .ok ⟨hab.1.append hab2.1, hab2.2⟩

theorem writeItem_same (hW : ∀ i v c c', SameC c c' → SameW (callW i v c) (callW' i v c')) (l : LeafWrite) (v : Val) {c c' : Ctx} (h : SameC c c') :
    SameW (writeItem x callW l v c) (writeItem x callW' l v c') := by
  unfold writeItem
  split
  · refine (withTags_same (fun c c' h => writeVal_same hW l.inner v h) l.tags h.wrap).bind fun a b hab => ?_
    exact .ok ⟨hab.1, h.endBorrow hab.2⟩
  · refine (withTags_same (fun c c' h => writeVal_same hW l.inner v h) l.tags (.new _)).bind fun a b hab => ?_
    exact .ok ⟨hab.1, h⟩

theorem writeMany_same (hW : ∀ i v c c', SameC c c' → SameW (callW i v c) (callW' i v c')) (l : LeafWrite) (v : Val) {c c' : Ctx} (h : SameC c c') :
    SameW (writeMany x callW l v c) (writeMany x callW' l v c') := by
  unfold writeMany
  split
  · split
    · exact forEach_same (fun v c c' h => writeItem_same hW l v h) _ h
    · exact .panic
  · exact writeItem_same hW l v h

theorem writeLeaves_same (hW : ∀ i v c c', SameC c c' → SameW (callW i v c) (callW' i v c')) (fields : List (Str × Val)) (ls : List LeafWrite)
    {c c' : Ctx} (h : SameC c c') : SameW (writeLeaves x callW fields ls c) (writeLeaves x callW' fields ls c') := by
  induction ls generalizing c c' with
  | nil => exact .ok ⟨.nil, h⟩
  | cons l ls ih =>
    have h1 : SameW (writeLeaf x callW l fields c) (writeLeaf x callW' l fields c') := by
      unfold writeLeaf
      split
      · exact .panic
      · split
        · split
          · exact .ok ⟨.nil, h⟩
          · exact writeMany_same hW l _ h
          · exact .panic
        · exact writeMany_same hW l _ h
    refine h1.bind fun a b hab => ?_
    refine (ih hab.2).bind fun a2 b2 hab2 => ?_
    exact .ok ⟨hab.1.append hab2.1, hab2.2⟩

theorem writeContent_same (hW : ∀ i v c c', SameC c c' → SameW (callW i v c) (callW' i v c')) (fields : List (Str × Val)) (w : ContentWrite)
    {c c' : Ctx} (h : SameC c c') : SameW (writeContent x callW fields w c) (writeContent x callW' fields w c') := by
  cases w with
  | nothing => exact .ok ⟨.nil, h⟩
  | single f v =>
    unfold writeContent
    dsimp only
    split
    · exact writeVal_same hW _ _ h
    · exact .panic
  | leaves ls => exact writeLeaves_same hW fields ls h

theorem writeVarItem_same (hW : ∀ i v c c', SameC c c' → SameW (callW i v c) (callW' i v c')) (w : VarWrite) (v : Val) {c c' : Ctx} (h : SameC c c') :
    SameW (writeVarItem x callW w v c) (writeVarItem x callW' w v c') := by
  unfold writeVarItem
  refine (withTags_same (fun c c' h => writeVal_same hW w.inner v h) w.tags (.new _)).bind fun a b hab => ?_
  exact .ok ⟨hab.1, h⟩

theorem writeChoice_same (hW : ∀ i v c c', SameC c c' → SameW (callW i v c) (callW' i v c')) (vs : List VarWrite) (v : Val) {c c' : Ctx}
    (h : SameC c c') : SameW (writeChoice x callW vs v c) (writeChoice x callW' vs v c') := by
  unfold writeChoice
  split
  · split
    · exact .panic
    · split
      · split
        · exact forEach_same (fun v c c' h => writeVarItem_same hW _ v h) _ h
        · exact .panic
      · exact writeVarItem_same hW _ _ h
  · exact .panic

variable (hP : SameProg P P')
include hP

theorem SameProg.displayAt (ty : Ty) (v : Val) : Xsd.displayAt x P' ty v = Xsd.displayAt x P ty v := by
  unfold Xsd.displayAt
  split
  · rfl
  · rename_i i
    rcases hP.find i with ⟨h1, h2⟩ | ⟨t, t', h1, h2, hd, hu⟩
    · rw [h1, h2]
    · rw [h1, h2]
      dsimp only
      have hdecl := hd.decl
      generalize hg : t.decl = d, t'.decl = d' at hdecl
      cases hdecl with
      | same => rfl
      | enum hp =>
        cases v <;> try rfl
        exact alookup_perm (hu.names _ hg) hp _
  · rfl

theorem SameProg.writeAttrs (fields : List (Str × Val)) (as : List AttrWrite) {c c' : Ctx} (h : SameC c c') :
    Res.Rel SameC (Xsd.writeAttrs x P fields as c) (Xsd.writeAttrs x P' fields as c') := by
  have hs : ∀ a v, showAttr x P' a v = showAttr x P a v := by
    intro a v
    cases a with
    | lit t => rfl
    | display ty => exact hP.displayAt ty v
    | fixed s => rfl
  induction as generalizing c c' with
  | nil => exact .ok h
  | cons a as ih =>
    have h1 : Res.Rel SameC (writeAttr x P a fields c) (writeAttr x P' a fields c') := by
      unfold writeAttr
      simp only [hs]
      split
      · exact .panic
      · split
        · split
          · exact .ok h
          · split
            · exact .ok (h.setAttr _ _)
            · exact .panic
          · exact .panic
        · split
          · exact .ok (h.setAttr _ _)
          · exact .panic
    exact h1.bind fun a b hab => ih hab

theorem SameProg.toXmlWriter : ∀ k i v c c', SameC c c' → SameW (Xsd.toXmlWriter x P k i v c) (Xsd.toXmlWriter x P' k i v c') := by
  intro k
  induction k with
  | zero => intro i v c c' h; exact .diverge
  | succ k ih =>
    intro i v c c' h
    unfold Xsd.toXmlWriter
    rcases hP.find i with ⟨h1, h2⟩ | ⟨t, t', h1, h2, hd, hu⟩
    · rw [h1, h2]; exact .panic
    · rw [h1, h2]
      dsimp only
      have hc := h.setNss hd.nss hu.nss
      unfold runTo
      rw [hd.toXml]
      dsimp only
      split
      · split
        · exact withTags_same (fun c c' h => writeVal_same ih _ _ h) _ hc
        · exact .panic
      · have hdecl := hd.decl
        generalize hg : t.decl = d, t'.decl = d' at hdecl
        have e : ∀ n : Str, ∀ vs vs' : List (Str × Str), (vs.map Prod.fst).Nodup → vs'.Perm vs →
            SameW (match alookup vs n with
              | some s => withTags true (fun c => .ok (if s = [] then [] else [.chars s], c)) (Xsd.setNss t.nss c)
              | none => .panic)
            (match alookup vs' n with
              | some s => withTags true (fun c => .ok (if s = [] then [] else [.chars s], c)) (Xsd.setNss t'.nss c')
              | none => .panic) := by
          intro n vs vs' hn hp
          rw [alookup_perm hn hp]
          split
          · refine withTags_same ?_ _ hc
            intro c c' h
            exact .ok ⟨.refl _, h⟩
          · exact .panic
        cases hdecl with
        | same =>
          cases d with
          | enum vs =>
            cases v <;> try exact .panic
            exact e _ vs vs (hu.names _ hg) (.refl _)
          | _ => exact .panic
        | enum hp =>
          cases v <;> try exact .panic
          exact e _ _ _ (hu.names _ hg) hp
      · split
        · exact (hP.writeAttrs _ _ hc).bind fun a b hab => withTags_same (fun c c' h => writeContent_same ih _ _ h) _ hab
        · exact .panic
      · exact withTags_same (fun c c' h => writeChoice_same ih _ _ h) _ hc

/-- Writing is the same. -/
theorem SameProg.toXml (k : Nat) (i : Str) (v : Val) : SameOut (Xsd.toXml x P k i v) (Xsd.toXml x P' k i v) := by
  unfold Xsd.toXml
  rcases hP.find i with ⟨h1, h2⟩ | ⟨t, t', h1, h2, hd, _⟩
  · rw [h1, h2]; exact .fail nofun
  · rw [h1, h2]
    dsimp only
    rw [hd.xmlName]
    have := hP.toXmlWriter (x := x) k i v _ _ (.new t.xmlName)
    generalize Xsd.toXmlWriter x P k i v (Ctx.new t.xmlName) = r, Xsd.toXmlWriter x P' k i v (Ctx.new t.xmlName) = r' at this
    cases this with
    | ok h => exact .ok h.1
    | err => exact .fail nofun
    | panic => exact .fail nofun
    | diverge => exact .fail nofun

end Write

/-! ## What is written means the same -/

/-- Frames that differ in the order of bindings. -/
structure SameFrame (f f' : Frame) : Prop where
  info : f'.info = f.info
  kids : f'.kids = f.kids
  scope : ∀ p, alookup f'.scope p = alookup f.scope p

inductive SameFrames : List Frame → List Frame → Prop where
  | nil : SameFrames [] []
  | cons {f f' fs fs'} (h : SameFrame f f') (t : SameFrames fs fs') : SameFrames (f :: fs) (f' :: fs')

inductive SameB : Option BState → Option BState → Prop where
  | none : SameB none none
  | before : SameB (some .before) (some .before)
  | done (e : Elem) : SameB (some (.done e)) (some (.done e))
  | inside {f f' fs fs'} (h : SameFrame f f') (t : SameFrames fs fs') : SameB (some (.inside f fs)) (some (.inside f' fs'))

theorem openElem_same {sc sc' : Scope} (hs : ∀ p, alookup sc' p = alookup sc p) (n : Str) (as : List (Str × Str)) {ns ns' : List (Str × Str)}
    (h : ns = ns' ∨ SameNss ns ns') :
    (openElem sc n as ns = none ∧ openElem sc' n as ns' = none) ∨
    ∃ f f', openElem sc n as ns = some f ∧ openElem sc' n as ns' = some f' ∧ SameFrame f f' := by
  have hd : (declared ns = none ∧ declared ns' = none) ∨ ∃ d d', declared ns = some d ∧ declared ns' = some d' ∧ ∀ p, alookup d' p = alookup d p := by
    rcases h with rfl | h
    · cases declared ns with
      | none => exact .inl ⟨rfl, rfl⟩
      | some d => exact .inr ⟨d, d, rfl, rfl, fun _ => rfl⟩
    · unfold declared
      have ha : ns'.any (fun b => b.1 != [] && b.2 == []) = ns.any (fun b => b.1 != [] && b.2 == []) := by
        rw [Bool.eq_iff_iff, List.any_eq_true, List.any_eq_true]
        constructor
        · rintro ⟨b, hb, hc⟩; exact ⟨b, h.perm.mem_iff.1 hb, hc⟩
        · rintro ⟨b, hb, hc⟩; exact ⟨b, h.perm.mem_iff.2 hb, hc⟩
      rw [ha]
      split
      · exact .inl ⟨rfl, rfl⟩
      · refine .inr ⟨_, _, rfl, rfl, fun p => alookup_perm ?_ (h.perm.filter _) p⟩
        exact h.nodup.sublist (List.filter_sublist.map _)
  unfold openElem
  rcases hd with ⟨h1, h2⟩ | ⟨d, d', h1, h2, hl⟩
  · rw [h1, h2]; exact .inl ⟨rfl, rfl⟩
  · rw [h1, h2]
    have hl' : ∀ p, alookup (d' ++ sc') p = alookup (d ++ sc) p := by
      intro p
      rw [alookup_append, alookup_append, hl, hs]
    have hr : resolveName (d' ++ sc') n = resolveName (d ++ sc) n := by
      unfold resolveName
      simp only [hl']
    simp only [Option.bind_eq_bind, Option.bind_some, hr]
    cases hq : resolveName (d ++ sc) n with
    | none => exact .inl ⟨rfl, rfl⟩
    | some q =>
      cases ha : resolveAttrs as with
      | none => exact .inl ⟨rfl, rfl⟩
      | some as' => exact .inr ⟨_, _, rfl, rfl, rfl, rfl, hl'⟩

theorem bstep_same {b b' : BState} (h : SameB (some b) (some b')) {e e' : Ev} (he : SameEv e e') : SameB (bstep b e) (bstep b' e') := by
  have hst : ∀ n as ns ns', (ns = ns' ∨ SameNss ns ns') → SameB (bstep b (.start n as ns)) (bstep b' (.start n as ns')) := by
    intro n as ns ns' hn
    cases h with
    | before =>
      rcases openElem_same (sc := []) (sc' := []) (fun _ => rfl) n as hn with ⟨h1, h2⟩ | ⟨f, f', h1, h2, hf⟩
      · simp only [bstep, h1, h2]; exact .none
      · simp only [bstep, h1, h2]; exact .inside hf .nil
    | done e => exact .none
    | inside hf hfs =>
      rcases openElem_same hf.scope n as hn with ⟨h1, h2⟩ | ⟨g, g', h1, h2, hg⟩
      · simp only [bstep, h1, h2]; exact .none
      · simp only [bstep, h1, h2]; exact .inside hg (.cons hf hfs)
  cases he with
  | start hn hp => exact hst _ _ _ _ (.inr ⟨hn, hp⟩)
  | same =>
    cases e with
    | start n as ns => exact hst n as ns ns (.inl rfl)
    | fin =>
      cases h with
      | before => exact .none
      | done e => exact .none
      | inside hf hfs =>
        cases hfs with
        | nil => simp only [bstep, hf.info, hf.kids]; exact .done _
        | cons hg hgs =>
          refine .inside ⟨hg.info, ?_, hg.scope⟩ hgs
          show _ ++ _ = _
          rw [hg.kids, hf.info, hf.kids]
    | chars s =>
      cases h with
      | before => simp only [bstep]; split <;> first | exact .before | exact .none
      | done e => simp only [bstep]; split <;> first | exact .done e | exact .none
      | inside hf hfs =>
        refine .inside ⟨hf.info, ?_, hf.scope⟩ hfs
        show addText _ _ = _
        rw [hf.kids]

/-- The same events denote the same document. -/
theorem SameEvs.buildDoc {es es' : List Ev} (h : SameEvs es es') : Xsd.buildDoc es' = Xsd.buildDoc es := by
  have key : ∀ {b b' : BState}, SameB (some b) (some b') → SameB (brun b es) (brun b' es') := by
    induction h with
    | nil => intro b b' hb; exact hb
    | cons he _ ih =>
      intro b b' hb
      have := bstep_same hb he
      unfold brun
      generalize bstep b _ = r, bstep b' _ = r' at this
      cases this with
      | none => exact .none
      | before => exact ih .before
      | done e => exact ih (.done e)
      | inside hf hfs => exact ih (.inside hf hfs)
  have := key .before
  unfold Xsd.buildDoc
  generalize brun .before es = r, brun .before es' = r' at this
  cases this <;> rfl

end Xsd
