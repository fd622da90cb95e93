import Verif.Spec.Typing
import Verif.Spec.Types
import Verif.Spec.Api
/-!
# Well-typed modules do not panic (C59)
-/
namespace Xsd

variable {x : Ext} {P : List TypeDef}

/-- The outcome is not a panic, and a value that is returned is a good one. -/
def Res.Safe {ε α : Type} (good : α → Prop) (r : Res ε α) : Prop := r ≠ .panic ∧ ∀ a, r = .ok a → good a

theorem Res.Safe.ok {ε α : Type} {good : α → Prop} {a : α} (h : good a) : (Res.ok a : Res ε α).Safe good :=
  ⟨(by intro hh; cases hh), fun b hb => by cases hb; exact h⟩

theorem Res.Safe.err {ε α : Type} {good : α → Prop} {e : ε} : (Res.err e : Res ε α).Safe good :=
  ⟨(by intro hh; cases hh), fun b hb => by cases hb⟩

theorem Res.Safe.diverge {ε α : Type} {good : α → Prop} : (Res.diverge : Res ε α).Safe good :=
  ⟨(by intro hh; cases hh), fun b hb => by cases hb⟩

theorem Res.Safe.bind {ε α β : Type} {good : α → Prop} {good' : β → Prop} {r : Res ε α} {f : α → Res ε β} (h : r.Safe good)
    (hf : ∀ a, good a → (f a).Safe good') : (r >>= f).Safe good' := by
  cases r with
  | ok a => exact hf a (h.2 a rfl)
  | err e => exact .err
  | panic => exact absurd rfl h.1
  | diverge => exact .diverge

theorem Res.Safe.mono {ε α : Type} {good good' : α → Prop} {r : Res ε α} (h : r.Safe good) (hg : ∀ a, good a → good' a) :
    r.Safe good' := ⟨h.1, fun a ha => hg a (h.2 a ha)⟩

theorem ofExcept_safe {α : Type} (e : Except DErr α) : (ofExcept e).Safe (fun _ => True) := by
  cases e with
  | ok a => exact .ok trivial
  | error e => exact .err

theorem DeclaresType.find {i : Str} (h : DeclaresType P i) (hu : (P.map TypeDef.ident).Nodup) :
    ∃ t ∈ P, t.ident = i ∧ findType P i = some t := by
  obtain ⟨t, ht, rfl⟩ := h
  exact ⟨t, ht, rfl, findType_of_mem hu ht⟩

theorem findType_mem {i : Str} {t : TypeDef} (h : findType P i = some t) : t ∈ P ∧ t.ident = i := by
  refine ⟨List.mem_of_find?_eq_some h, ?_⟩
  have := List.find?_some h
  exact of_decide_eq_true this

section Read
variable {σ : Type} {o : Ops σ} {callF : Str → σ → DRes σ Val} {callL : Str → σ → DRes σ Bool}

/-- What is known of calls of other readers. -/
def SafeF (P : List TypeDef) (callF : Str → σ → DRes σ Val) : Prop :=
  ∀ i s, DeclaresType P i → (callF i s).Safe (fun r => HasTy P (.named i) r.1)

/-- What is known of calls of lookahead functions. -/
def SafeL (P : List TypeDef) (callL : Str → σ → DRes σ Bool) : Prop :=
  ∀ i s, DeclaresType P i → (callL i s).Safe (fun _ => True)

theorem runChecks_safe (hL : SafeL P callL) (cs : List Check) (hcs : ∀ i, Check.call i ∈ cs → DeclaresType P i) (s : σ) :
    (runChecks o callL cs s).Safe (fun _ => True) := by
  induction cs generalizing s with
  | nil => exact .ok trivial
  | cons c cs ih =>
    have ih := fun s => ih (fun i hi => hcs i (List.mem_cons_of_mem _ hi)) s
    cases c with
    | call i =>
      unfold runChecks
      refine (hL i s (hcs i (List.mem_cons_self ..))).bind fun r _ => ?_
      split
      · exact .ok trivial
      · exact ih _
    | peek q =>
      simp only [runChecks]
      split
      · exact .ok trivial
      · exact ih _

theorem lookahead_safe (H : Compiles x P) (k : Nat) : SafeL P (lookahead o P k) := by
  induction k with
  | zero => intro i s _; exact .diverge
  | succ k ih =>
    intro i s hi
    obtain ⟨t, ht, _, hf⟩ := hi.find H.unique
    simp only [lookahead, hf]
    have hl := (H.typed t ht).looks
    cases hk : t.look with
    | always => exact .ok trivial
    | checks cs => rw [hk] at hl; exact runChecks_safe ih cs hl s

theorem parseInt_bounds {sg : Bool} {lo hi i : Int} {s : Str} (h : parseInt sg lo hi s = some i) : lo ≤ i ∧ i ≤ hi := by
  unfold parseInt at h
  split at h
  · split at h
    · next hh => cases h; exact hh
    · cases h
  · cases h

/-- A parsed literal is a value of its Rust type. -/
theorem parsePrim_typed {p : Prim} {s : Str} {v : Val} (h : parsePrim x p s = some v) : PrimVal p v := by
  cases p with
  | string => cases h; exact ⟨s, rfl⟩
  | bool =>
    simp only [parsePrim] at h
    split at h
    · cases h; exact ⟨_, rfl⟩
    · split at h
      · cases h; exact ⟨_, rfl⟩
      · cases h
  | i64 =>
    obtain ⟨i, hi, rfl⟩ := Option.map_eq_some_iff.1 h
    have := parseInt_bounds hi
    unfold i64Min i64Max at this
    exact ⟨i, rfl, by omega, by omega⟩
  | u64 =>
    obtain ⟨i, hi, rfl⟩ := Option.map_eq_some_iff.1 h
    have := parseInt_bounds hi
    unfold u64Max at this
    exact ⟨i, rfl, by omega, by omega⟩
  | i32 =>
    obtain ⟨i, hi, rfl⟩ := Option.map_eq_some_iff.1 h
    have := parseInt_bounds hi
    unfold i32Min i32Max at this
    exact ⟨i, rfl, by omega, by omega⟩
  | decimal => obtain ⟨i, _, rfl⟩ := Option.map_eq_some_iff.1 h; exact ⟨i, rfl⟩
  | f32 => obtain ⟨i, _, rfl⟩ := Option.map_eq_some_iff.1 h; exact ⟨i, rfl⟩

theorem parseLit_safe (t : LiteralType) (s : Str) : (parseLit x t s).Safe (fun v => HasTy P (.prim t.prim) v) := by
  unfold parseLit
  split
  · next v hv => exact .ok (.prim (parsePrim_typed hv))
  · exact .err

theorem readVal_safe (hF : SafeF P callF) {v : ValRead} {ty : Ty} (hv : v.Has P ty) (s : σ) :
    (readVal x o callF v s).Safe (fun r => HasTy P ty r.1) := by
  cases v with
  | text t =>
    cases hv
    exact (ofExcept_safe _).bind fun _ _ => (parseLit_safe t _).bind fun w hw => .ok hw
  | fixed f =>
    cases hv
    refine (ofExcept_safe _).bind fun a _ => ?_
    split
    · exact .ok .unit
    · exact .err
  | call i =>
    obtain ⟨hi, rfl⟩ := hv
    exact hF i s hi

theorem readOn_safe (hF : SafeF P callF) {v : ValRead} {ty : Ty} (hv : v.Has P ty) (e : Elem) :
    (readOn x o callF v e).Safe (fun r => HasTy P ty r) :=
  (readVal_safe hF hv _).bind fun _ hw => .ok hw

theorem loopNext_safe (hF : SafeF P callF) {v : ValRead} {ty : Ty} (hv : v.Has P ty) (q : QName) (k : Nat) (s : σ) :
    (loopNext x o callF q v k s).Safe (fun r => ∀ w ∈ r.1, HasTy P ty w) := by
  induction k generalizing s with
  | zero => exact .diverge
  | succ k ih =>
    unfold loopNext
    split
    · exact .ok (by intro w hw; cases hw)
    · refine (readOn_safe hF hv _).bind fun w hw => (ih _).bind fun r hr => .ok ?_
      intro u hu
      rcases List.mem_cons.1 hu with rfl | hu
      · exact hw
      · exact hr u hu

theorem loopLook_safe (hF : SafeF P callF) (hL : SafeL P callL) {v : ValRead} {ty : Ty} (hv : v.Has P ty) {i : Str} (hi : DeclaresType P i)
    (k : Nat) (s : σ) : (loopLook x o callF callL i v k s).Safe (fun r => ∀ w ∈ r.1, HasTy P ty w) := by
  induction k generalizing s with
  | zero => exact .diverge
  | succ k ih =>
    unfold loopLook
    refine (hL i s hi).bind fun b _ => ?_
    split
    · refine (readVal_safe hF hv _).bind fun w hw => (ih _).bind fun r hr => .ok ?_
      intro u hu
      rcases List.mem_cons.1 hu with rfl | hu
      · exact hw
      · exact hr u hu
    · exact .ok (by intro w hw; cases hw)

theorem wrapVec_typed {opt : Bool} {ty : Ty} {vs : List Val} (h : ∀ w ∈ vs, HasTy P ty w) : HasTy P (listTy opt ty) (wrapVec opt vs) := by
  unfold listTy wrapVec
  cases opt
  · exact .vec h
  · simp only [if_true]
    split
    · exact .none
    · exact .some (.vec h)

theorem readLeaf_safe (hF : SafeF P callF) (hL : SafeL P callL) (k : Nat) {r : LeafRead} {ty : Ty} (hr : r.Has P ty) (s : σ) :
    (readLeaf x o callF callL k r s).Safe (fun r => HasTy P ty r.1) := by
  cases r with
  | plain v => exact readVal_safe hF hr s
  | whileLookahead i v opt =>
    obtain ⟨hi, t, hv, rfl⟩ := hr
    exact (loopLook_safe hF hL hv hi k s).bind fun r h => .ok (wrapVec_typed h)
  | ifLookahead i v =>
    obtain ⟨hi, t, hv, rfl⟩ := hr
    refine (hL i s hi).bind fun b _ => ?_
    split
    · exact (readVal_safe hF hv _).bind fun r h => .ok (.some h)
    · exact .ok .none
  | whileNext q v opt =>
    obtain ⟨t, hv, rfl⟩ := hr
    exact (loopNext_safe hF hv q k s).bind fun r h => .ok (wrapVec_typed h)
  | ifNext q v =>
    obtain ⟨t, hv, rfl⟩ := hr
    simp only [readLeaf]
    split
    · exact .ok .none
    · exact (readOn_safe hF hv _).bind fun r h => .ok (.some h)
  | tryChild q v =>
    simp only [readLeaf]
    split
    · exact .err
    · exact (readOn_safe hF hr _).bind fun r h => .ok h
  | tryNext q v =>
    simp only [readLeaf]
    split
    · exact .err
    · exact (readOn_safe hF hr _).bind fun r h => .ok h

theorem readLeaves_safe (hF : SafeF P callF) (hL : SafeL P callL) (k : Nat) {rs : List (Str × LeafRead)} {ds : List (Str × Ty)}
    (hr : LeavesHave P rs ds) (s : σ) : (readLeaves x o callF callL k rs s).Safe (fun r => HasFields P ds r.1) := by
  induction hr generalizing s with
  | nil => exact .ok .nil
  | cons h hs ih =>
    unfold readLeaves
    exact (readLeaf_safe hF hL k h s).bind fun w hw => (ih _).bind fun r hr => .ok (.cons hw hr)

theorem enumFromStr_safe (vs : List (Str × Str)) (s : Str) : (enumFromStr vs s).Safe (fun v => HasDecl P (.enum vs) v) := by
  unfold enumFromStr
  split
  · next p hp => exact .ok (.enum (List.mem_map.2 ⟨p, List.mem_of_find?_eq_some hp, rfl⟩))
  · exact .err

theorem fromStrAt_safe (H : Compiles x P) {ty : Ty} (h : FromStrs P ty) (s : Str) :
    (fromStrAt x P ty s).Safe (fun v => HasTy P ty v) := by
  rcases h with rfl | ⟨t, ht, rfl, h⟩
  · exact .ok (.prim ⟨s, rfl⟩)
  · have hf := findType_of_mem H.unique ht
    simp only [fromStrAt, hf]
    rcases h with ⟨u, l, hd⟩ | ⟨vs, hd⟩
    · have hl := (H.typed t ht).literal
      rw [hd] at hl
      simp only [hd]
      split
      · next v hv => exact .ok (.named hf (hd ▸ .newtype (hl ▸ .prim (parsePrim_typed hv))))
      · exact .err
    · simp only [hd]
      exact (enumFromStr_safe vs s).mono fun v hv => .named hf (hd ▸ hv)

theorem readAttr_safe (H : Compiles x P) {a : AttrRead} {ty : Ty} (h : a.Has P ty) (s : σ) :
    (readAttr x o P a s).Safe (fun v => HasTy P ty v) := by
  obtain ⟨t, h, rfl⟩ := h
  have key : ∀ v, (readStr x P a.inner v).Safe (fun v => HasTy P t v) := by
    intro v
    cases hi : a.inner with
    | lit l => rw [hi] at h; cases h; exact parseLit_safe l v
    | fromStr ty => rw [hi] at h; obtain ⟨rfl, h⟩ := h; exact fromStrAt_safe H h v
    | unit => rw [hi] at h; cases h; exact .ok .unit
  unfold readAttr optTy
  split
  · split
    · exact (key _).bind fun w hw => .ok (.some hw)
    · exact .ok .none
  · exact (ofExcept_safe _).bind fun v _ => key v

theorem readAttrs_safe (H : Compiles x P) {as : List AttrRead} {ds : List (Str × Ty)} (h : AttrsHave P as ds) (s : σ) :
    (readAttrs x o P as s).Safe (fun fs => HasFields P ds fs) := by
  induction h with
  | nil => exact .ok .nil
  | cons h hs ih =>
    unfold readAttrs
    exact (readAttr_safe H h s).bind fun w hw => ih.bind fun r hr => .ok (.cons hw hr)

theorem readContent_safe (hF : SafeF P callF) (hL : SafeL P callL) (k : Nat) {c : ContentRead} {ds : List (Str × Ty)} (h : c.Has P ds) (s : σ) :
    (readContent x o callF callL k c s).Safe (fun r => HasFields P ds r.1) := by
  cases c with
  | nothing => cases h; exact .ok .nil
  | single f v =>
    obtain ⟨ty, rfl, hv⟩ := h
    exact (readVal_safe hF hv s).bind fun r hr => .ok (.cons hr .nil)
  | leaves ls => exact readLeaves_safe hF hL k h s

theorem readChoice_safe (hF : SafeF P callF) (hL : SafeL P callL) (k : Nat) (self : Str) {ds : List (Str × Ty)} (vs : List (Str × VarRead))
    (h : ∀ p ∈ vs, ∃ ty, (p.1, ty) ∈ ds ∧ p.2.Has P ty) (s : σ) :
    (readChoice x o callF callL k self vs s).Safe (fun r => HasDecl P (.choice ds) r.1) := by
  induction vs generalizing s with
  | nil => exact .err
  | cons p vs ih =>
    have ih := fun s => ih (fun p hp => h p (List.mem_cons_of_mem _ hp)) s
    obtain ⟨ty, hm, hp⟩ := h p (List.mem_cons_self ..)
    obtain ⟨n, r⟩ := p
    cases r with
    | virt i v =>
      unfold readChoice
      refine (hL i s hp.1).bind fun b _ => ?_
      split
      · exact (readVal_safe hF hp.2 _).bind fun r hr => .ok (.choice hm hr)
      · exact ih _
    | vec q v =>
      obtain ⟨t, hv, rfl⟩ := hp
      simp only [readChoice]
      split
      · exact (loopNext_safe hF hv q k _).bind fun r hr => .ok (.choice hm (.vec hr))
      · exact ih _
    | single q v =>
      simp only [readChoice]
      split
      · exact (readOn_safe hF hp _).bind fun r hr => .ok (.choice hm hr)
      · exact ih _

theorem hasFields_join {d1 d2 : List (Str × Ty)} {f1 f2 : List (Str × Val)} (h1 : HasFields P d1 f1)
    (h2 : HasFields P d2 f2) : HasFields P (d1 ++ d2) (f1 ++ f2) := by
  induction d1 generalizing f1 with
  | nil => cases h1; exact h2
  | cons d d1 ih => cases h1 with | cons h hs => exact .cons h (ih hs)

theorem runFrom_safe (H : Compiles x P) (hF : SafeF P callF) (hL : SafeL P callL) (k : Nat) {t : TypeDef} (ht : t ∈ P) (s : σ) :
    (runFrom x o P callF callL k t s).Safe (fun r => HasDecl P t.decl r.1) := by
  have hr := (H.typed t ht).reads
  unfold runFrom
  cases hb : t.fromXml with
  | leaf v =>
    rw [hb] at hr
    cases hd : t.decl <;> rw [hd] at hr <;> try exact hr.elim
    exact (readVal_safe hF hr s).bind fun r h => .ok (.newtype h)
  | enumText =>
    rw [hb] at hr
    cases hd : t.decl <;> rw [hd] at hr <;> try exact hr.elim
    exact (ofExcept_safe _).bind fun v _ => (enumFromStr_safe _ v).bind fun w hw => .ok hw
  | element c as =>
    rw [hb] at hr
    cases hd : t.decl <;> rw [hd] at hr <;> try exact hr.elim
    obtain ⟨d1, d2, rfl, hc, ha⟩ := hr
    exact (readContent_safe hF hL k hc s).bind fun r h => (readAttrs_safe H ha _).bind fun w hw => .ok (.struct (hasFields_join h hw))
  | choice vs =>
    rw [hb] at hr
    cases hd : t.decl <;> rw [hd] at hr <;> try exact hr.elim
    exact readChoice_safe hF hL k t.ident vs hr s

theorem fromNode_safe (H : Compiles x P) (k : Nat) : SafeF P (fromNode x o P k) := by
  induction k with
  | zero => intro i s _; exact .diverge
  | succ k ih =>
    intro i s hi
    obtain ⟨t, ht, _, hf⟩ := hi.find H.unique
    simp only [fromNode, hf]
    exact (runFrom_safe H ih (lookahead_safe H k) k ht s).mono fun r hr => .named hf hr

end Read

/-- **C59, reading.** In a module that compiles, `from_xml` does not panic on any document, and what it returns is a value of the
declared type. -/
theorem C59_reads (H : Compiles x P) {i : Str} (hi : DeclaresType P i) {d : Doc} {r : Res DErr Val} (h : FromXml x P i d r) :
    r ≠ .panic ∧ ∀ v, r = .ok v → HasTy P (.named i) v := by
  obtain ⟨_, k, rfl⟩ := h
  obtain ⟨t, ht, _, hf⟩ := hi.find H.unique
  simp only [fromXml, hf]
  exact (ofExcept_safe _).bind (good' := fun v => HasTy P (.named i) v) fun e _ =>
    (fromNode_safe H k i _ hi).bind fun r hr => .ok hr

/-! ## Writing -/

section Write
variable {callW : Str → Val → Ctx → WRes}

/-- Calls of writers return on values up to a size. -/
def SafeW (P : List TypeDef) (callW : Str → Val → Ctx → WRes) (n : Nat) : Prop :=
  ∀ i v c, sizeOf v < n → HasTy P (.named i) v → ∃ r, callW i v c = .ok r

theorem showPrim_typed {p : Prim} {v : Val} (h : PrimVal p v) : ∃ s, showPrim x p v = some s := by
  cases p <;> obtain ⟨w, h⟩ := h
  · subst h; exact ⟨_, rfl⟩
  · subst h; cases w <;> exact ⟨_, rfl⟩
  · obtain ⟨rfl, _⟩ := h; exact ⟨_, rfl⟩
  · obtain ⟨rfl, _⟩ := h; exact ⟨_, rfl⟩
  · obtain ⟨rfl, _⟩ := h; exact ⟨_, rfl⟩
  · subst h; exact ⟨_, rfl⟩
  · subst h; exact ⟨_, rfl⟩

theorem writeVal_returns {n : Nat} (hW : SafeW P callW n) {w : ValWrite} {ty : Ty} (hw : w.Takes P ty) {v : Val} (hv : HasTy P ty v)
    (hs : sizeOf v < n) (c : Ctx) : ∃ r, writeVal x callW w v c = .ok r := by
  cases w with
  | chars t =>
    cases hw
    cases hv with
    | prim h =>
      obtain ⟨s, hs⟩ := showPrim_typed (x := x) h
      exact ⟨_, by simp only [writeVal, hs]; rfl⟩
  | fixed s => exact ⟨_, rfl⟩
  | call i =>
    obtain ⟨_, rfl⟩ := hw
    exact hW i v c hs hv

theorem withTags_returns {tags : Bool} {body : Ctx → WRes} (h : ∀ c, ∃ r, body c = .ok r) (c : Ctx) : ∃ r, withTags tags body c = .ok r := by
  unfold withTags
  split
  · obtain ⟨r, hr⟩ := h c.writeStart.2
    exact ⟨_, by simp only [hr]; rfl⟩
  · exact h c

theorem forEach_returns {body : Val → Ctx → WRes} (vs : List Val) (h : ∀ v ∈ vs, ∀ c, ∃ r, body v c = .ok r) (c : Ctx) :
    ∃ r, forEach body vs c = .ok r := by
  induction vs generalizing c with
  | nil => exact ⟨_, rfl⟩
  | cons v vs ih =>
    obtain ⟨r, hr⟩ := h v (List.mem_cons_self ..) c
    obtain ⟨r2, hr2⟩ := ih (fun v hv => h v (List.mem_cons_of_mem _ hv)) r.2
    exact ⟨_, by simp only [forEach, hr, Res.bind_ok, hr2]; rfl⟩

theorem writeItem_returns {n : Nat} (hW : SafeW P callW n) {l : LeafWrite} {ty : Ty} (hl : l.inner.Takes P ty) {v : Val} (hv : HasTy P ty v)
    (hs : sizeOf v < n) (c : Ctx) : ∃ r, writeItem x callW l v c = .ok r := by
  unfold writeItem
  split
  · obtain ⟨r, hr⟩ := withTags_returns (tags := l.tags) (fun c => writeVal_returns (x := x) hW hl hv hs c) c.wrap
    exact ⟨_, by rw [hr]; rfl⟩
  · next nm _ =>
    obtain ⟨r, hr⟩ := withTags_returns (tags := l.tags) (fun c => writeVal_returns (x := x) hW hl hv hs c) (Ctx.new nm)
    exact ⟨_, by rw [hr]; rfl⟩

theorem size_vec {vs : List Val} {v : Val} (h : v ∈ vs) : sizeOf v < sizeOf (Val.vec vs) := by
  have := List.sizeOf_lt_of_mem h
  simp only [Val.vec.sizeOf_spec]
  omega

theorem writeMany_returns {n : Nat} (hW : SafeW P callW n) {l : LeafWrite} {ty : Ty} (hl : l.inner.Takes P ty) {v : Val}
    (hv : HasTy P (if l.vec then .vec ty else ty) v) (hs : sizeOf v < n) (c : Ctx) : ∃ r, writeMany x callW l v c = .ok r := by
  unfold writeMany
  split
  · next h =>
    rw [if_pos h] at hv
    cases hv with
    | vec hv => exact forEach_returns _ (fun w hw c => writeItem_returns hW hl (hv w hw) (Nat.lt_trans (size_vec hw) hs) c) c
  · next h =>
    rw [if_neg h] at hv
    exact writeItem_returns hW hl hv hs c

theorem HasFields.lookup {ds : List (Str × Ty)} {fs : List (Str × Val)} (h : HasFields P ds fs) (hn : (ds.map Prod.fst).Nodup) {f : Str} {ty : Ty}
    (hm : (f, ty) ∈ ds) : ∃ v, alookup fs f = some v ∧ HasTy P ty v := by
  induction ds generalizing fs with
  | nil => cases hm
  | cons d ds ih =>
    cases h with
    | @cons g u v _ fs h hs =>
      simp only [List.map_cons, List.nodup_cons] at hn
      rcases List.mem_cons.1 hm with e | hm
      · cases e; exact ⟨v, by simp [alookup], h⟩
      · have : g ≠ f := fun e => hn.1 (e ▸ List.mem_map.2 ⟨_, hm, rfl⟩)
        obtain ⟨w, hw, ht⟩ := ih hs hn.2 hm
        exact ⟨w, by simp [alookup, this, hw], ht⟩

theorem size_fields {fs : List (Str × Val)} {f : Str} {v : Val} (h : alookup fs f = some v) : sizeOf v < sizeOf (Val.struct fs) := by
  have h1 := List.sizeOf_lt_of_mem (alookup_mem h)
  simp only [Val.struct.sizeOf_spec, Prod.mk.sizeOf_spec] at h1 ⊢
  omega

theorem writeLeaf_returns {n : Nat} (hW : SafeW P callW n) {l : LeafWrite} {ds : List (Str × Ty)} (hl : l.OK P ds) (hn : (ds.map Prod.fst).Nodup)
    {fs : List (Str × Val)} (hf : HasFields P ds fs) (hs : sizeOf (Val.struct fs) ≤ n) (c : Ctx) : ∃ r, writeLeaf x callW l fs c = .ok r := by
  obtain ⟨⟨ty, hm, ht⟩, _⟩ := hl
  obtain ⟨v, hv, hty⟩ := hf.lookup hn hm
  have hsz : sizeOf v < n := Nat.lt_of_lt_of_le (size_fields hv) hs
  simp only [writeLeaf, hv]
  unfold optTy at hty
  split
  · next h =>
    rw [if_pos h] at hty
    cases hty with
    | none => exact ⟨_, rfl⟩
    | @some _ w hw =>
      refine writeMany_returns hW ht hw (Nat.lt_of_le_of_lt ?_ hsz) c
      simp only [Val.some.sizeOf_spec]; omega
  · next h =>
    rw [if_neg h] at hty
    exact writeMany_returns hW ht hty hsz c

theorem writeLeaves_returns {n : Nat} (hW : SafeW P callW n) {ds : List (Str × Ty)} (hn : (ds.map Prod.fst).Nodup)
    {fs : List (Str × Val)} (hf : HasFields P ds fs) (hs : sizeOf (Val.struct fs) ≤ n) (ls : List LeafWrite) (hl : ∀ l ∈ ls, l.OK P ds) (c : Ctx) :
    ∃ r, writeLeaves x callW fs ls c = .ok r := by
  induction ls generalizing c with
  | nil => exact ⟨_, rfl⟩
  | cons l ls ih =>
    obtain ⟨r, hr⟩ := writeLeaf_returns (x := x) hW (hl l (List.mem_cons_self ..)) hn hf hs c
    obtain ⟨r2, hr2⟩ := ih (fun l h => hl l (List.mem_cons_of_mem _ h)) r.2
    exact ⟨_, by simp only [writeLeaves, hr, Res.bind_ok, hr2]; rfl⟩

theorem displayAt_returns (H : Compiles x P) {ty : Ty} (h : Displays P ty) {v : Val} (hv : HasTy P ty v) : ∃ s, displayAt x P ty v = some s := by
  rcases h with ⟨p, rfl⟩ | ⟨t, ht, rfl, h⟩
  · cases hv with
    | prim hv => exact showPrim_typed hv
  · have hf := findType_of_mem H.unique ht
    cases hv with
    | named hf' hd =>
      rw [hf] at hf'; cases hf'
      simp only [displayAt, hf]
      rcases h with ⟨u, l, hdc⟩ | ⟨vs, hdc⟩
      · have hl := (H.typed t ht).literal
        rw [hdc] at hl hd
        cases hd with
        | newtype hw =>
          simp only [Decl.LitOK] at hl
          subst hl
          cases hw with
          | prim hw => simp only [hdc]; exact showPrim_typed hw
      · rw [hdc] at hd
        cases hd with
        | enum hm =>
          simp only [hdc]
          obtain ⟨⟨n, s⟩, hp, rfl⟩ := List.mem_map.1 hm
          exact ⟨s, alookup_of_mem (by have := (H.typed t ht).distinct; rwa [hdc] at this) hp⟩

theorem showAttr_returns (H : Compiles x P) {a : AttrShow} {ty : Ty} (h : a.Takes P ty) {v : Val} (hv : HasTy P ty v) : ∃ s, showAttr x P a v = some s := by
  cases a with
  | lit t =>
    cases h
    cases hv with
    | prim hv => exact showPrim_typed hv
  | display ty' => obtain ⟨rfl, h⟩ := h; exact displayAt_returns H h hv
  | fixed s => exact ⟨_, rfl⟩

theorem writeAttr_returns (H : Compiles x P) {a : AttrWrite} {ds : List (Str × Ty)} (ha : a.OK P ds) (hn : (ds.map Prod.fst).Nodup)
    {fs : List (Str × Val)} (hf : HasFields P ds fs) (c : Ctx) : ∃ r, writeAttr x P a fs c = .ok r := by
  obtain ⟨ty, hm, ht⟩ := ha
  obtain ⟨v, hv, hty⟩ := hf.lookup hn hm
  simp only [writeAttr, hv]
  unfold optTy at hty
  split
  · next h =>
    rw [if_pos h] at hty
    cases hty with
    | none => exact ⟨_, rfl⟩
    | some hw =>
      obtain ⟨s, hs⟩ := showAttr_returns H ht hw
      exact ⟨_, by simp only [hs]; rfl⟩
  · next h =>
    rw [if_neg h] at hty
    obtain ⟨s, hs⟩ := showAttr_returns H ht hty
    exact ⟨_, by simp only [hs]; rfl⟩

theorem writeAttrs_returns (H : Compiles x P) {ds : List (Str × Ty)} (hn : (ds.map Prod.fst).Nodup)
    {fs : List (Str × Val)} (hf : HasFields P ds fs) (as : List AttrWrite) (ha : ∀ a ∈ as, a.OK P ds) (c : Ctx) :
    ∃ r, writeAttrs x P fs as c = .ok r := by
  induction as generalizing c with
  | nil => exact ⟨_, rfl⟩
  | cons a as ih =>
    obtain ⟨r, hr⟩ := writeAttr_returns H (ha a (List.mem_cons_self ..)) hn hf c
    obtain ⟨r2, hr2⟩ := ih (fun a h => ha a (List.mem_cons_of_mem _ h)) r
    exact ⟨r2, by simp only [writeAttrs, hr, Res.bind_ok, hr2]⟩

theorem nodup_fst_unique {α β : Type} {l : List (α × β)} (h : (l.map Prod.fst).Nodup) {a : α} {b c : β} (hb : (a, b) ∈ l) (hc : (a, c) ∈ l) :
    b = c := by
  induction l with
  | nil => cases hb
  | cons p l ih =>
    simp only [List.map_cons, List.nodup_cons] at h
    rcases List.mem_cons.1 hb with e | hb' <;> rcases List.mem_cons.1 hc with e' | hc'
    · rw [← e] at e'; exact (Prod.mk.inj e').2.symm
    · exact absurd (List.mem_map.2 ⟨_, hc', (by rw [← e])⟩) h.1
    · exact absurd (List.mem_map.2 ⟨_, hb', (by rw [← e'])⟩) h.1
    · exact ih h.2 hb' hc'

theorem runTo_returns (H : Compiles x P) {n : Nat} (hW : SafeW P callW n) {t : TypeDef} (ht : t ∈ P) {v : Val} (hv : HasDecl P t.decl v)
    (hs : sizeOf v ≤ n) (c : Ctx) : ∃ r, runTo x P callW t v c = .ok r := by
  have T := H.typed t ht
  have hw := T.writes
  have hn := T.distinct
  unfold runTo
  simp only
  generalize setNss t.nss c = c
  cases hb : t.toXml with
  | leaf w tags =>
    rw [hb] at hw
    cases hd : t.decl <;> rw [hd] at hw hv <;> try exact hw.elim
    cases hv with
    | @newtype _ _ u hv =>
      refine withTags_returns (fun c => writeVal_returns hW hw.1 hv (Nat.lt_of_lt_of_le ?_ hs) c) c
      simp only [Val.newtype.sizeOf_spec]; omega
  | enumText =>
    rw [hb] at hw
    cases hd : t.decl <;> rw [hd] at hw hv hn <;> try exact hw.elim
    cases hv with
    | enum hm =>
      obtain ⟨⟨i, s⟩, hp, rfl⟩ := List.mem_map.1 hm
      simp only [alookup_of_mem hn hp]
      exact withTags_returns (fun c => ⟨_, rfl⟩) c
  | element as tags w =>
    rw [hb] at hw
    cases hd : t.decl <;> rw [hd] at hw hv hn <;> try exact hw.elim
    cases hv with
    | @struct _ fs hf =>
      obtain ⟨r, hr⟩ := writeAttrs_returns H hn hf as hw.1 c
      simp only [hr, Res.bind_ok]
      refine withTags_returns (fun c => ?_) r
      cases w with
      | nothing => exact ⟨_, rfl⟩
      | single f v =>
        obtain ⟨⟨ty, hm, hty⟩, _⟩ := hw.2
        obtain ⟨u, hu, htu⟩ := hf.lookup hn hm
        simp only [writeContent, hu]
        exact writeVal_returns hW hty htu (Nat.lt_of_lt_of_le (size_fields hu) hs) c
      | leaves ls => exact writeLeaves_returns hW hn hf hs ls hw.2 c
  | choice vs tags =>
    rw [hb] at hw
    cases hd : t.decl <;> rw [hd] at hw hv hn <;> try exact hw.elim
    refine withTags_returns (fun c => ?_) c
    cases hv with
    | @choice ds i ty u hm hu =>
      obtain ⟨_, hcov, harm⟩ := hw
      have hsz : sizeOf u < n := Nat.lt_of_lt_of_le (by simp only [Val.variant.sizeOf_spec]; omega) hs
      simp only [writeChoice]
      cases hfind : vs.find? (fun a => decide (a.variant = i)) with
      | none =>
        obtain ⟨a, ha, hai⟩ := hcov _ hm
        have := List.find?_eq_none.1 hfind a ha
        simp [hai] at this
      | some a =>
        obtain ⟨⟨ty', hm', htk⟩, _⟩ := harm a (List.mem_of_find?_eq_some hfind)
        have hai := List.find?_some hfind
        simp only [decide_eq_true_eq] at hai
        rw [hai] at hm'
        have := nodup_fst_unique hn hm hm'
        have item : ∀ w, HasTy P ty' w → sizeOf w < n → ∀ c, ∃ r, writeVarItem x callW a w c = .ok r := by
          intro w hw hsw c
          obtain ⟨r, hr⟩ := withTags_returns (tags := a.tags) (fun c => writeVal_returns (x := x) hW htk hw hsw c) (Ctx.new a.name)
          exact ⟨_, by simp only [writeVarItem, hr]; rfl⟩
        simp only
        split
        · next h =>
          rw [if_pos h] at this
          subst this
          cases hu with
          | vec hu => exact forEach_returns _ (fun w hw c => item w (hu w hw) (Nat.lt_trans (size_vec hw) hsz) c) c
        · next h =>
          rw [if_neg h] at this
          subst this
          exact item u hu hsz c

theorem toXmlWriter_returns (H : Compiles x P) (k : Nat) : SafeW P (toXmlWriter x P k) k := by
  induction k with
  | zero => intro i v c h; exact absurd h (Nat.not_lt_zero _)
  | succ k ih =>
    intro i v c hs hv
    cases hv with
    | @named _ t _ hf hd =>
      simp only [toXmlWriter, hf]
      exact runTo_returns H ih (findType_mem hf).1 hd (Nat.le_of_lt_succ hs) c

end Write

/-- **C59, writing.** In a module that compiles, `to_xml` returns `Ok` for every value of the declared type. -/
theorem C59_writes (H : Compiles x P) {i : Str} {v : Val} (hv : HasTy P (.named i) v) : ∃ evs, ToXml x P i v (.ok evs) := by
  cases hv with
  | @named _ t _ hf hd =>
    obtain ⟨r, hr⟩ := toXmlWriter_returns H (sizeOf v + 1) i v (Ctx.new t.xmlName) (Nat.lt_succ_self _) (.named hf hd)
    exact ⟨r.1, (by intro h; cases h), sizeOf v + 1, by simp only [toXml, hf, hr]; rfl⟩

end Xsd
