import Verif.Lemmas.Split
import Verif.Spec.Split
/-!
# Splitting a schema file (C76)
-/
namespace Xsd
open Again

theorem include_step {x : Ext} {F : Files} {k : Nat} {base : Str} {c : Nd} {l : Str} {s s2 : PCtx}
    (hcn : c.name = c!"include" ∨ c.name = c!"import") (hcl : c.value c!"schemaLocation" = some l) :
    parseItem x F (parseFileWith x F k) base c s = .ok s2 ↔
      ∃ Q, parseFileWith x F k (F.push base l) s.nss s.deps = .ok Q ∧
        s2 = recast s (insertAll Q.context.elements s.roots) Q.context.namespaces Q.deps := by
  unfold parseItem
  rw [if_pos hcn]
  unfold Nd.value at hcl
  cases ha : c.attr c!"schemaLocation" with
  | none => rw [ha] at hcl; cases hcl
  | some a =>
    rw [ha] at hcl
    cases hcl
    have ha : c.tryAttr c!"schemaLocation" = .ok a := tryAttr_ok.2 ha
    rw [ha]
    show Res.bind (liftS (parseFileWith x F k (F.push base a.value) s.nss s.deps)) _ = _ ↔ _
    cases parseFileWith x F k (F.push base a.value) s.nss s.deps with
    | ok Q =>
      show Res.ok _ = _ ↔ _
      simp only [addAll_eq]
      constructor
      · intro h; cases h; exact ⟨Q, rfl, rfl⟩
      · rintro ⟨Q', h, rfl⟩; cases h; rfl
    | err e => exact ⟨fun h => (by cases h), fun ⟨_, h, _⟩ => (by cases h)⟩
    | panic => exact ⟨fun h => (by cases h), fun ⟨_, h, _⟩ => (by cases h)⟩
    | diverge => exact ⟨fun h => (by cases h), fun ⟨_, h, _⟩ => (by cases h)⟩

/-- **C76**: a file that is split is parsed to the same schema: the same types under the same names, namespaces with the
same ids, dependencies and target namespace; and it is parsed if and only if the other one is. The number `k` bounds the
depth of includes. -/
theorem C76 {x : Ext} {F : Files} {p p' : Str} {d d' part : XDoc} {l : Str} (hm : SplitOff d d' part l)
    (hd : F.read p = some (.doc d)) (hd' : F.read p' = some (.doc d')) (hp : F.parent p' = F.parent p)
    (hq : F.read (F.push (F.parent p) l) = some (.doc part)) (hqp : F.parent (F.push (F.parent p) l) = F.parent p) (S : PSchema) :
    (∃ k, parseFile x F k p = .ok S) ↔ ∃ k, parseFile x F k p' = .ok S := by
  obtain ⟨hi, hname, hattrs, hnss, pre, moved, post, c, hk, hk', hkp, hcn, hcl⟩ := hm
  have ht : (Nd.of d'.root).attr c!"targetNamespace" = (Nd.of d.root).attr c!"targetNamespace" := by
    show (Nd.of d'.root).attr _ = _
    unfold Nd.attr
    rw [show (Nd.of d'.root).info = (Nd.of d.root).info from hi]
  have htp : (Nd.of part.root).attr c!"targetNamespace" = (Nd.of d.root).attr c!"targetNamespace" := by
    unfold Nd.attr
    rw [show (Nd.of part.root).info.attrs = (Nd.of d.root).info.attrs from hattrs]
  -- the included file is parsed in the context of the including one, but without types
  have hnew : ∀ {k : Nat} {s1 : PCtx}, parseItems x F (parseFileWith x F k) (F.parent p) pre
      (PCtx.new d.root.1 (((Nd.of d.root).attr c!"targetNamespace").map XAttr.value) Namespaces.empty []) = .ok s1 →
      PCtx.new part.root.1 (((Nd.of part.root).attr c!"targetNamespace").map XAttr.value) s1.nss s1.deps =
        recast s1 [] s1.nss s1.deps := by
    intro k s1 h1
    rw [htp, new_congr hattrs hnss, new_again (parseItems_redo (parseFileWith_redo k) h1).uris,
      ← recast_congr (parseItems_doc h1)]
  constructor
  · rintro ⟨k, h⟩
    cases k with
    | zero => cases h
    | succ k =>
      obtain ⟨hc, s, h0, rfl⟩ := (parseFileWith_iff hd).1 h
      replace h := h0
      rw [hk, parseItems_append] at h
      obtain ⟨s1, h1, h⟩ := Res.bind_eq_ok.1 h
      rw [parseItems_append] at h
      obtain ⟨s2, h2, h3⟩ := Res.bind_eq_ok.1 h
      obtain ⟨s4, h4, rfl⟩ := (parseItems_apart (parseFileWith_redo k)).1 h2
      refine ⟨k + 2, (parseFileWith_iff hd').2 ⟨by rw [hi]; exact hc, s, ?_, rfl⟩⟩
      rw [hk', hp, hi, ht, parseItems_append]
      refine Res.bind_eq_ok.2 ⟨s1, parseItems_fuel (Nat.le_succ k) h1, ?_⟩
      refine Res.bind_eq_ok.2 ⟨_, (include_step hcn hcl).2 ⟨s4.intoSchema, ?_, rfl⟩, parseItems_fuel (Nat.le_succ k) h3⟩
      refine (parseFileWith_iff hq).2 ⟨by rw [hname]; exact hc, s4, ?_, rfl⟩
      rw [hnew h1, hkp, hqp]
      exact h4
  · rintro ⟨k, h⟩
    cases k with
    | zero => cases h
    | succ k =>
      obtain ⟨hc, s, h0, rfl⟩ := (parseFileWith_iff hd').1 h
      replace h := h0
      rw [hk', hp, hi, ht, parseItems_append] at h
      obtain ⟨s1, h1, h⟩ := Res.bind_eq_ok.1 h
      obtain ⟨s2, h2, h3⟩ := Res.bind_eq_ok.1 h
      obtain ⟨Q, hQ, rfl⟩ := (include_step hcn hcl).1 h2
      cases k with
      | zero => cases hQ
      | succ k =>
        obtain ⟨_, s4, h4, rfl⟩ := (parseFileWith_iff hq).1 hQ
        rw [hnew h1, hkp, hqp] at h4
        refine ⟨k + 2, (parseFileWith_iff hd).2 ⟨by rw [← hi]; exact hc, s, ?_, rfl⟩⟩
        rw [hk, parseItems_append]
        refine Res.bind_eq_ok.2 ⟨s1, h1, ?_⟩
        rw [parseItems_append]
        refine Res.bind_eq_ok.2 ⟨_, (parseItems_apart (parseFileWith_redo (k + 1))).2 ⟨s4, parseItems_fuel (Nat.le_succ k) h4, rfl⟩, h3⟩

end Xsd
