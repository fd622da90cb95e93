import Verif.Props.Literals
import Verif.Model.Exec
/-!
# C26 for generated code
-/
namespace Xsd

/-- C26 in generated code: if the generated type of a content is primitive, then what the generated code writes for a value of it is
a text that the generated code reads back as the same value, and a text that is no value of the type is rejected with `ParseType`. -/
theorem C26_generated {σ : Type} (x : Ext) (hx : x.NumLaws) (S : SchemaContext) (o : Ops σ) (c : LeafContent) (w : ValWrite) (r : ValRead) (p : Prim)
    (hw : contentWrite x S c = .ok w) (hr : contentRead x S c = .ok r) (ht : contentTy x S c = .ok (.prim p)) :
    (∀ v, PrimVal p v → ∃ t, (∀ callW k, writeVal x callW w v k = .ok (if t = [] then [] else [.chars t], k)) ∧
      ∀ callF s, o.text s = .ok t → readVal x o callF r s = .ok (v, s)) ∧
    ∀ callF s t, o.text s = .ok t → parsePrim x p t = none → ∃ n, readVal x o callF r s = .err (.parseType n t) := by
  unfold contentWrite at hw
  unfold contentRead at hr
  unfold contentTy at ht
  cases hi : inlined S c with
  | ok d =>
    rw [hi] at hw hr ht
    cases d with
    | literal t =>
      cases hw
      cases hr
      cases ht
      refine ⟨fun v hv => ?_, fun callF s t' hs hp => ?_⟩
      · obtain ⟨u, h1, h2⟩ := C26_literal_roundtrip x hx _ v hv
        refine ⟨u, fun callW k => ?_, fun callF s hs => ?_⟩
        · simp only [writeVal, h1]
        · simp only [readVal, hs, parseLit]
          show (do let v ← (match parsePrim x t.prim u with | some v => Res.ok v | none => _); Res.ok (v, s)) = _
          rw [h2]
          rfl
      · refine ⟨t.xsdName, ?_⟩
        simp only [readVal, hs, parseLit]
        show (do let v ← (match parsePrim x t.prim t' with | some v => Res.ok v | none => _); Res.ok (v, s)) = _
        rw [hp]
        rfl
    | named n =>
      have ht : (do let i ← typeIdent x n; pure (.named i) : Res Str Ty) = .ok (.prim p) := ht
      obtain ⟨i, _, h⟩ := Res.bind_eq_ok.1 ht
      cases h
    | fixed s => cases ht
  | err e => rw [hi] at ht; cases ht
  | panic => rw [hi] at ht; cases ht
  | diverge => rw [hi] at ht; cases ht

/-- A content whose generated type is `i32`. -/
example (x : Ext) (S : SchemaContext) : contentTy x S (.literal .int32) = .ok (.prim .i32) ∧ contentWrite x S (.literal .int32) = .ok (.chars .int32) ∧
    contentRead x S (.literal .int32) = .ok (.text .int32) ∧ PrimVal .i32 (.int (-5)) ∧ parsePrim x .i32 c!"2147483648" = none := by
  have h : inlined S (.literal .int32) = .ok (.literal .int32) := by
    unfold inlined SchemaContext.aliasFuel
    rfl
  refine ⟨?_, ?_, ?_, ⟨_, rfl, by omega, by omega⟩, ?_⟩
  · unfold contentTy; rw [h]; rfl
  · unfold contentWrite; rw [h]; rfl
  · unfold contentRead; rw [h]; rfl
  · simp only [parsePrim]; decide +kernel

end Xsd
