import Verif.Spec.CleanText
import Verif.Conformance.Covered
import Verif.Conformance.Tests1
import Verif.Conformance.Tests2
import Verif.Conformance.Tests3
import Verif.Conformance.Tests4
import Verif.Lemmas.TreeSolid
import Verif.Props.TreeEndToEnd
/-!
# The schemas of the repository's tests, and C65

The requirements of `C65_partial` and `C67_files_partial` are met by the schema files in `xsd/tests/xsd/`, with the exception of
`element_ref_type.xsd` (the writer loses something). So for these files the generated code compiles, and reads and writes exactly the documents that are
valid for the files; for `choice_selection_optional.xsd`, where an alternative of a choice may be empty, those in which it is not.
-/
namespace Xsd.Conformance
open Xsd.Tree

theorem span_dot {a : Str} (h : ∀ c ∈ a, c ≠ '.') (b : Str) : (a ++ '.' :: b).span (· ≠ '.') = (a, '.' :: b) ∧ a.span (· ≠ '.') = (a, []) := by
  have key : ∀ (rest acc : Str), List.span.loop (fun c : Char => decide (c ≠ '.')) (a ++ rest) acc = List.span.loop (fun c : Char => decide (c ≠ '.')) rest (a.reverse ++ acc) := by
    intro rest
    induction a with
    | nil => exact fun _ => rfl
    | cons c a ih =>
      intro acc
      have hc : decide (c ≠ '.') = true := decide_eq_true (h c (.head _))
      rw [List.cons_append]
      conv => lhs; unfold List.span.loop
      rw [hc]
      dsimp only
      rw [ih fun c' hc' => h c' (.tail _ hc')]
      simp
  unfold List.span
  refine ⟨?_, ?_⟩
  · rw [key]
    simp [List.span.loop]
  · have := key [] []
    rw [List.append_nil] at this
    rw [this]
    simp [List.span.loop]

theorem tenths (n : Nat) : parseTenths (showTenths n) = some n := by
  have hd : ∀ m c, c ∈ showNat m → c ≠ '.' := by
    intro m c hc
    obtain ⟨d, hd, rfl⟩ := showNat_all_digits _ _ c hc
    clear hc
    revert d
    decide
  unfold showTenths
  split
  · unfold parseTenths
    rw [(span_dot (hd _) []).2]
    dsimp only
    rw [parseNat_showNat]
    simp only [Option.map_some, Option.some.injEq]
    omega
  · unfold parseTenths
    rw [(span_dot (hd _) _).1]
    have h1 : ∀ m, m < 10 → (showNat m).length = 1 := by decide +kernel
    dsimp only
    rw [if_pos (h1 _ (Nat.mod_lt _ (by decide))), parseNat_showNat, parseNat_showNat]
    simp only [Option.map_some, Option.bind_some, Option.some.injEq]
    omega

theorem ext_numLaws : ext.NumLaws := ⟨tenths, tenths⟩

/-- Decidable form of `DocType`. -/
def docTypeB (S : SchemaContext) (n : Name) : Bool :=
  tagged S n && match schemaNss S with | .ok N => nameOK N (S.xmlName n) (S.expanded n) | _ => false

theorem docTypeB_sound {S : SchemaContext} {n : Name} (h : docTypeB S n = true) : DocType S n := by
  obtain ⟨h1, h2⟩ := Bool.and_eq_true_iff.1 h
  split at h2
  · next N hN => exact ⟨h1, N, hN, h2⟩
  · cases h2

/-- The requirements of `C65_partial` and `C67_files_partial`. `docs` are names of types that documents can be written for. -/
structure Meets (x : Ext) (F : Files) (path : Str) (docs : List Str) : Prop where
  ex : ∃ k P ds, TreeFiles F path ∧ parseFile x F k path = .ok P ∧ TypeCount F path P.context.elements.length ∧
    generateAll x P.context = .ok ds ∧ SchemaOK x P.context ∧ XmlText.CleanCode ds ∧
    ∀ n, (P.context.get n).isSome = true → n.name ∈ docs → DocType P.context n

/-- The same, decided. -/
def meetsB (x : Ext) (F : Files) (path : Str) (docs : List Str) (k : Nat := 9) : Bool :=
  match parseFile x F k path with
  | .ok P => treeFilesB F k path P.context.elements.length && generatesB x P.context && detOK x P.context (Cert.compute x P.context) &&
      writeOK x P.context (WCert.compute P.context) && buildableB x P.context (rankOf P.context 9) &&
      decide (XmlText.CleanCode (moduleOf x P.context)) &&
      P.context.elements.all (fun p => decide (p.1.name ∉ docs) || docTypeB P.context p.1)
  | _ => false

theorem meetsB_sound {x : Ext} {F : Files} {path : Str} {docs : List Str} {k : Nat} (h : meetsB x F path docs k = true) : Meets x F path docs := by
  unfold meetsB at h
  split at h
  · next P hP =>
    simp only [Bool.and_eq_true] at h
    obtain ⟨⟨⟨⟨⟨⟨h1, h2⟩, h3⟩, h4⟩, h5⟩, h6⟩, h8⟩ := h
    refine ⟨k, P, _, (treeFilesB_sound h1).1, hP, (treeFilesB_sound h1).2, (generatesB_sound h2).gen,
      ⟨buildableB_sound h5, ⟨_, h3⟩, ⟨_, h4⟩⟩, of_decide_eq_true h6, fun n hn hd => ?_⟩
    obtain ⟨r, hr⟩ := Option.isSome_iff_exists.1 hn
    have := List.all_eq_true.1 h8 (n, r) (alookup_mem hr)
    simp only [Bool.or_eq_true, decide_eq_true_eq] at this
    exact docTypeB_sound (this.resolve_left fun h => h hd)
  · cases h

example : Meets ext all_test.dir c!"all.xsd" [c!"all"] := meetsB_sound (k := 9) (by decide +kernel)
example : Meets ext attribute_default_test.dir c!"attribute_default.xsd" [c!"text"] := meetsB_sound (k := 9) (by decide +kernel)
example : Meets ext attribute_simple_type_test.dir c!"attribute_simple_type.xsd" [c!"text"] := meetsB_sound (k := 9) (by decide +kernel)
example : Meets ext attribute_use_test.dir c!"attribute_use.xsd" [c!"setting"] := meetsB_sound (k := 9) (by decide +kernel)
example : Meets ext choice_element_vec_test.dir c!"choice_element_vec.xsd" [c!"shape"] := meetsB_sound (k := 9) (by decide +kernel)
example : Meets ext choice_literal_test.dir c!"choice_literal.xsd" [c!"article"] := meetsB_sound (k := 9) (by decide +kernel)
example : Meets ext choice_optional_test.dir c!"choice_optional.xsd" [c!"article"] := meetsB_sound (k := 9) (by decide +kernel)
example : Meets ext choice_selection_optional_test.dir c!"choice_selection_optional.xsd" [c!"geometry"] := meetsB_sound (k := 15) (by decide +kernel)
example : Meets ext choice_sequence_test.dir c!"choice_sequence.xsd" [c!"user"] := meetsB_sound (k := 9) (by decide +kernel)
example : Meets ext choice_vec_test.dir c!"choice_vec.xsd" [c!"user"] := meetsB_sound (k := 9) (by decide +kernel)
example : Meets ext complex_content_test.dir c!"complex_content.xsd" [c!"Account"] := meetsB_sound (k := 9) (by decide +kernel)
example : Meets ext complex_content_sequence_test.dir c!"complex_content_sequence.xsd" [c!"Account"] := meetsB_sound (k := 9) (by decide +kernel)
example : Meets ext complex_content_sequence_optional_test.dir c!"complex_content_sequence_optional.xsd" [c!"Account"] := meetsB_sound (k := 9) (by decide +kernel)
example : Meets ext complex_type_attribute_test.dir c!"complex_type_attribute.xsd" [c!"article"] := meetsB_sound (k := 9) (by decide +kernel)
example : Meets ext complex_type_choice_test.dir c!"complex_type_choice.xsd" [c!"article"] := meetsB_sound (k := 9) (by decide +kernel)
example : Meets ext complex_type_fixed_test.dir c!"complex_type_fixed.xsd" [c!"meta"] := meetsB_sound (k := 9) (by decide +kernel)
example : Meets ext element_complex_type_sequence_test.dir c!"element_complex_type_sequence.xsd" [c!"article"] := meetsB_sound (k := 9) (by decide +kernel)
example : Meets ext element_default_test.dir c!"element_default.xsd" [c!"settings"] := meetsB_sound (k := 9) (by decide +kernel)
example : Meets ext element_fixed_test.dir c!"element_fixed.xsd" [c!"name"] := meetsB_sound (k := 9) (by decide +kernel)
example : Meets ext element_nested_test.dir c!"element_nested.xsd" [c!"article"] := meetsB_sound (k := 9) (by decide +kernel)
example : Meets ext element_nested_attribute_test.dir c!"element_nested_attribute.xsd" [c!"article"] := meetsB_sound (k := 9) (by decide +kernel)
example : Meets ext element_optional_test.dir c!"element_optional.xsd" [c!"settings"] := meetsB_sound (k := 9) (by decide +kernel)
example : Meets ext element_optional_vec_test.dir c!"element_optional_vec.xsd" [c!"list"] := meetsB_sound (k := 9) (by decide +kernel)
example : Meets ext element_ref_test.dir c!"element_ref.xsd" [c!"article"] := meetsB_sound (k := 9) (by decide +kernel)
example : Meets ext element_ref_element_test.dir c!"element_ref_element.xsd" [c!"service"] := meetsB_sound (k := 9) (by decide +kernel)
example : Meets ext element_simple_type_test.dir c!"element_simple_type.xsd" [c!"count"] := meetsB_sound (k := 9) (by decide +kernel)
example : Meets ext element_type_complex_test.dir c!"element_type_complex.xsd" [c!"article"] := meetsB_sound (k := 9) (by decide +kernel)
example : Meets ext element_type_literal_test.dir c!"element_type_literal.xsd" [c!"Name"] := meetsB_sound (k := 9) (by decide +kernel)
example : Meets ext element_vec_test.dir c!"element_vec.xsd" [c!"list"] := meetsB_sound (k := 9) (by decide +kernel)
example : Meets ext enum_attribute_test.dir c!"enum_attribute.xsd" [c!"article"] := meetsB_sound (k := 9) (by decide +kernel)
example : Meets ext enum_literal_test.dir c!"enum_literal.xsd" [c!"order"] := meetsB_sound (k := 9) (by decide +kernel)
example : Meets ext enum_literal_root_test.dir c!"enum_literal_root.xsd" [c!"state"] := meetsB_sound (k := 9) (by decide +kernel)
example : Meets ext form_qualified_test.dir c!"form_qualified.xsd" [c!"article"] := meetsB_sound (k := 9) (by decide +kernel)
example : Meets ext form_qualified_with_target_namespace_test.dir c!"form_qualified_with_target_namespace.xsd" [c!"article"] := meetsB_sound (k := 9) (by decide +kernel)
example : Meets ext form_unqualified_test.dir c!"form_unqualified.xsd" [c!"article"] := meetsB_sound (k := 9) (by decide +kernel)
example : Meets ext form_unqualified_with_target_namespace_test.dir c!"form_unqualified_with_target_namespace.xsd" [c!"article"] := meetsB_sound (k := 9) (by decide +kernel)
example : Meets ext import_test.dir c!"import.xsd" [c!"article"] := meetsB_sound (k := 9) (by decide +kernel)
example : Meets ext include_test.dir c!"include.xsd" [c!"article"] := meetsB_sound (k := 9) (by decide +kernel)
example : Meets ext sequence_choice_test.dir c!"sequence_choice.xsd" [c!"article"] := meetsB_sound (k := 9) (by decide +kernel)
example : Meets ext sequence_optional_test.dir c!"sequence_optional.xsd" [c!"settings"] := meetsB_sound (k := 9) (by decide +kernel)
example : Meets ext sequence_optional_with_optionals_test.dir c!"sequence_optional_with_optionals.xsd" [c!"record"] := meetsB_sound (k := 9) (by decide +kernel)
example : Meets ext sequence_sequence_test.dir c!"sequence_sequence.xsd" [c!"settings"] := meetsB_sound (k := 9) (by decide +kernel)
example : Meets ext sequence_vec_test.dir c!"sequence_vec.xsd" [c!"settings"] := meetsB_sound (k := 9) (by decide +kernel)
example : Meets ext simple_content_test.dir c!"simple_content.xsd" [c!"text"] := meetsB_sound (k := 9) (by decide +kernel)
example : Meets ext simple_content_custom_base_test.dir c!"simple_content_custom_base.xsd" [c!"user"] := meetsB_sound (k := 9) (by decide +kernel)
example : Meets ext simple_type_empty_test.dir c!"simple_type_empty.xsd" [c!"text"] := meetsB_sound (k := 9) (by decide +kernel)
example : Meets ext simple_type_restriction_test.dir c!"simple_type_restriction.xsd" [c!"Side"] := meetsB_sound (k := 9) (by decide +kernel)
example : Meets ext virtual_type_collision_test.dir c!"virtual_type_collision.xsd" [c!"trace"] := meetsB_sound (k := 9) (by decide +kernel)

/-- The files above but for `choice_selection_optional.xsd`. -/
def solidTests : List (Files × Str) :=
  [(all_test.dir, c!"all.xsd"), (attribute_default_test.dir, c!"attribute_default.xsd"), (attribute_simple_type_test.dir, c!"attribute_simple_type.xsd"),
   (attribute_use_test.dir, c!"attribute_use.xsd"), (choice_element_vec_test.dir, c!"choice_element_vec.xsd"),
   (choice_literal_test.dir, c!"choice_literal.xsd"), (choice_optional_test.dir, c!"choice_optional.xsd"),
   (choice_sequence_test.dir, c!"choice_sequence.xsd"), (choice_vec_test.dir, c!"choice_vec.xsd"),
   (complex_content_test.dir, c!"complex_content.xsd"), (complex_content_sequence_test.dir, c!"complex_content_sequence.xsd"),
   (complex_content_sequence_optional_test.dir, c!"complex_content_sequence_optional.xsd"),
   (complex_type_attribute_test.dir, c!"complex_type_attribute.xsd"), (complex_type_choice_test.dir, c!"complex_type_choice.xsd"),
   (complex_type_fixed_test.dir, c!"complex_type_fixed.xsd"), (element_complex_type_sequence_test.dir, c!"element_complex_type_sequence.xsd"),
   (element_default_test.dir, c!"element_default.xsd"), (element_fixed_test.dir, c!"element_fixed.xsd"),
   (element_nested_test.dir, c!"element_nested.xsd"), (element_nested_attribute_test.dir, c!"element_nested_attribute.xsd"),
   (element_optional_test.dir, c!"element_optional.xsd"), (element_optional_vec_test.dir, c!"element_optional_vec.xsd"),
   (element_ref_test.dir, c!"element_ref.xsd"), (element_ref_element_test.dir, c!"element_ref_element.xsd"),
   (element_simple_type_test.dir, c!"element_simple_type.xsd"), (element_type_complex_test.dir, c!"element_type_complex.xsd"),
   (element_type_literal_test.dir, c!"element_type_literal.xsd"), (element_vec_test.dir, c!"element_vec.xsd"),
   (enum_attribute_test.dir, c!"enum_attribute.xsd"), (enum_literal_test.dir, c!"enum_literal.xsd"),
   (enum_literal_root_test.dir, c!"enum_literal_root.xsd"), (form_qualified_test.dir, c!"form_qualified.xsd"),
   (form_qualified_with_target_namespace_test.dir, c!"form_qualified_with_target_namespace.xsd"),
   (form_unqualified_test.dir, c!"form_unqualified.xsd"),
   (form_unqualified_with_target_namespace_test.dir, c!"form_unqualified_with_target_namespace.xsd"), (import_test.dir, c!"import.xsd"),
   (include_test.dir, c!"include.xsd"), (sequence_choice_test.dir, c!"sequence_choice.xsd"), (sequence_optional_test.dir, c!"sequence_optional.xsd"),
   (sequence_optional_with_optionals_test.dir, c!"sequence_optional_with_optionals.xsd"), (sequence_sequence_test.dir, c!"sequence_sequence.xsd"),
   (sequence_vec_test.dir, c!"sequence_vec.xsd"), (simple_content_test.dir, c!"simple_content.xsd"),
   (simple_content_custom_base_test.dir, c!"simple_content_custom_base.xsd"), (simple_type_empty_test.dir, c!"simple_type_empty.xsd"),
   (simple_type_restriction_test.dir, c!"simple_type_restriction.xsd"), (virtual_type_collision_test.dir, c!"virtual_type_collision.xsd")]

/-- No choice in them can be empty, and no member of an `xs:all` is optional, so that `C65_solid_partial` applies as well. -/
theorem solidTests_solid : ∀ t ∈ solidTests, SolidFiles t.1 t.2 := by
  have h : solidTests.all (fun t => solidFilesB t.1 15 t.2) = true := by decide +kernel
  exact fun t ht => solidFilesB_sound (List.all_eq_true.1 h t ht)

/-! The other, which uses a reference to a type, meets the conditions of `C17_compiled_partial`. -/

example : Returns ext element_ref_type_test.dir c!"element_ref_type.xsd" :=
  returnsB_sound ext_nameLaws (k := 9) (rank := fun S => rankOf S 9) (by decide +kernel)

end Xsd.Conformance
