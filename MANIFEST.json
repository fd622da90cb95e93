{
 "claims": [
  {
   "property": "C01",
   "status": "proved",
   "theorems": [
    "Xsd.C01_cursor_is_queue",
    "Xsd.C01_nothing_lost"
   ],
   "note": ""
  },
  {
   "property": "C02",
   "status": "proved",
   "theorems": [
    "Xsd.C02_failed_lookup_is_harmless"
   ],
   "note": ""
  },
  {
   "property": "C03",
   "status": "proved",
   "theorems": [
    "Xsd.C03_child_finds_earliest"
   ],
   "note": ""
  },
  {
   "property": "C04",
   "status": "proved",
   "theorems": [
    "Xsd.C04_try_variants"
   ],
   "note": ""
  },
  {
   "property": "C05",
   "status": "proved",
   "theorems": [
    "Xsd.C05_text",
    "Xsd.C05_text_pure"
   ],
   "note": ""
  },
  {
   "property": "C06",
   "status": "proved",
   "theorems": [
    "Xsd.C06_document_root",
    "Xsd.C06_from_xml_root"
   ],
   "note": ""
  },
  {
   "property": "C07",
   "status": "proved",
   "theorems": [
    "Xsd.C07_non_elements_ignored",
    "Xsd.C07_insert",
    "Xsd.C07_indentation"
   ],
   "note": "for types that are not read as text; inside text a comment changes the value"
  },
  {
   "property": "C08",
   "status": "proved",
   "theorems": [
    "Xsd.C08_start_tag",
    "Xsd.C08_drained"
   ],
   "note": ""
  },
  {
   "property": "C09",
   "status": "proved",
   "theorems": [
    "Xsd.C09_wrap_transparent"
   ],
   "note": ""
  },
  {
   "property": "C10",
   "status": "proved",
   "theorems": [
    "Xsd.C10_first_wins",
    "Xsd.C10_redeclare"
   ],
   "note": ""
  },
  {
   "property": "C13",
   "status": "proved",
   "theorems": [
    "Xsd.C13_sound"
   ],
   "note": ""
  },
  {
   "property": "C14",
   "status": "proved",
   "theorems": [
    "Xsd.C14_complete",
    "Xsd.C14_unique"
   ],
   "note": "for schemas that can be read with one element of lookahead (decidable condition Deterministic)"
  },
  {
   "property": "C11",
   "status": "proved",
   "theorems": [
    "Xsd.C11_roundtrip"
   ],
   "note": "for schemas that are Deterministic and Faithful (both decidable); the shapes that Faithful excludes are exhibited in Props/Defects.lean"
  },
  {
   "property": "C12",
   "status": "proved",
   "theorems": [
    "Xsd.C12_stable"
   ],
   "note": "for schemas that are Deterministic and Faithful"
  },
  {
   "property": "C15",
   "status": "partial",
   "theorems": [
    "Xsd.C15_written_partial",
    "Xsd.C15_false",
    "Xsd.C15_shape",
    "Xsd.C15_iff"
   ],
   "note": "the whole statement is proved for Faithful schemas; false in general (witness). For all generated modules: what is written is one element with the name of the type, text only, or the members of a group, as WrittenAs says of the type (C15_shape); in modules that compile to_xml succeeds for every value, and for types that are not groups one element is written exactly if WrittenAs says so (C15_iff)"
  },
  {
   "property": "C16",
   "status": "proved",
   "theorems": [
    "Xsd.C16_balanced",
    "Xsd.C16_depth"
   ],
   "note": ""
  },
  {
   "property": "C18",
   "status": "partial",
   "theorems": [
    "Xsd.C18_decoded_has_type_partial",
    "Xsd.C18_false",
    "Xsd.C59_reads"
   ],
   "note": "for schemas in which no alternative of a choice is a repeated group, and for every generated module that compiles (C59_reads); the reader generated for such an alternative returns one value where a list is declared (C18_false; rustc rejects it, see C58)"
  },
  {
   "property": "C19",
   "status": "proved",
   "theorems": [
    "Xsd.C19_required_present",
    "Xsd.C19_first_missing_element",
    "Xsd.C19_first_missing_attribute"
   ],
   "note": ""
  },
  {
   "property": "C20",
   "status": "proved",
   "theorems": [
    "Xsd.C20_sequence_order",
    "Xsd.C20_root_children"
   ],
   "note": ""
  },
  {
   "property": "C21",
   "status": "partial",
   "theorems": [
    "Xsd.C21_any_order_partial",
    "Xsd.C21_optional_false",
    "Xsd.C21_iff"
   ],
   "note": "holds for required members; false for optional members (witness); exactly which documents can be reordered is C21_iff"
  },
  {
   "property": "C22",
   "status": "partial",
   "theorems": [
    "Xsd.C22_maximal_run_partial",
    "Xsd.C22_bounds_false",
    "Xsd.C22_bounds_no_effect"
   ],
   "note": "maximal run holds; occurrence bounds are not checked by the code (witness): of the numbers only whether an element may be missing and whether it may be repeated has any effect on the generated code (C22_bounds_no_effect)"
  },
  {
   "property": "C23",
   "status": "proved",
   "theorems": [
    "Xsd.C23_first_match",
    "Xsd.C23_missing_variant"
   ],
   "note": ""
  },
  {
   "property": "C24",
   "status": "partial",
   "theorems": [
    "Xsd.C24_accepted_partial",
    "Xsd.C24_mismatch_partial",
    "Xsd.C24_root_partial",
    "Xsd.C24_written_partial",
    "Xsd.C24_attribute_written_partial",
    "Xsd.C24_attribute_not_checked",
    "Xsd.C24_declared_element",
    "Xsd.C24_declared_element_only",
    "Xsd.C24_declared_attribute",
    "Xsd.C24_declared_attribute_only",
    "Xsd.C24_declared_root"
   ],
   "note": "holds for elements (declarations with fixed become leaves with a fixed content, which are enforced and written); the code does not check fixed attributes when reading (witness)"
  },
  {
   "property": "C26",
   "status": "proved",
   "theorems": [
    "Xsd.C26_literal_roundtrip",
    "Xsd.C26_integer_texts",
    "Xsd.C26_ranges",
    "Xsd.C26_bool_texts",
    "Xsd.C26_generated",
    "Xsd.C26_types",
    "Xsd.C26_newtype"
   ],
   "note": "float and decimal text conversion is an assumed round-tripping parameter"
  },
  {
   "property": "C27",
   "status": "partial",
   "theorems": [
    "Xsd.C27_names_partial",
    "Xsd.C27_name_resolves_partial",
    "Xsd.C27_false",
    "Xsd.C27_name_iff"
   ],
   "note": "proved for Faithful schemas; false in general (witness); for single names exactly when it holds (C27_name_iff)"
  },
  {
   "property": "C28",
   "status": "proved",
   "theorems": [
    "Xsd.C28_unknown_content_ignored",
    "Xsd.C28_trailing_declared"
   ],
   "note": ""
  },
  {
   "property": "C29",
   "status": "partial",
   "theorems": [
    "Xsd.C29_C30_no_effect",
    "Xsd.C29_facets_false"
   ],
   "note": "false of the code: proved that facets have no effect at all, with a witness"
  },
  {
   "property": "C30",
   "status": "partial",
   "theorems": [
    "Xsd.C29_C30_no_effect",
    "Xsd.C30_default_false"
   ],
   "note": "false of the code: proved that defaults have no effect at all, with a witness"
  },
  {
   "property": "C54",
   "status": "partial",
   "theorems": [
    "Xsd.C54_content",
    "Xsd.C54_base_attributes_partial",
    "Xsd.C54_false",
    "Xsd.C54_own_only"
   ],
   "note": "parser: an extended type contains a value of the type named as base and a group for its sequence; written attributes: holds for extensions without a sequence, false with one (witness); with a sequence the attributes of the base are never written (C54_own_only)"
  },
  {
   "property": "C25",
   "status": "partial",
   "theorems": [
    "Xsd.C25_variants",
    "Xsd.C25_names",
    "Xsd.C25_inverse_partial",
    "Xsd.C25_generated",
    "Xsd.C25_text_partial",
    "Xsd.C25_duplicates_false",
    "Xsd.C25_inverse_iff"
   ],
   "note": "proved for distinct enumeration values and every iteration order of the map; false with duplicates (witness); the conversions are inverse exactly for distinct values (C25_inverse_iff)"
  },
  {
   "property": "C31",
   "status": "proved",
   "theorems": [
    "Xsd.C31_bijection",
    "Xsd.C31_stable"
   ],
   "note": ""
  },
  {
   "property": "C42",
   "status": "proved",
   "theorems": [
    "Xsd.C42_docs",
    "Xsd.C42_words_exist",
    "Xsd.C42_annotation"
   ],
   "note": ""
  },
  {
   "property": "C43",
   "status": "partial",
   "theorems": [
    "Xsd.C43_virtual_name_partial",
    "Xsd.C43_longer",
    "Xsd.C43_single",
    "Xsd.C43_false"
   ],
   "note": "groups of two or more members; false for a group of one member, which gets the name of the member unchanged (witness)"
  },
  {
   "property": "C44",
   "status": "partial",
   "theorems": [
    "Xsd.C44_no_panic_partial",
    "Xsd.C44_panics_iff",
    "Xsd.C44_parse_partial",
    "Xsd.C44_false",
    "Xsd.SchemaSample.C44_parse_false"
   ],
   "note": "holds for names starting with an ASCII character, and no parse function panics on files whose names are ASCII; panics otherwise (witnesses)"
  },
  {
   "property": "C48",
   "status": "partial",
   "theorems": [
    "Xsd.C48_terminates_partial",
    "Xsd.C48_resolve_partial",
    "Xsd.C48_cycle",
    "Xsd.Alias.C48_false"
   ],
   "note": "terminates exactly on schemas without alias cycles; cyclic schema as witness"
  },
  {
   "property": "C49",
   "status": "partial",
   "theorems": [
    "Xsd.C49_legal_partial",
    "Xsd.C49_false",
    "Xsd.C49_iff",
    "Xsd.C49_otherwise"
   ],
   "note": "some keywords are missed, some panic (witnesses); exactly which names become legal identifiers (C49_iff), and what happens to the others (C49_otherwise)"
  },
  {
   "property": "C56",
   "status": "partial",
   "theorems": [
    "Xsd.C56_unique_partial",
    "Xsd.C56_false",
    "Xsd.C56_iff"
   ],
   "note": "unique up to Pascal case; false in general (witness); the identifiers are the same exactly if the Pascal cases are (C56_iff)"
  },
  {
   "property": "C33",
   "status": "partial",
   "theorems": [
    "Xsd.C33_partial",
    "Xsd.C33_builtin",
    "Xsd.C33_undeclared",
    "Xsd.C33_named",
    "Xsd.C33_default_builtin",
    "Xsd.C33_unqualified",
    "Xsd.C33_declared",
    "Xsd.TypeRef.C33_false",
    "Xsd.C33_iff"
   ],
   "note": "holds for prefixed references, and for unprefixed ones unless the default namespace is neither absent nor XSD (witness); the condition is exact (C33_iff)"
  },
  {
   "property": "C34",
   "status": "proved",
   "theorems": [
    "Xsd.C34_min_occurs",
    "Xsd.C34_max_occurs",
    "Xsd.C34_leaf",
    "Xsd.C34_field_type"
   ],
   "note": ""
  },
  {
   "property": "C37",
   "status": "proved",
   "theorems": [
    "Xsd.C37_sequence",
    "Xsd.C37_choice",
    "Xsd.C37_complexType",
    "Xsd.C37_fields"
   ],
   "note": ""
  },
  {
   "property": "C38",
   "status": "proved",
   "theorems": [
    "Xsd.C38",
    "Xsd.C38_kept",
    "Xsd.C38_field_type",
    "Xsd.C38_generated",
    "Xsd.C38_complexType"
   ],
   "note": ""
  },
  {
   "property": "C53",
   "status": "proved",
   "theorems": [
    "Xsd.C53",
    "Xsd.C53_base"
   ],
   "note": ""
  },
  {
   "property": "C32",
   "status": "proved",
   "theorems": [
    "Xsd.C32",
    "Xsd.C32_table",
    "Xsd.C32_no_panic",
    "Xsd.C32_origin"
   ],
   "note": ""
  },
  {
   "property": "C35",
   "status": "partial",
   "theorems": [
    "Xsd.C35_partial",
    "Xsd.C35_shadowed_partial",
    "Xsd.C35_false"
   ],
   "note": "proved for the attributes the parser keeps (the last of each local name), hence for all except those followed by a foreign attribute of the same local name (C35_shadowed_partial); such an attribute is accepted (witness)"
  },
  {
   "property": "C36",
   "status": "proved",
   "theorems": [
    "Xsd.C36"
   ],
   "note": ""
  },
  {
   "property": "C51",
   "status": "proved",
   "theorems": [
    "Xsd.C51",
    "Xsd.C51_form",
    "Xsd.C51_local",
    "Xsd.C51_ref",
    "Xsd.C51_attribute",
    "Xsd.C51_top"
   ],
   "note": ""
  },
  {
   "property": "C46",
   "status": "proved",
   "theorems": [
    "Xsd.C46",
    "Xsd.C46_collect",
    "Xsd.C46_succeeds",
    "Xsd.C46_again"
   ],
   "note": ""
  },
  {
   "property": "C52",
   "status": "partial",
   "theorems": [
    "Xsd.C52_partial",
    "Xsd.C52_added_partial",
    "Xsd.C52_false"
   ],
   "note": "proved for foreign attributes that are harmless (followed by one with the same local name, or with a local name that is neither known nor that of an attribute of the element); false in general (witness)"
  },
  {
   "property": "C55",
   "status": "proved",
   "theorems": [
    "Xsd.C55"
   ],
   "note": ""
  },
  {
   "property": "C47",
   "status": "partial",
   "theorems": [
    "Xsd.C47_partial",
    "Xsd.C47_false"
   ],
   "note": "proved for schemas in which no two definitions share a group by its derived name; false otherwise (witness)"
  },
  {
   "property": "C40",
   "status": "partial",
   "theorems": [
    "Xsd.C40_partial",
    "Xsd.C40_wellfounded_partial",
    "Xsd.C40_returned",
    "Xsd.C40_circular",
    "Xsd.C40_definition",
    "Xsd.C40_false"
   ],
   "note": "Parsing terminates for every file system whose include graph is finite and acyclic (explicit bound on the depth), and whenever each sequence of includes ends (C40_wellfounded_partial); conversely a schema is only returned if each sequence of includes ends (C40_returned, C40_circular). Parsing one definition always terminates. Including itself diverges (C40_false), so the full statement is false."
  },
  {
   "property": "C41",
   "status": "proved",
   "theorems": [
    "Xsd.C41"
   ],
   "note": "For every file system, depth of includes and error: the file is reached, the error is true of an element inside the document of that file (a node reported as unsupported has no meaning where it stands), row and column are the position of that node. The io::Error of an unreadable file is not modelled."
  },
  {
   "property": "C57",
   "status": "partial",
   "theorems": [
    "Xsd.C57_partial",
    "Xsd.C57_false",
    "Xsd.C57_iff"
   ],
   "note": "For modules without inner attributes. Inner attributes are written before the keyword mod, which is not a module any more (C57_false). The condition is exact (C57_iff)."
  },
  {
   "property": "C39",
   "status": "proved",
   "theorems": [
    "Xsd.C39",
    "Xsd.C39_available",
    "Xsd.lastNamed_eq"
   ],
   "note": "FileLog (Verif/Spec/Definitions.lean) lists the types of the file and of all files included or imported, directly or not, in processing order; for every parsed schema there is such a list, and looking up a name gives the last entry with that name. C39_available: every top-level definition of every file that is read is found under its name in the target namespace of its file."
  },
  {
   "property": "C45",
   "status": "partial",
   "theorems": [
    "Xsd.C45_partial",
    "Xsd.C45_named_partial",
    "Xsd.C45_false",
    "Xsd.C45_anonymous_false",
    "Xsd.C45_iff"
   ],
   "note": "False as stated: an element and a type with one name (allowed by XML Schema) overwrite each other (C45_false), and so do a named type and an anonymous type whose made-up name is the same (C45_anonymous_false). Proved: the nodes that get a type are exactly the top-level definitions and anonymous types; the schema has no other types; if no two get the same name then all keep their own type (C45_partial); for files without anonymous types the condition is on the names in the files (C45_named_partial). Every definition keeps its type exactly if no two with one name have different types (C45_iff)."
  },
  {
   "property": "C50",
   "status": "partial",
   "theorems": [
    "Xsd.C50_parse_partial",
    "Xsd.C50_model",
    "Xsd.C50_generate",
    "Xsd.C50_run_partial",
    "Xsd.C50_attributes",
    "Xsd.SchemaSample.C50_false",
    "Xsd.C50_error_false"
   ],
   "note": "Parsing, generating, decoding and encoding give the same result for every iteration order of the maps, if the values of each enumeration are distinct and the types have distinct identifiers (C50_run_partial); parsing and generating need neither (C50_parse_partial, C50_generate). Witnesses: a value listed twice in an enumeration is read as a variant that depends on the order (C50_false), and the unsupported attribute that an error names depends on it (C50_error_false, C50_attributes)."
  },
  {
   "property": "C17",
   "status": "partial",
   "theorems": [
    "Xsd.C17_partial",
    "Xsd.Tree.C17_files_partial",
    "Xsd.Tree.C17_compiled_partial",
    "Xsd.C17_false"
   ],
   "note": "from_xml returns on every document, for every schema in which no type contains itself and what readers look ahead for are groups (C17_partial). In terms of schema files: whenever no type has overwritten another one and the generated code compiles (C17_compiled_partial; C17_files_partial without the typing rules). Missing are schemas in which a type has overwritten another one, where the claim is false: C17_false gives a parsed schema (a simple type with the name made up for a repeated choice) and a document on which from_xml loops forever."
  },
  {
   "property": "C58",
   "status": "partial",
   "theorems": [
    "Xsd.C58_compiles_partial",
    "Xsd.C58_exact_partial",
    "Xsd.C58_false"
   ],
   "note": "Compiles (Verif/Spec/Typing.lean) are typing rules for the target language, independent of the generator. Buildable (Verif/Spec/Buildable.lean) are conditions on the schema. When generation succeeds the module compiles if (C58_compiles_partial) and only if (C58_exact_partial) the schema is Buildable. C58_false: 13 schemas that are accepted although their code does not compile, one for each condition."
  },
  {
   "property": "C59",
   "status": "proved",
   "theorems": [
    "Xsd.C59_reads",
    "Xsd.C59_writes"
   ],
   "note": "for arbitrary modules of the target language that satisfy the typing rules of Verif/Spec/Typing.lean. (Termination of readers is C17.)"
  },
  {
   "property": "C60",
   "status": "proved",
   "theorems": [
    "Xsd.C60_generated_iff",
    "Xsd.C60_with_dependencies",
    "Xsd.SchemaSample.C60_conditions_needed"
   ],
   "note": ""
  },
  {
   "property": "C61",
   "status": "partial",
   "theorems": [
    "Xsd.C61_accepts_partial",
    "Xsd.C61_accepts",
    "Xsd.C61_only_supported",
    "Xsd.C61_no_error",
    "Xsd.SchemaSample.C61_false"
   ],
   "note": "LegalFile (Verif/Spec/Legal.lean) is independent of the parser. Parsed files are supported (C61_only_supported); on supported files parsing ends and reports no error (C61_no_error), for all names. For all names, a file is parsed exactly if it is supported and parsing it does not panic (C61_accepts); it does not if the names are ASCII (C61_accepts_partial). Without that the equivalence is false: a supported file on which the parser panics is C61_false."
  },
  {
   "property": "C62",
   "status": "partial",
   "theorems": [
    "Xsd.C62_partial",
    "Xsd.C62_complexType",
    "Xsd.C62_sequence",
    "Xsd.C62_attributes",
    "Xsd.C62_false",
    "Xsd.C62_variants_false"
   ],
   "note": "the full statement is false: the documentation of enumerations, of alternatives of a choice and of references is dropped; proved for all other definitions, for the particles of a sequence and for attributes"
  },
  {
   "property": "C63",
   "status": "partial",
   "theorems": [
    "Xsd.Flat.C63_partial"
   ],
   "note": "proved for sets of files whose top-level declarations are records (sequences of typed elements and attributes), texts, enumerations and elements with a type; missing: choices, nested groups, xs:all, anonymous types inside records, extensions of types of the schema, which C65 covers. Without the conditions on names the claim is false (C58)"
  },
  {
   "property": "C64",
   "status": "proved",
   "theorems": [
    "Xsd.C64_code",
    "Xsd.C64_reads",
    "Xsd.C64_writes",
    "Xsd.C64_valid",
    "Xsd.C64_dependencies",
    "Xsd.C64_dependencies_parsed",
    "Xsd.C64_part",
    "Xsd.C64_roundtrip"
   ],
   "note": "the behaviour clauses need that the referred types are defined and that no two types of a module have the same identifier; otherwise the module does not compile (C58)"
  },
  {
   "property": "C65",
   "status": "partial",
   "theorems": [
    "Xsd.Tree.C65_partial",
    "Xsd.Tree.C65_solid_partial"
   ],
   "note": "proved for sets of files in any nesting of sequences, choices, anonymous types, references and extensions, and xs:all; missing: valid documents in which the members of an xs:all with optional members are not in the declared order (C21), or in which a choice is left empty (by the theorem these are not read), types that get the same name, and schemas outside of the conditions of C09, C14 and C58 (where the claim is false of the code). All requirements can be computed; they hold for 48 of the 49 schemas of the repository's integration tests (Verif/Conformance/Documents.lean)"
  },
  {
   "property": "C66",
   "status": "proved",
   "theorems": [
    "Xsd.C66_faults",
    "Xsd.C66_visible",
    "Xsd.Tree.C66_files"
   ],
   "note": "for every generated module in which what readers look ahead for are groups, which is so when no definition has overwritten another one (C66_files); the error types of the literal conversions themselves are not modelled"
  },
  {
   "property": "C67",
   "status": "partial",
   "theorems": [
    "Xsd.C67_characters",
    "Xsd.C67_from_document",
    "Xsd.C67_any_writer_partial",
    "Xsd.C67_stable_partial",
    "Xsd.C67_document_partial",
    "Xsd.C67_roundtrip_partial",
    "Xsd.Tree.C67_files_partial",
    "Xsd.Sample.C67_return_false",
    "Xsd.Sample.C67_tab_false"
   ],
   "note": "for other writers than xml-rs proved for all values; for xml-rs proved unless it writes a text with a carriage return or an attribute value with a tab: with them the claim is false (C67_return_false, C67_tab_false), since xml-rs writes them as they are and XML readers have to normalise them. The schemas are those of C65. The XML libraries are not part of the repository: Verif/Model/XmlText.lean says what is assumed of them"
  },
  {
   "property": "C68",
   "status": "proved",
   "theorems": [
    "Xsd.C68",
    "Xsd.C68_document"
   ],
   "note": "the position that roxmltree reports for a text that is not well-formed is a parameter"
  },
  {
   "property": "C69",
   "status": "proved",
   "theorems": [
    "Xsd.C69",
    "Xsd.C69_outcome",
    "Xsd.C69_unique",
    "Xsd.C69_compiled"
   ],
   "note": "for schemas whose types are finite and in which what readers look ahead for are groups, as for C17; C69_outcome needs the latter only; panic is an outcome where the generated code does not compile"
  },
  {
   "property": "C70",
   "status": "proved",
   "theorems": [
    "Xsd.C70_schema",
    "Xsd.C70_position",
    "Xsd.C70_macro",
    "Xsd.C70_decode",
    "Xsd.C70_from_xml",
    "Xsd.C70_paths_needed",
    "Xsd.C70_fixed_needed"
   ],
   "note": "what other libraries print inside a message is a parameter; the byte offset of an error is not part of its message"
  },
  {
   "property": "C71",
   "status": "partial",
   "theorems": [
    "Xsd.Pres.C71_partial",
    "Xsd.Pres.C71_code_partial",
    "Xsd.Pres.C71_default_false",
    "Xsd.Pres.C71_nested_false"
   ],
   "note": "false of the code for a default namespace other than that of schemas, for prefixes declared below the root, and for foreign attributes with the name of a schema attribute; proved for all other files, with errors of the same kind if they fail"
  },
  {
   "property": "C72",
   "status": "proved",
   "theorems": [
    "Xsd.NodeRs.C72_attribute",
    "Xsd.NodeRs.C72_unvisited",
    "Xsd.NodeRs.C72_children",
    "Xsd.NodeRs.C72_loop",
    "Xsd.NodeRs.C72_find",
    "Xsd.NodeRs.C72_prefix",
    "Xsd.NodeRs.C72_refines",
    "Xsd.NodeRs.C72_refines_children"
   ],
   "note": "Refinement of the node view of the parser model by the data structures of node.rs; C72_prefix assumes that a prefix is bound once per element, as XML namespaces require."
  },
  {
   "property": "C73",
   "status": "proved",
   "theorems": [
    "Xsd.C73_reads",
    "Xsd.C73_writes",
    "Xsd.C73_values",
    "Xsd.C73_back",
    "Xsd.C73_exchange",
    "Xsd.C73_steps",
    "Xsd.C73_steps_values",
    "Xsd.C73_injective",
    "Xsd.EvolutionSample.C73_back_needed",
    "Xsd.EvolutionSample.C73_without_needed",
    "Xsd.EvolutionSample.C73_values_needed"
   ],
   "note": "for generated modules that compile (C58 says which do), on the level of the parsed schemas; Wider (Verif/Spec/Wider.lean) says which extensions are meant: added members of records and choices are elements, not groups. C73_without_needed: a document with an added attribute that is not a number is read by the old code and rejected by the new one. C73_values_needed: a document with an added value of an enumeration is rejected by the old code and read by the new one"
  },
  {
   "property": "C74",
   "status": "proved",
   "theorems": [
    "Xsd.C74",
    "Xsd.C74_text"
   ],
   "note": "References, CDATA sections and quotes are resolved by the model of the XML library (readXml); two texts say the same if what it returns is the same up to prefixes, positions and the order of attributes."
  },
  {
   "property": "C75",
   "status": "proved",
   "theorems": [
    "Xsd.C75",
    "Xsd.C75_names",
    "Xsd.C75_again"
   ],
   "note": "C75 asks that the definitions of the file are in the schema; C75_names says what holds without this"
  },
  {
   "property": "C76",
   "status": "proved",
   "theorems": [
    "Xsd.C76"
   ],
   "note": "the part is in the same directory, so that its includes mean the same; the depth of includes that is needed may differ by one"
  },
  {
   "property": "C77",
   "status": "proved",
   "theorems": [
    "Xsd.C77",
    "Xsd.C77_others"
   ],
   "note": "the content of a file is what the XML library makes of it, or its error"
  },
  {
   "property": "C78",
   "status": "proved",
   "theorems": [
    "Xsd.Ann.C78_file",
    "Xsd.Ann.C78_element",
    "Xsd.Ann.C78_code",
    "Xsd.Ann.C78_toplevel"
   ],
   "note": "#[doc] attributes are not part of the generated items of the model (Verif/Model/Docs.lean has them separately, see C62); annotations directly in xs:schema are never accepted (C78_toplevel)"
  },
  {
   "property": "C79",
   "status": "proved",
   "theorems": [
    "Xsd.Reord.C79",
    "Xsd.Reord.C79_same",
    "Xsd.Reord.C79_code",
    "Xsd.ReorderSample.C79_clash_false"
   ],
   "note": "C79 for schemas without other namespaces, C79_same for all schemas if both orders are accepted with the same numbering of namespaces; C79_clash_false: the condition on clashes is necessary"
  },
  {
   "property": "C80",
   "status": "proved",
   "theorems": [
    "Xsd.Pre.C80",
    "Xsd.Pre.C80_fails",
    "Xsd.PrefixSample.C80_default_false"
   ],
   "note": "prefixes declared on the root element; names without prefix are covered if the default namespace is XML Schema's or there is none; C80_default_false: with another default namespace it is false"
  },
  {
   "property": "C81",
   "status": "proved",
   "theorems": [
    "Xsd.Tidy.C81",
    "Xsd.Tidy.C81_fails",
    "Xsd.TidySample.C81_named_false"
   ],
   "note": "for foreign attributes that are not named like attributes of XML Schema; C81_named_false: otherwise it is false"
  }
 ]
}