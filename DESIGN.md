# Formal model of rkusa/xsd — design

The subject is `rkusa/xsd`: a Rust proc-macro crate that reads an XML Schema file, generates Rust
types plus `from_xml`/`to_xml` for them, and ships a small runtime (`xsd/src/decode.rs`,
`xsd/src/lib.rs`) that the generated code calls. The properties are in `properties.jsonl`; the status of
each, with exact theorem names, is in `MANIFEST.json`; the wrong programs the theorems were tested against are
in `seeded/LOG.jsonl`. This file says what is modelled, how, how each property is proved, and what is trusted.

## Layers of the model (`lean/Verif/`)

| File | Repo source | What it is in Lean |
|---|---|---|
| `Base` | – | strings as `List Char`, association-list maps, outcomes `Res` (ok / err / panic / diverge) |
| `Xml` | roxmltree's tree view | `XNode` (element / text / other), names, attributes, namespaces in scope, source positions |
| `Model/Decode` | `xsd/src/decode.rs` | the cursor `Node` with its three buffers, `Document` |
| `Model/Writer` | `xsd/src/lib.rs` | `Context`/`ContextInner`, emitted events; the tree that events denote |
| `Model/Prim` | `ast/literal_type.rs`, std | literal types, Rust's `FromStr`/`Display` for them, `Ext` (parameters) |
| `Model/Ast` | `ast/*`, `context.rs` | AST, `Namespaces`, `SchemaContext` |
| `Model/Node`, `Model/VirtualName`, `Model/Parse` | `xsd/node.rs`, `xsd/error.rs`, `xsd/parse/*` | schema nodes with visited attributes, names of groups, documentation, the parser in a state + error monad |
| `Model/NodeRs` | `xsd/node.rs` | the same nodes with the data structures of the source (all functions); C72 shows that both views agree |
| `Model/Schema` | `xsd/schema.rs` | include/import over a file-system function, error positions, dependency collection, `generate_element_and_dependencies` |
| `Model/Docs` | the `docs` parts of `to_impl`, `generate_element` | the `#[doc]` attributes of generated items |
| `Model/Codegen` | the `*_impl` methods, `utils.rs` | generator; every `quote!` template is a constructor of a small target language (deep embedding) |
| `Model/Exec` | meaning of the generated Rust code | interpreter of the target language over the runtime |
| `Model/SchemaText` | roxmltree | what is assumed of the library for schema files: reading texts with positions and namespaces |
| `Model/XmlText`, `Model/ApiText` | roxmltree, xml-rs; `decode`, `from_xml`, `to_xml` | what is assumed of the XML libraries: a reader and a writer of texts; the functions on texts |
| `Model/Display` | the `#[error(..)]` format strings | the messages of errors |
| `Model/Derive` | `xsd-derive/src/lib.rs`, `generator.rs` | the attribute macro on token lists |
| `Spec/*` | – | specifications |
| `Lemmas/*` | – | proofs that are not property theorems |
| `Conformance/*` | `xsd/tests/*` | the integration tests of the repository, evaluated in the model (made by `tools/conformance.py`) |
| `Props/*` | – | property theorems, each beside a concrete case; `*Sample`/`*Examples` hold larger cases and counterexamples |

## Modelling decisions

* **Panics and divergence are values.** `unreachable!`, `.expect`, out-of-bounds slices and
  `format_ident!` panics are the outcome `panic`. Loops and recursion that are not structural run with fuel, and running out
  is the outcome `diverge`; more fuel never changes another outcome (`Lemmas/ExecMono`), and theorems show which fuel is enough.
  A call "returns `r`" if it does for some fuel (`Spec/Api`).
* **HashMap/HashSet** is an association list with unique keys. Where the code iterates over a map, C50 proves
  the result for every order, or states how it depends on it.
* **Generated code** is never text: the generator produces terms of a target language whose constructors are the
  `quote!` templates of the source, and `Exec` gives them Rust's meaning. Calls between generated types go by Rust
  identifier, not by schema name. In `Exec`, `panic` also stands for generated code that rustc would reject and for values that do
  not have the declared type.
* **Third-party functions** (Inflector's case conversions, `char::is_*`, identifier syntax, Decimal and f32 conversions) are
  parameters (`Ext`). Theorems hold for every choice, with laws as explicit hypotheses.
* **XML text layer** (characters ⇄ tree). roxmltree's tree is the input of the model, xml-rs' events are its output. For the round trip,
  the tree read back is the one that the events denote, with white space inserted where an indenting writer may put some
  (C07, C11). `Model/XmlText` says what is assumed of the two libraries when it comes to texts: `readXml` is the part of XML 1.0 and
  Namespaces in XML that roxmltree implements (without DTDs, which it refuses), `emitXml` is the text that xml-rs writes. C67 proves that what a correct XML
  writer (`Spec/XmlText`: any escaping, quotes, line breaks) makes of the events is read as that tree. Schema files are trees
  with positions; `Model/SchemaText` reads these from texts (`readXmlAt`, which is `readXml` with byte offsets and the namespaces in scope; rows and
  columns as in roxmltree's `text_pos_at`), and every theorem about files holds for files given as texts (`TextFiles.files`).
* **Readers run on the cursor of `decode.rs`** (`cursorOps`). Proofs use the plain queue (`queueOps`), which C01 shows to be
  equivalent.

## Not modelled

* `decode.rs`: `Node::range` (unused).
* `xsd/node.rs`: the ends of source ranges.
* `schema.rs`: the accessors `elements()` and `context()`.
* Contents and messages of the `io::Error`, of XML errors and of parse errors of numbers.
* In generated code: derives, imports, and the doc attributes as tokens (`Model/Docs` models which text is put on which definition).
* `xsd-derive`: parsing of the macro's arguments and of the module by syn (given as parsed values), `CARGO_MANIFEST_DIR` lookup.

## Evidence for the correspondence

The repository has 50 integration tests: a schema, a document, the value it is decoded as, and the encoded text. 49 of
them are evaluated in the model (`Conformance/Tests*`; the other one is about existing content of the module): the schema is parsed, code is
generated, the document is decoded as the expected value, and this is encoded as the expected tags and texts; the same again with the texts of the schema files and documents themselves, character by character (the trees and positions of the schema files are those that expat reports). All pass. These are tests of the model,
not proofs. `Conformance/Covered` also shows that these schemas meet the hypotheses of the theorems: their modules satisfy `Compiles` (as they must,
since rustc accepts them), and they are `Deterministic` and `Faithful` (except that `element_ref_type.xsd` defines a type that is not).
`Conformance/Documents` shows that 48 of them meet all that C65 and C67 ask of a schema (not `element_ref_type.xsd`).

## Trusted base

* Lean 4.33.0's kernel. No axioms of our own, no `sorry`, no `native_decide`/`bv_decide`; no module of Mathlib is imported. Every theorem in the manifest
  depends on at most `propext`, `Quot.sound` and `Classical.choice`: about a sixth on `propext` only, most on `propext` and
  `Quot.sound`, a quarter on all three. (`#print axioms` for each name in the manifest.)
* The correspondence between the Rust source and the Lean definitions, checked by reading: every definition cites file and lines and says where it
  simplifies.
* The behaviour of roxmltree, xml-rs, Inflector, rust_decimal, syn/quote and rustc as described above.

## Specifications

Specifications are separate from the model. They share with it: the AST as the description of a schema, the mapping of schema names to
identifiers (`typeIdent`, `fieldIdent`, `pascalIdent`: part of the API of generated code, and the subject of C49 and C56), the variant table of
enumerations (`escapeEnumNames`, the subject of C25) and text conversion of literals (the subject of C26).

* `Occurs`: which parts of a schema may be absent or repeat, and expanded names. `Queue`: the cursor as a list. `Repr`: which values a document represents (relation, four modes). `Det`: `Deterministic`, schemas readable
  with one element of lookahead. `Write`: `Faithful`, schemas without the shapes that the writer loses. `Values`, `Types`: values of a schema type
  and of a Rust type. `SameContent`: documents that differ only in non-element nodes. `Leads`: the elements that can start a group.
* `Grammar`: which nodes of a schema document are interpreted, in which role, and what they may carry. `Definitions`: the list of
  types that files define, in processing order. `Files`: which files are read. `Blame`: what an error says of the document. `Order`: runs of the
  parser with any iteration order. `Finite`: schemas whose types are finite. `Ascii`: documents with ASCII names.
* `XmlText`: which texts an XML writer may write for a list of events. `CleanText`: `from_xml`/`to_xml` on texts; values and code whose strings and names XML can express.
* `Typing`: when rustc accepts a module of the target language; its header lists where it is stricter than Rust. `Buildable`: schemas whose code
  compiles. `Generable`: schemas for which code is generated.

## Per property

"false" means: a theorem `…_false` exhibits an input on which the code violates the claim, and the theorems `…_partial` prove
what does hold. The manifest gives the names.

| Id | Status | Model and proof |
|---|---|---|
| C01–C05 | proved | `Decode`: abstraction of the three buffers to one list; induction over call histories |
| C06 | proved | `Document`, `from_xml`: case analysis over all documents |
| C07 | proved | relation between documents that differ in non-element nodes, preserved by every template |
| C08–C10 | proved | `Writer`: invariants over call histories of a context |
| C11, C12 | proved for the class named in the statement | what is written represents the value (`Lemmas/Encode`), the event tree is that document (`Build`), representations are read back (`Complete`). The class is `Deterministic` and `Faithful`, both decidable; `Props/Defects` has a counterexample for each shape that `Faithful` excludes |
| C13 | proved | soundness against `Repr`, induction on call depth (`Lemmas/Sound`) |
| C14 | proved for the class named in the statement | completeness against `Repr` for `Deterministic` schemas (`Lemmas/Complete`) |
| C15 | false, partial | proved for `Faithful` schemas; for all modules, what is written is an element, text or members, as `WrittenAs` (`Spec/Shape`) says of the type: induction over the calls of the writer (`toXmlWriter_shape`), `C15_shape`, `C15_iff` |
| C16 | proved | induction over values: depth never negative, ends at zero, tags match |
| C17 | false, partial | measure: children left (`Props/ReadTerminates`); proved if what readers look ahead for are groups. In terms of files: by induction over the parser, counting the types that are added (`Lemmas/Grows`, `GrowsFiles`), groups are groups and not part of cycles if no type has overwritten another one (`Props/ReadTerminatesFiles`) |
| C18 | false, partial | from C13 by typing of representations; false for a repeated group as an alternative of a choice, whose reader is ill-typed |
| C19, C20, C23, C28 | proved | per-template lemmas over all documents |
| C21, C22, C24 | false, partial | optional members of `xs:all`; occurrence bounds; fixed attributes. `C21_iff` says exactly which documents can be reordered: those in which no optional member that has an element is declared before another member that has one |
| C25 | false for repeated values, partial | loop invariant of `escape_enum_names`, pigeonhole for its inner loop. Exactly when: `C25_inverse_iff` (`Props/Exact`). `C25_text_partial` (`Props/SimpleTypes`): `Display`, `FromStr` and `to_xml` of the generated enumeration |
| C26 | proved | digit induction; decimals and floats by assumed laws. `C26_types`: from the name of the built-in type in the schema to the texts that the generated code accepts. `C26_newtype` (`Props/SimpleTypes`): `Display` and `FromStr` of the generated types |
| C27 | false, partial | proved for `Faithful` schemas: names resolve through the declarations written. Exactly when: `C27_name_iff` (`Props/Exact`) |
| C29, C30 | false | restrictions and defaults never reach the generated code: proved that they have no effect |
| C31, C32 | proved | invariant over registrations; preserved by every parse function (`Lemmas/ParseInv`); the namespaces in the table come from the files (`Props/TableOrigin`) |
| C33 | false, partial | a default namespace that is neither absent nor XSD is ignored. Exactly when: `C33_iff` (`Props/Exact`) |
| C34, C37, C38, C53 | proved | inversion of the parse functions; lifted to all definitions of a parsed schema |
| C35 | false, partial | attributes are kept by local name only; shadowed ones are not seen |
| C36, C51 | proved | induction over interpreted nodes (`Spec/Grammar`) |
| C39 | proved | list of definitions in processing order (`Spec/Definitions`), induction on include depth |
| C40 | false, partial | cyclic includes diverge; proved: parsing ends if each sequence of includes ends, and a schema is only returned if each sequence of includes ends |
| C41 | proved | every error blames a node inside the document of its file; what it says (missing or unsupported node, undeclared prefix, no such type, no number) is stated from the document alone (`Blames`): a node reported as unsupported has no meaning where it stands (`AttrMeaning`, `ChildMeaning`, `FirstMeaning`; invariant: which attributes and children the functions asked for so far, `Heard`). Invariant for prefixes: the context has exactly the declarations of the root element (`Declared`) |
| C42 | proved | list induction; `C42_annotation` for what is made of an annotation |
| C43 | false for groups of one member, partial | names of groups |
| C44 | false, partial | a first character longer than one byte panics; exactly when: `C44_panics_iff`. No parse function panics when the names in all files read are ASCII (`Spec/Ascii`, `Lemmas/NoPanic`) |
| C45 | false, partial | two definitions with one name, and made-up names. Exactly when: `C45_iff` (`Props/Exact`) |
| C46 | proved | reachability, termination by a bound on the dependency table |
| C47 | false, partial | dependencies of shared groups are recorded for the first parent only |
| C48 | false, partial | alias cycles |
| C49 | false, partial | keywords missing from the list, keywords that cannot be raw. Exactly when: `C49_iff` (`Props/Exact`) |
| C50 | false, partial | invariance of parser, generator and run time under permutation |
| C52 | false, partial | foreign attributes that shadow schema attributes |
| C54 | false, partial | extension with a sequence loses the base's attributes; `C54_content` says what the parser makes of an extension (base, and group of the added sequence). Exactly when: `C54_own_only`: base attributes are never written with a sequence (`Props/Exact`) |
| C55 | proved | by induction over the list of names |
| C56 | false, partial | names that differ only in case conversion. Exactly when: `C56_iff` (`Props/Exact`) |
| C57 | false, partial | inner attributes of the module. Exactly when: `C57_iff` (`Props/Exact`) |
| C58 | false, partial | typing rules for the target language (`Spec/Typing`), proved equivalent to conditions on the schema (`Spec/Buildable`); a parsed schema that violates each condition |
| C59 | proved | type soundness of the target language: induction on call depth and on types |
| C60 | proved | every template function returns exactly under its part of the conditions (`Spec/Generable`); what parsing establishes excludes the other panics |
| C61 | partial | `Spec/Legal` says what is supported; one half by induction over interpreted nodes, the other by showing that no function reports an error on such nodes (`Lemmas/Quiet`). For all names: parsed iff supported and no panic (`C61_accepts`). Without that, false for names outside ASCII (`C61_false`) |
| C62 | partial | `Model/Docs` adds the `#[doc]` attributes; `Spec/Docs` says what the documentation of a node is; inversion of the parse functions. Missing (false): enumerations, alternatives of a choice and references show none; of several `documentation` elements only the first is used |
| C63 | partial | composition of the parser, generator, reader and writer theorems for files of records (`Spec/Components`: what declarations mean, read off the documents; `Spec/Validity`: valid documents), refinement proof from declarations to the parsed AST (`Lemmas/Components`, `Lemmas/FlatParse`). Missing: choices, nested groups, `xs:all`, anonymous types inside records, extensions of types of the schema |
| C64 | proved | congruence of the generator in the schema (`SameOn`: same namespaces, same definitions on a set of names closed under references) and of the interpreter in the module (`AgreeOn`), by induction on fuel (`Lemmas/Local`); congruence of the specification `DocRepr` in its strict modes. `C64_part`/`C64_roundtrip` restrict a schema to a closed part, so that C11 and C14 apply to a type even if other parts of the schema are not deterministic or not faithful (`Props/Local`) |
| C65 | partial | validity by recursion over the nodes of the schema files (`Spec/Tree`), simulation between schema nodes and the parsed AST (`Lemmas/TreeParse`, `TreeNodes`, `TreeAll`, `TreeFiles`), and between valid documents and represented values in both directions (`Lemmas/TreeComplete`, by recursion on validity; `Lemmas/TreeSound`, by recursion on representation; `Lemmas/TreeLoose` for the members of `xs:all`), then the reader and writer theorems. The requirements are computable (`Lemmas/TreeCheck`) and hold for all but one of the schemas of the repository's tests (`Conformance/Documents`). Valid documents are read if no choice is left empty and the members of an `xs:all` with optional members are in the declared order; documents with empty choices are not read. `C65_solid_partial` is for schemas where no choice can be empty and the members of `xs:all` are required: all valid documents are read. Missing: other orders of `xs:all` with optional members (C21), valid documents with empty choices (not read), types whose names clash, and the conditions of C09, C14 and C58 |
| C66 | proved | `At`, the places that are reached by following the schema through the document, and `Faults`, what is wrong at such a place, are defined on schema and document (`Spec/Faults`); by induction on fuel every error of a generated reader called at such a place is a fault (`Lemmas/Faults`, with the soundness lemmas of C13 for what has been read before); looking ahead is exact (`lookahead_right`), so a member is left out and an alternative chosen only where the next child element says so. That groups are groups follows as for C17 (`C66_files`). `C66_visible` is what follows about the document alone (`Props/Faults`) |
| C67 | false for carriage returns in texts and tabs in attribute values (`C67_return_false`, `C67_tab_false`), partial: for any other writer than xml-rs proved for all values, for xml-rs when it writes neither | a lexer and tree builder for XML texts (`Model/XmlText`) and the texts that a writer may produce for events (`Spec/XmlText`); by induction over the events the reader goes through each of these texts in step with `buildDoc` (`Lemmas/XmlText`, `XmlTree`), xml-rs' text is one of them (`XmlEmit`), and generated code only writes names of XML and the characters of the value (`CleanText`). What is read has the characters of the document (`XmlChars`) and indentation keeps documents valid (`TreeIndent`) |
| C68 | proved | the tree builder with positions goes through the text in step with the one of C67 (`readXmlAt_bare`); invariant: at the offset of each element there is its start tag, with its attributes at their offsets, and the namespaces in scope are those declared in it and those outside (`NodePos`, by induction over the steps; `C68_document`); offsets are mapped through line break normalisation; `textPos` finds row and column (`textPos_at`), and there is one text at a row and column (`AtRowCol.unique`). With C41 |
| C69 | proved | `GetsDoc`, the outcome of following the schema through the document, is a big-step relation on schema and document (`Spec/Outcome`); by induction on fuel every result of a generated reader is an outcome (`Lemmas/Outcome`; looking ahead is exact and does not panic), there is at most one outcome (`Lemmas/OutcomeDet`), and readers return (C17), which gives the converse. `C69_compiled` is the same from schema files whose generated code compiles (`Props/Outcome`) |
| C70 | proved | `Model/Display` has the format strings of all errors. Messages are cut at the first or the last occurrence of a character that a field does not contain; that names in errors have no backticks follows from C68 and the fact that the reader of texts only makes XML names (`readXmlAt_named`), that names and types in decoding errors are those of the schema from C66. `C70_paths_needed`, `C70_fixed_needed` show that the conditions are needed (`Props/Messages`) |
| C71 | false, partial | `SameElem` (`Spec/Presentation`) says when two documents say the same, with references compared as the names they stand for by the rules of XML namespaces. The parser is run on both documents at once: a relation between states (equal but for the prefixes) and nodes is kept by every function (`Lemmas/PresentationSim`, `Lemmas/PresentationParse`, induction on fuel; the fuel may differ as it depends on foreign elements, and C40 says that it is enough for both). If both fail, the errors are of the same kind and name the same file, element and value (`SameErr`). `C71_default_false`, `C71_nested_false` and `C52_false` are the cases where it fails |
| C72 | proved | `Model/NodeRs` has the data structures of `node.rs` as they are (a map with flags in any order, a list from which children are removed, loops). Invariant over sequences of calls: the map has the last attribute of each local name, flagged exactly if asked for (`Tracks`). Refinement: every operation agrees with the view of the model of the parser (`C72_refines`, `C72_refines_children`), unvisited attributes in one of the orders of C50. Cases: `NodeRs.Example` |
| C73 | proved | Two modules, simulation. `Wider` (two schemas), `Upgrade` (values of two modules) and `Without` (documents) are the specification, `Spec/Wider`. The readers of both modules go through the same states and return counterparts (`fromNode_sim`, with one more unit of fuel for loops that find nothing); the writers do the same (`toXmlWriter_up`); that generated modules are related follows definition by definition (`typeWider`). Added values of enumerations must differ from the others, and documents must not contain them as text or attribute; variants correspond if they stand for the same value, since added values may change the names of variants. `C73_back` is the way back, with C17 and C59 for the old module; `C73_exchange` combines `C73_writes` and C12. `C73_steps`, `C73_steps_values`: extensions compose, and so do counterparts (induction on the second relation). `C73_injective`: no two values have the same counterpart. Case: `EvolutionSample` |
| C74 | proved | `Restated` (nodes) and `TextRestated` (texts, through `readXml`) are the specification, `Spec/Restated`: attributes are a permutation, prefixes and positions are free. Attributes are found in any order (`TagRestated.attr`), then C28's simulation of readers. Case: `Sample.restated_reads` |
| C75 | proved | A closure principle for parser steps (`ParseClosed`, what holds of the primitive steps and is kept by sequencing holds of every function of the parser) gives `Redoes`: a step that succeeded is done again from every context that knows the namespaces and dependencies it added, and writes the same types whatever types are there. Induction over the children and the depth of includes (`parseFileWith_redo`). `OneMore` and `AlreadyRead` (`Spec/Again`) are the specification. Case: `AgainSample`, also for the exception |
| C76 | proved | Frame property of the parser from `Redoes` (C75): what it writes does not depend on the types that are there. Parsing children in a context without types and adding the result is parsing them (`parseItems_apart`, `insertAll_collected`); the context of the included file is that of the including one (`new_again`). `SplitOff` (`Spec/Split`) is the specification. Case: `SplitSample` |
| C77 | proved | Bisimulation of the trees of included files. `SameTree`, `MovedResult` and `LooksAt` (`Spec/Moved`) are the specification; induction on the depth of includes. The functions of `std::path` are parameters. Case: `MovedSample` |
| C78 | proved | Simulation of all functions of the parser (`Und`, `AnnOK`): a success becomes a success with the same result up to documentation, with independent fuel; `C40_definition` rules out that fuel is missing. The generator is shown to ignore documentation function by function. `bareFiles` and `plainSchema` (`Spec/Annotations`) are the specification. Adding annotations may make the parser fail: `C78_toplevel`. Case: `AnnSample` |
| C79 | proved | Every successful step of the parser adds the same types and dependencies in every context that knows its namespaces (`Frames`, an instance of `ParseClosed`), so each child of `xs:schema` has an effect of its own; `C79_code` uses C64 and C46. Clashes are stated with documents that have one child only (`NoClash` in `Spec/Reorder`); with clashes it is false (`C79_clash_false`). Case: `ReorderSample` |
| C80 | proved | Simulation of all functions of the parser (`Ren`, `PreOK`): both sides have the same result or fail in the same way. What a qualified name means is specified by `Means` in `Spec/Prefixes`, which does not use the parser; `RenamedDoc` says that the documents have the same shape and all `type`, `base` and `ref` attributes mean the same, given the declarations of the root element (the only ones the parser looks at); places are free. Names without a prefix under a default namespace other than XML Schema are left out, as the parser does not resolve them (C33): `C80_default_false`. Overlaps with C71, which also changes prefixes, but asks for more: C80 allows declarations below the root element, which the parser ignores, and any default namespace if no name relies on it. Case: `PrefixSample` |
| C81 | proved | Simulation of all functions of the parser (`Tidy.Ren`, `TidyOK`) between a file and its tidied form (`Spec/Tidy`: only elements of XML Schema, only attributes without namespace, in any order, no places, text only where documentation begins). Files with a common tidied form are read alike. `Clear`: no attribute twice (XML demands it), and foreign attributes are not named like attributes the parser looks up or like others on the element; without it the claim is false (`C81_named_false`, see also C35). The recursion depth of both sides differs, so the simulation allows either side to run out of fuel, which C40 excludes in the end. Overlaps with C71; C81 asks for less (`Clear` only on elements of XML Schema) and describes the relation by a function, the tidied form. Case: `TidySample` |
