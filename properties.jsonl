{"id": "C01", "title": "Node cursor behaves like a queue of element children", "statement": "Any sequence of peek_child/next_child/child/try_next_child/try_child calls on a decode Node returns exactly what the same sequence would return on the plain document-order list of the node's element children, where peek_child tests the head, next_child pops the head iff it matches, and child removes the earliest match. No child is ever lost, duplicated or reordered.", "quantifier": "every XML element, every finite history of cursor calls with any names and namespaces", "why_tests_cant": "the cursor keeps three buffers (iterator, peeked queue, next slot); the bug space is the set of all call interleavings", "anchors": ["xsd/src/decode.rs: Node::{new,peek_child,next_child,try_next_child,child,try_child}", "xsd/src/decode.rs: Children"]}
{"id": "C02", "title": "Non-matching lookups consume nothing", "statement": "A peek_child call, and a next_child/child/try_* call that finds no match, leaves every later call's answer unchanged.", "quantifier": "every cursor state reachable by any call history, every lookup, every continuation", "why_tests_cant": "needs observational equivalence over all continuations, not a single follow-up call", "anchors": ["xsd/src/decode.rs: Node::peek_child", "xsd/src/decode.rs: Node::next_child", "xsd/src/decode.rs: Node::child"]}
{"id": "C03", "title": "child finds a remaining element wherever it is", "statement": "Node::child(name, ns) returns Some iff an unconsumed element child with exactly that local name and namespace remains; it returns the earliest one and the others keep their order.", "quantifier": "every reachable cursor state, every name and namespace", "why_tests_cant": "depends on the position of the match relative to three internal buffers for unboundedly many children", "anchors": ["xsd/src/decode.rs: Node::child"]}
{"id": "C04", "title": "try_ variants fail exactly when the option variants are empty and name the missing item", "statement": "try_child/try_next_child/try_attribute return Ok(x) iff the non-try variant returns Some(x); otherwise they return MissingElement/MissingAttribute carrying exactly the requested name and namespace.", "quantifier": "every node, cursor state, name and namespace", "why_tests_cant": "universal over states and requests", "anchors": ["xsd/src/decode.rs: try_child, try_next_child, try_attribute, Document::try_child"]}
{"id": "C05", "title": "text() semantics", "statement": "Node::text() is Ok(\"\") for an element with no child nodes, Ok(s) when the first child node is the text s, and Err(TextExpected) otherwise; it does not depend on or alter the element cursor.", "quantifier": "every element and every cursor history", "why_tests_cant": "universal over child lists and histories", "anchors": ["xsd/src/decode.rs: Node::text"]}
{"id": "C06", "title": "Document root is matched on local name and namespace", "statement": "from_xml on a document whose root element differs from the requested one in local name or namespace fails with MissingElement naming the requested element; otherwise decoding starts at the root.", "quantifier": "every document and every generated type", "why_tests_cant": "universal over documents and types", "anchors": ["xsd/src/decode.rs: Document::child, Document::try_child", "xsd-internal/src/xsd/schema.rs: generate_element (from_xml)"]}
{"id": "C07", "title": "Whitespace, comments and processing instructions never affect decoding of structured content", "statement": "Inserting or removing non-element nodes between the element children of an element that is not read as text (in particular the indentation written by to_xml) does not change the result of from_xml.", "quantifier": "every generated type, every document, every placement of non-element nodes in elements that have element children", "why_tests_cant": "infinitely many insertions and documents", "anchors": ["xsd/src/decode.rs: Node::new (filter is_element)", "xsd-internal/src/xsd/schema.rs: perform_indent(true)"]}
{"id": "C08", "title": "Attributes set on a writer context are emitted exactly once, in order", "statement": "After any sequence of set_attr/set_ns/set_default_ns calls on a fresh Context, write_start_element emits one start tag with exactly the attributes set since the previous start tag, in call order, and leaves none behind.", "quantifier": "every sequence of context calls", "why_tests_cant": "all call sequences", "anchors": ["xsd/src/lib.rs: Context::set_attr, Context::write_start_element"]}
{"id": "C09", "title": "A wrapped context is transparent", "statement": "A Context::wrap context (and any re-wrap of it) never writes a start or end tag, and every attribute or namespace set through it before the wrapped element's start tag is written appears on that element.", "quantifier": "every nesting depth of wrap and every sequence of calls", "why_tests_cant": "unbounded nesting and call sequences", "anchors": ["xsd/src/lib.rs: Context::wrap, set_attr, set_ns, write_start_element, write_end_element"]}
{"id": "C10", "title": "First namespace binding of a prefix wins and re-declaring is harmless", "statement": "Repeating the same set_ns/set_default_ns calls on one context, as every nested generated type does, does not change the declared bindings.", "quantifier": "every context and every list of bindings", "why_tests_cant": "all call sequences", "anchors": ["xsd/src/lib.rs: set_ns, set_default_ns", "xsd-internal/src/xsd/schema.rs: generate_element (element_ns)"]}
{"id": "C11", "title": "Round trip: from_xml(to_xml(v)) == v", "statement": "For every supported schema whose content model is one-token deterministic (and which avoids the shapes reported as defects below), and for every value v of every generated type that has at least one XML representation, parsing the serialisation of v gives back v.", "quantifier": "every schema in the class, every generated type, every value of it", "why_tests_cant": "values and schemas are unbounded recursive structures", "anchors": ["xsd-internal/src/ast/root.rs", "xsd-internal/src/ast/leaf.rs", "xsd-internal/src/ast/element_definition.rs", "xsd-internal/src/ast/attribute.rs", "xsd-internal/src/ast/leaf_content.rs", "xsd-internal/src/xsd/schema.rs: generate_element", "xsd/src/decode.rs", "xsd/src/lib.rs"]}
{"id": "C12", "title": "Decoding is stable under re-encoding", "statement": "If from_xml(x) returns Ok(v) then from_xml(to_xml(v)) returns Ok(v), for the schemas of C11.", "quantifier": "every schema in the class, every document x accepted", "why_tests_cant": "every accepted document, not only canonical ones", "anchors": ["xsd-internal/src/ast/leaf.rs: to_xml_impl/from_xml_impl", "xsd-internal/src/ast/root.rs"]}
{"id": "C13", "title": "Decoded values describe the document (soundness)", "statement": "If from_xml(x) returns Ok(v), then v is a reading of x under the schema: every field value comes from an element/attribute/text of x with the declared name, namespace, position and type, and nothing else.", "quantifier": "every schema, every document, every generated type", "why_tests_cant": "every document", "anchors": ["xsd-internal/src/ast/leaf.rs: from_xml_impl", "xsd-internal/src/ast/root.rs: from_xml_impl", "xsd-internal/src/ast/attribute.rs: from_xml_impl"]}
{"id": "C14", "title": "Documents that represent a value are accepted (completeness)", "statement": "For one-token deterministic schemas, every document that is a reading of some value v under the schema is accepted by from_xml and yields exactly v.", "quantifier": "every schema in the class, every document, every value", "why_tests_cant": "every valid document", "anchors": ["xsd-internal/src/ast/leaf.rs: from_xml_impl", "xsd-internal/src/ast/root.rs: from_xml_impl, lookahead_impl"]}
{"id": "C15", "title": "to_xml of a well-typed value succeeds with a single well-formed root element", "statement": "For every value of a generated type, to_xml returns Ok and the output has exactly one root element, whose name is the schema name of the type, and no text outside it.", "quantifier": "every schema, every generated type, every value", "why_tests_cant": "every value; the tests never serialise a top-level element whose type is a named simple type", "anchors": ["xsd-internal/src/ast/root.rs: to_xml_impl", "xsd-internal/src/ast/element_definition.rs: to_xml_impl", "xsd-internal/src/xsd/schema.rs: to_xml"]}
{"id": "C16", "title": "Start and end tags are always balanced", "statement": "For every schema and every value, the event stream written by to_xml has matching start and end tags at every nesting level, even for shapes where C15 fails.", "quantifier": "every schema, every value", "why_tests_cant": "all values and schemas", "anchors": ["xsd-internal/src/ast/leaf.rs: to_xml_impl", "xsd-internal/src/ast/root.rs: to_xml_impl", "xsd/src/lib.rs: write_start_element/write_end_element"]}
{"id": "C17", "title": "from_xml terminates on every document", "statement": "No document can make a generated from_xml loop forever or recurse without bound: the lookahead-driven loops always consume input.", "quantifier": "every schema produced by the parser whose types are finite, every document", "why_tests_cant": "non-termination shows up only for particular schema/document combinations", "anchors": ["xsd-internal/src/ast/leaf.rs: from_xml_impl (while lookahead)", "xsd-internal/src/ast/root.rs: lookahead_impl"]}
{"id": "C18", "title": "Decoded values have the declared Rust type", "statement": "Whenever generated from_xml code returns Ok(v), v inhabits the type that the generated declaration gives to that field/struct/enum (the generator's declaration and reader agree).", "quantifier": "every schema, document and generated type", "why_tests_cant": "relates two independently generated code fragments for every schema", "anchors": ["xsd-internal/src/ast/root.rs: to_declaration vs from_xml_impl", "xsd-internal/src/ast/leaf.rs: to_impl vs from_xml_impl", "xsd-internal/src/ast/attribute.rs"]}
{"id": "C19", "title": "Required elements and attributes are enforced", "statement": "If from_xml returns Ok then every required (minOccurs>=1, non-list) child element and every use=required attribute of every decoded element was present; otherwise the error is MissingElement/MissingAttribute for the first missing one.", "quantifier": "every schema, every document", "why_tests_cant": "every document and every position of the missing item", "anchors": ["xsd-internal/src/ast/leaf.rs: try_next_child/try_child", "xsd-internal/src/ast/attribute.rs: try_attribute"]}
{"id": "C20", "title": "Sequence order is enforced", "statement": "For a sequence of required single elements, from_xml accepts a list of element children only if it starts with exactly those elements in schema order.", "quantifier": "every sequence length, every permutation or interleaving of children", "why_tests_cant": "factorially many orders", "anchors": ["xsd-internal/src/ast/leaf.rs: from_xml_impl", "xsd/src/decode.rs: next_child"]}
{"id": "C21", "title": "xs:all accepts every order", "statement": "For an xs:all group, from_xml gives the same value for every permutation of the element children.", "quantifier": "every xs:all group, every permutation", "why_tests_cant": "factorially many permutations; the test tries one", "anchors": ["xsd-internal/src/ast/leaf.rs: is_unordered branch", "xsd-internal/src/xsd/parse/complex_type.rs"]}
{"id": "C22", "title": "Repeated elements are read as the maximal run", "statement": "A maxOccurs>1 element field is read as exactly the maximal run of consecutive matching children, in order, and the number of items respects minOccurs/maxOccurs.", "quantifier": "every run length, every occurrence bound", "why_tests_cant": "unbounded lengths and bounds", "anchors": ["xsd-internal/src/ast/leaf.rs: is_vec branch", "xsd-internal/src/ast/leaf.rs: MinOccurs/MaxOccurs"]}
{"id": "C23", "title": "Choice picks the first alternative that matches the next element", "statement": "Decoding a choice selects the first alternative in schema order whose leading element is the next unread child, and fails with MissingVariant iff no alternative matches.", "quantifier": "every choice, every document", "why_tests_cant": "all combinations of alternatives and documents", "anchors": ["xsd-internal/src/ast/root.rs: from_xml_impl (Choice), lookahead_impl"]}
{"id": "C24", "title": "fixed values are enforced", "statement": "An element or attribute declared fixed=\"f\" is accepted only with value f (FixedMismatch otherwise) and is always written as f.", "quantifier": "every fixed value, every document", "why_tests_cant": "every wrong value; tests only use the right one", "anchors": ["xsd-internal/src/ast/leaf_content.rs: from_xml_impl/from_str_impl (Fixed)", "xsd-internal/src/ast/attribute.rs"]}
{"id": "C25", "title": "Enumeration values and variants correspond one to one", "statement": "Every enumeration value gets its own variant with a distinct name; as_str and from_str are mutually inverse between variants and enumeration values; any other string is rejected with InvalidVariant.", "quantifier": "every list of enumeration values", "why_tests_cant": "collisions after case conversion, empty names and the numbering loop depend on the whole list", "anchors": ["xsd-internal/src/ast/root.rs: to_declaration (Enum), escape_enum_names"]}
{"id": "C26", "title": "Literal values survive formatting and parsing", "statement": "For every bool, i32, i64, u64 and String value, parsing the written text gives the same value; out-of-range and malformed integers are rejected with ParseType.", "quantifier": "every value of each primitive type, every string", "why_tests_cant": "2^64 values, infinitely many strings", "anchors": ["xsd-internal/src/ast/literal_type.rs: to_xml_impl, from_str_impl"]}
{"id": "C27", "title": "Written names resolve to the names the reader expects", "statement": "Every element written by to_xml resolves, through the namespace declarations in scope, to the local name and namespace that the generated from_xml looks for.", "quantifier": "every schema (qualified or not, with or without target namespace, with imports), every value", "why_tests_cant": "depends on the whole chain of enclosing namespace declarations", "anchors": ["xsd-internal/src/xsd/context.rs: get_xml_element_name, quote_xml_namespace", "xsd-internal/src/xsd/schema.rs: element_ns", "xsd-internal/src/ast/root.rs: Choice name_xml"]}
{"id": "C28", "title": "Unknown trailing content is ignored", "statement": "Adding attributes with undeclared names, or element children after the last one the reader consumes, does not change an Ok result.", "quantifier": "every schema, every accepted document, every addition that the last reader would not consume", "why_tests_cant": "every document and addition", "anchors": ["xsd/src/decode.rs: Node", "xsd-internal/src/ast/element_definition.rs: from_xml_impl"]}
{"id": "C29", "title": "Facet restrictions constrain decoded values", "statement": "A value read by from_xml for a simpleType satisfies the length/pattern/range facets declared in the schema.", "quantifier": "every restriction, every document", "why_tests_cant": "every facet value and every text", "anchors": ["xsd-internal/src/ast/leaf_definition.rs: Restriction", "xsd-internal/src/xsd/parse/simple_type.rs"]}
{"id": "C30", "title": "Attribute defaults are applied", "statement": "An absent attribute with a declared default reads as that default.", "quantifier": "every attribute default, every document", "why_tests_cant": "every default value", "anchors": ["xsd-internal/src/ast/attribute.rs: default", "xsd-internal/src/xsd/parse/attribute.rs"]}
{"id": "C31", "title": "Namespace table is a bijection", "statement": "Across any sequence of namespace registrations, equal URIs always get the same id, different URIs different ids and different prefixes, ids never change, and looking an id up returns the URI it was created for.", "quantifier": "every sequence of registrations", "why_tests_cant": "all histories", "anchors": ["xsd-internal/src/ast/namespaces.rs: Namespaces::{get_or_insert,get,get_by_id}"]}
{"id": "C32", "title": "No dangling namespace ids", "statement": "Every name in a successfully parsed schema (including all imported and included files) has a namespace id known to the schema's namespace table, so code generation never panics with 'inconsistent namespace state'.", "quantifier": "every schema document and every file system", "why_tests_cant": "arbitrary nesting of includes and type references", "anchors": ["xsd-internal/src/xsd/context.rs", "xsd-internal/src/xsd/schema.rs: take_shared/set_shared/into_shared", "xsd-internal/src/ast/namespaces.rs: get_by_id"]}
{"id": "C33", "title": "Type reference resolution", "statement": "A QName in type/ref/base resolves to a literal iff its namespace is the XSD namespace and its local part is supported, fails with MissingNamespace iff its prefix is undeclared and with UnsupportedType iff it names an unknown XSD type, and otherwise names the type with that local part in the namespace bound to the prefix.", "quantifier": "every reference string and every set of namespace declarations", "why_tests_cant": "all strings, including colons and empty parts", "anchors": ["xsd-internal/src/xsd/context.rs: get_type_name, literal_from_str"]}
{"id": "C34", "title": "Occurrence attributes are read exactly", "statement": "minOccurs/maxOccurs default to 1, accept exactly the u32 numerals (and 'unbounded' for maxOccurs), and everything else is a ParseInt error; a field is optional iff minOccurs is 0 and a list iff maxOccurs is unbounded or above 1.", "quantifier": "every attribute value", "why_tests_cant": "every string", "anchors": ["xsd-internal/src/xsd/parse/element.rs: parse_min_occurs, parse_max_occurs", "xsd-internal/src/ast/leaf.rs: is_optional, is_vec"]}
{"id": "C35", "title": "Unsupported schema attributes are rejected", "statement": "If parsing succeeds, then no element declaration, complexType, simpleType, sequence, choice or non-prohibited attribute declaration that was interpreted carried a namespace-less attribute that the parser did not interpret.", "quantifier": "every schema document", "why_tests_cant": "every attribute name on every schema node", "anchors": ["xsd-internal/src/xsd/node.rs: prevent_unvisited_attributes", "xsd-internal/src/xsd/parse/"]}
{"id": "C36", "title": "Unsupported schema children are rejected", "statement": "If parsing a complexType, simpleType, simpleContent, complexContent, top-level element, or attribute succeeds then every XSD-namespace child was interpreted; sequence, choice and restriction reject unknown children.", "quantifier": "every schema document", "why_tests_cant": "every child combination", "anchors": ["xsd-internal/src/xsd/node.rs: prevent_unvisited_children", "xsd-internal/src/xsd/parse/"]}
{"id": "C37", "title": "Particles are kept in order", "statement": "The fields generated for a sequence/all and the alternatives generated for a choice correspond one to one, in document order, to the non-annotation children of the schema node.", "quantifier": "every sequence/all/choice", "why_tests_cant": "unbounded lists", "anchors": ["xsd-internal/src/xsd/parse/sequence.rs", "xsd-internal/src/xsd/parse/choice.rs", "xsd-internal/src/xsd/parse/complex_type.rs"]}
{"id": "C38", "title": "Attribute use", "statement": "use=prohibited attributes never appear in the generated type, use=required ones are mandatory, optional or missing use gives an Option field, other values and a default on a required attribute are rejected.", "quantifier": "every attribute declaration", "why_tests_cant": "every combination of attributes", "anchors": ["xsd-internal/src/xsd/parse/attribute.rs"]}
{"id": "C39", "title": "include/import merges definitions", "statement": "After a successful parse, each top-level definition of the main document and of every transitively included document is available under its name, the last definition in processing order winning.", "quantifier": "every file system and include graph without cycles", "why_tests_cant": "arbitrary include trees", "anchors": ["xsd-internal/src/xsd/schema.rs: parse_schema_with_context"]}
{"id": "C40", "title": "Schema parsing terminates", "statement": "parse_file returns (a schema or an error) for every finite set of schema files.", "quantifier": "every file system, including cyclic includes", "why_tests_cant": "needs an argument over all include graphs", "anchors": ["xsd-internal/src/xsd/schema.rs: parse_schema_with_context (TODO: prevent circular includes)"]}
{"id": "C41", "title": "Errors are attributed to the right file", "statement": "A parse error is reported with the path of the file that contains the offending node, at the position of that node in that file, however deep the include chain.", "quantifier": "every include depth", "why_tests_cant": "arbitrary include depth", "anchors": ["xsd-internal/src/xsd/schema.rs: parse_with_context", "xsd-internal/src/xsd/error.rs: range"]}
{"id": "C42", "title": "Documentation is normalised without losing words", "statement": "The documentation text attached to generated items is the original text with every run of whitespace replaced by one space and no leading or trailing whitespace; normalising twice changes nothing; the words are unchanged.", "quantifier": "every documentation string", "why_tests_cant": "all strings", "anchors": ["xsd-internal/src/xsd/parse/annotation.rs: cleanup_docs"]}
{"id": "C43", "title": "Virtual names come from a real common prefix or suffix", "statement": "The shortened name of a group is a common prefix (or suffix) of the snake-cased names of all its members when one exists, and otherwise the concatenation of the capitalised member names.", "quantifier": "every list of member names", "why_tests_cant": "all lists of names", "anchors": ["xsd-internal/src/xsd/parse/mod.rs: derive_virtual_name, derive_mutal_prefix, mutal_prefix, derive_mutal_suffix, mutal_suffix"]}
{"id": "C44", "title": "Name derivation does not panic", "statement": "Deriving a virtual type name never panics, whatever the XML names in the schema.", "quantifier": "every list of XML names, including non-ASCII ones", "why_tests_cant": "needs all strings; the byte slice [0..1] is only safe for some", "anchors": ["xsd-internal/src/xsd/parse/mod.rs: derive_virtual_name"]}
{"id": "C45", "title": "Distinct definitions never overwrite each other", "statement": "Every top-level definition and every anonymous type of a schema document keeps its own generated type.", "quantifier": "every schema document", "why_tests_cant": "collisions depend on pairs of names anywhere in the schema", "anchors": ["xsd-internal/src/xsd/context.rs: add_root", "xsd-internal/src/xsd/parse/element.rs", "xsd-internal/src/xsd/parse/choice.rs", "xsd-internal/src/xsd/parse/sequence.rs"]}
{"id": "C46", "title": "Dependency generation emits exactly the reachable types once", "statement": "generate_element_and_dependencies terminates on every dependency graph (including cyclic ones), and emits code for exactly the names reachable from the requested one that were not already generated, each once; afterwards all of them are marked as generated.", "quantifier": "every dependency graph, every start name, every already-generated set", "why_tests_cant": "all graphs", "anchors": ["xsd-internal/src/xsd/schema.rs: generate_element_and_dependencies"]}
{"id": "C47", "title": "Emitted code is self-contained", "statement": "If generate_element_and_dependencies succeeds for a top-level type, every type referenced by the emitted code is itself emitted (or was already generated).", "quantifier": "every schema document, every top-level name", "why_tests_cant": "arbitrary nesting of anonymous types and groups", "anchors": ["xsd-internal/src/xsd/context.rs: discover_type", "xsd-internal/src/xsd/parse/"]}
{"id": "C48", "title": "Resolving simple-type aliases terminates", "statement": "Following type aliases during code generation ends for every parsed schema.", "quantifier": "every schema", "why_tests_cant": "cyclic aliases arise from particular name combinations", "anchors": ["xsd-internal/src/xsd/context.rs: resolve", "xsd-internal/src/ast/leaf_content.rs: to_impl/to_xml_impl/from_xml_impl"]}
{"id": "C49", "title": "Every schema name becomes a legal Rust identifier", "statement": "The identifier generated for a schema name is never a bare Rust keyword and never an invalid raw identifier.", "quantifier": "every name", "why_tests_cant": "all strings against the full keyword table", "anchors": ["xsd-internal/src/utils.rs: escape_ident"]}
{"id": "C50", "title": "Results do not depend on hash iteration order", "statement": "The parsed schema, the set of generated items and every decoding/encoding result are the same for every iteration order of the internal hash maps.", "quantifier": "every iteration order of every internal map", "why_tests_cant": "the order is randomised per process; one run samples one order", "anchors": ["xsd-internal/src/xsd/schema.rs: generate_all, merge imports", "xsd-internal/src/ast/root.rs: escape_enum_names", "xsd-internal/src/ast/namespaces.rs: iter"]}
{"id": "C51", "title": "elementFormDefault controls element namespaces", "statement": "Local elements are in the target namespace iff elementFormDefault is qualified, top-level elements always are, attributes never are.", "quantifier": "every schema document", "why_tests_cant": "every name at every nesting depth", "anchors": ["xsd-internal/src/xsd/context.rs: get_node_name, is_qualified", "xsd-internal/src/xsd/parse/element.rs", "xsd-internal/src/xsd/parse/attribute.rs"]}
{"id": "C52", "title": "Foreign-namespace attributes do not influence the schema", "statement": "Adding attributes from other namespaces to schema nodes does not change the parse result.", "quantifier": "every schema document, every foreign attribute", "why_tests_cant": "any attribute name may clash with an XSD one", "anchors": ["xsd-internal/src/xsd/node.rs: From<roxmltree::Node>, attribute, prevent_unvisited_attributes"]}
{"id": "C53", "title": "simpleType restrictions", "statement": "A simpleType with enumerations becomes an enum with exactly the enumeration values in order; without enumerations it becomes a newtype of the base literal carrying exactly the declared facets in order; a non-literal base is rejected.", "quantifier": "every simpleType", "why_tests_cant": "unbounded facet lists", "anchors": ["xsd-internal/src/xsd/parse/simple_type.rs"]}
{"id": "C54", "title": "Extended base types keep their attributes", "statement": "Values of a complexContent extension are written with all attributes of the base type.", "quantifier": "every extension, every value", "why_tests_cant": "only visible for bases with attributes combined with a sequence, which no test covers", "anchors": ["xsd-internal/src/xsd/parse/complex_content.rs", "xsd-internal/src/ast/element_definition.rs: to_xml_impl", "xsd/src/lib.rs: Context::wrap"]}
{"id": "C55", "title": "Every schema definition is emitted exactly once by generate_all", "statement": "generate_all emits one type for each name in the schema, and no others, and never fails with NotFound.", "quantifier": "every parsed schema", "why_tests_cant": "all schemas", "anchors": ["xsd-internal/src/xsd/schema.rs: generate_all, generate_element"]}
{"id": "C56", "title": "Generated type identifiers are unique", "statement": "Two different schema names never produce the same Rust type identifier.", "quantifier": "every pair of names in a schema", "why_tests_cant": "all pairs of names, after case conversion and namespace erasure", "anchors": ["xsd-internal/src/xsd/schema.rs: generate_element (name_ident)", "xsd-internal/src/ast/name.rs: to_impl"]}
{"id": "C57", "title": "Existing module items are kept", "statement": "The attribute macro keeps every item, attribute and the visibility of the annotated module, in order, before the generated items.", "quantifier": "every annotated module and schema", "why_tests_cant": "all modules", "anchors": ["xsd-derive/src/generator.rs: generate"]}
{"id": "C58", "title": "Generated code compiles", "statement": "The module generated for an accepted schema is accepted by rustc: identifiers are legal and declared once, names resolve, every expression in readers and writers has the declared type, matches are exhaustive, types have finite size, the context is not used after it is moved.", "quantifier": "every schema for which code is generated", "why_tests_cant": "snapshot tests compare token streams and compile a handful of schemas; whether code compiles depends on the combination of shapes in the schema", "anchors": ["xsd-internal/src/ast/root.rs", "xsd-internal/src/ast/leaf.rs", "xsd-internal/src/ast/attribute.rs", "xsd-internal/src/xsd/schema.rs: generate_element"]}
{"id": "C59", "title": "Typed code does not go wrong", "statement": "In a module that compiles, from_xml of any declared type on any document does not panic and returns only values of the declared type, and to_xml of any value of a declared type succeeds.", "quantifier": "every module of the target language that is well typed (not only generated ones), every document, every value", "why_tests_cant": "all modules, documents and values", "anchors": ["xsd-internal/src/ast/root.rs", "xsd/src/decode.rs", "xsd/src/lib.rs"]}
{"id": "C60", "title": "When code is generated", "statement": "For a schema that was parsed, generating code for all definitions succeeds exactly if every name in it can be a Rust identifier after the conversion for the place where it is used (types and references in Pascal case, fields in snake case, variants) and no definition is an alias of itself; otherwise the generator panics or does not end. It never fails for another reason.", "quantifier": "every set of schema files, every order of the definitions, every case conversion", "why_tests_cant": "needs all schemas; failures come from unreachable!(), expect and format_ident! in any of about twenty functions", "anchors": ["xsd-internal/src/xsd/schema.rs: generate_all, generate_element", "xsd-internal/src/ast/root.rs", "xsd-internal/src/ast/leaf.rs", "xsd-internal/src/ast/leaf_content.rs", "xsd-internal/src/utils.rs: escape_ident"]}
{"id": "C61", "title": "The supported schemas", "statement": "A schema file is parsed exactly if it is supported: its root is xs:schema; each include and import names a file that is supported; each other XSD child is a named element, complexType or simpleType; and every node that is interpreted below has only attributes and children with a meaning, the required children and attributes exactly as often as they are allowed, references that resolve, numbers that can be read. Files that include each other are not supported.", "quantifier": "every set of schema files, every node at every depth", "why_tests_cant": "the accepted language is infinite and is given only implicitly, by about twenty functions that each reject something; a test shows one accepted or rejected file", "anchors": ["xsd-internal/src/xsd/schema.rs: parse_schema_with_context", "xsd-internal/src/xsd/parse/", "xsd-internal/src/xsd/node.rs"]}
{"id": "C62", "title": "Generated items show the documentation of what they are generated from", "statement": "Every generated struct, enum, field and variant carries as `#[doc]` exactly the normalised documentation of the schema declaration it is generated from: none is dropped, moved to another item or invented.", "quantifier": "every schema that parses, every definition, particle and attribute declaration in it", "why_tests_cant": "all schemas, nested definitions and annotations; a test can only compare single declarations", "anchors": ["xsd-internal/src/xsd/parse/annotation.rs: parse", "xsd-internal/src/ast/root.rs: docs, with_docs", "xsd-internal/src/ast/leaf.rs: to_impl", "xsd-internal/src/ast/attribute.rs: to_impl", "xsd-internal/src/xsd/schema.rs: generate_element"]}
{"id": "C63", "title": "From schema files to documents and back", "statement": "For every set of schema files the tool supports: code is generated and compiles; the generated from_xml of a component reads every document that is valid for its declaration in the files, into a value of the generated type, and what to_xml writes for that value is again a valid document that reads as the same value; what from_xml accepts is valid except for numbers of repetitions and for content after the declared one; every value of the generated type is written as a document that is valid except for numbers of repetitions; from_xml always returns.", "quantifier": "every set of schema files, every component, every document, every value", "why_tests_cant": "it composes the schema parser, the generator, the reader and the writer over all schemas and all documents", "anchors": ["xsd-internal/src/xsd/schema.rs: parse_file, generate_all", "xsd-internal/src/xsd/parse", "xsd-internal/src/ast", "xsd/src/lib.rs", "xsd/src/decode.rs"]}
{"id": "C64", "title": "Code depends only on what a type refers to", "statement": "The code generated for a type, what its from_xml and to_xml do, and which documents are valid for it depend only on the namespaces of the schema and on the definitions the type refers to, directly or indirectly: other definitions can be added, removed or changed without any effect. In particular the code that generate_element_and_dependencies emits for a name, if it contains all types it refers to, does the same as in the module of the whole schema.", "quantifier": "every pair of schemas that agree on the definitions a type needs, every document, every value", "why_tests_cant": "it compares the generated code and its behaviour over all pairs of schemas, documents and values", "anchors": ["xsd-internal/src/xsd/schema.rs:152-322", "xsd-internal/src/ast", "xsd-internal/src/xsd/context.rs:152-187"]}
{"id": "C65", "title": "Documents that are valid for nested schemas are read and written", "statement": "For every set of schema files the tool supports, with any nesting of sequences, choices and anonymous types, xs:all, element references and extensions: the generated code compiles; from_xml of a top-level element or type returns on every document without panic; it reads every document that is valid for the nodes of the schema files, into a value of the type, and to_xml writes that value as a document that is again valid, number of occurrences included, and that reads, indented in any way, as the same value; what from_xml accepts is valid except for numbers of repetitions and for content after the declared one; and every value of the type is written as a document that is valid except for numbers of repetitions.", "quantifier": "every set of schema files, every top-level element and type, every document, every value", "why_tests_cant": "validity is defined by recursion over schema nodes and documents of any depth; a test only compares single documents", "anchors": ["xsd-internal/src/xsd/parse/mod.rs", "xsd-internal/src/xsd/parse/sequence.rs", "xsd-internal/src/xsd/parse/choice.rs", "xsd-internal/src/xsd/parse/complex_type.rs", "xsd-internal/src/xsd/parse/complex_content.rs", "xsd-internal/src/xsd/parse/element.rs", "xsd-internal/src/xsd/schema.rs: parse_file, generate_all", "xsd-internal/src/ast", "xsd/src/decode.rs"]}
{"id": "C66", "title": "Errors of generated readers name what is wrong with the document", "statement": "If from_xml fails, its error is true of the document and of the first place in reading order where the schema is not followed: MissingElement names the root element asked for if the root is another one, or the first required child that is not next (for xs:all: not there at all) after the members before it have been read; MissingVariant names a choice none of whose alternatives can start with the next child; TextExpected names an element due to have text that starts with something else; ParseType, InvalidVariant and FixedMismatch quote a text or attribute value of the document that is not of the type, not one of the values, or not the fixed value; MissingAttribute names the first required attribute that the element does not have.", "quantifier": "every generated module whose groups are groups, every type, every document, every error", "why_tests_cant": "the errors arise at any depth of nested types, groups and repetitions; a test checks one error of one document", "anchors": ["xsd/src/decode.rs: FromXmlError, Node::try_next_child, Node::try_child, Node::try_attribute, Node::text", "xsd-internal/src/ast/root.rs: from_xml_impl, lookahead_impl", "xsd-internal/src/ast/leaf.rs: from_xml_impl", "xsd-internal/src/ast/attribute.rs: from_xml_impl"]}
{"id": "C67", "title": "Values survive the text that is written for them", "statement": "from_xml returns on every text, well-formed or not, without panic. Whatever it reads from a text consists of characters of XML that occur in the document, is the text of a document valid for the schema files (up to repetitions and trailing content), and is written by to_xml as a text that is well-formed, valid, and read as the same value; so is every other text that an XML writer may produce for the same tags and texts, with any escaping, quotes, line breaks and repeated namespace declarations.", "quantifier": "every generated module of the supported class, every text, every value, every correct XML writer", "why_tests_cant": "there is no bound on texts, and escaping has to be right for each character in each position", "anchors": ["xsd/src/decode.rs: decode", "xsd-internal/src/xsd/schema.rs: generate_element (to_xml, from_xml)", "xsd/src/lib.rs: Context"]}
{"id": "C68", "title": "Errors point to the text of schema files", "statement": "When Schema::parse_file fails, the error names a file that is read directly or through includes. Either that file cannot be read, or its text is not well-formed XML, or at the row and column that the error reports there stands in the text of the file the start tag of the element, or the attribute, that the error names, and what the error says about it is true. The names, attributes and namespaces that the parser works with are those of the start tags in the text.", "quantifier": "every set of files with any texts, any depth of includes", "why_tests_cant": "positions depend on every character before the place: line breaks of all kinds, comments, characters of several bytes; tests have a few short files", "anchors": ["xsd-internal/src/xsd/error.rs: XsdError", "xsd-internal/src/xsd/schema.rs: parse_file, SchemaError", "xsd-internal/src/xsd/node.rs: range, attribute ranges"]}
{"id": "C69", "title": "from_xml returns exactly the outcome of following the schema", "statement": "A call of from_xml returns a value or an error if and only if that is the outcome of following the schema through the document once, from the front, without backtracking: members in the declared order; a required element takes the next child, a required member of an xs:all the first child of its name; an optional or repeated member is read if, and as long as, the next child can be its first; of a choice the first alternative that the next child can start; attributes after the content; left over children are ignored; the first failure is the error. Every document has exactly one outcome.", "quantifier": "every generated module whose types are finite and whose groups are groups, every type, every document, every result", "why_tests_cant": "tests compare single results; this fixes the result, value or error, for every document, also for those that are neither valid nor rejected", "anchors": ["xsd-internal/src/ast/root.rs: from_xml_impl, lookahead_impl", "xsd-internal/src/ast/leaf.rs: from_xml_impl, lookahead_impl", "xsd-internal/src/ast/leaf_content.rs: from_xml_impl", "xsd-internal/src/ast/attribute.rs: from_xml_impl", "xsd/src/decode.rs: Node"]}
{"id": "C70", "title": "Messages identify errors", "statement": "Two failures with the same message are the same error. For schemas: the message of the attribute macro determines the row and the column, and, if the path in it has no closing parenthesis (for a file that cannot be read: no colon), also the file, the kind of the error and all names and values in it. For documents: the message of a failed from_xml determines the error with all names and values in it, if names of elements have no spaces, fixed values no backticks and the message of the number parser no colon.", "quantifier": "every two sets of schema files with any texts; every two generated modules, types and documents", "why_tests_cant": "a message can only be confused with another one by an unlucky choice of names and values; tests compare a few messages at most", "anchors": ["xsd-internal/src/xsd/error.rs: XsdError", "xsd-internal/src/xsd/node.rs: NodeError", "xsd-internal/src/xsd/schema.rs: SchemaError", "xsd-derive/src/lib.rs: all, generate", "xsd/src/decode.rs: FromXmlError"]}
{"id": "C71", "title": "The schema does not depend on how it is written down", "statement": "Two sets of schema files that say the same give the same schema and the same code, or fail both with the same kind of error in the same file. Files say the same if they differ only in which prefixes stand for which namespaces, in the order of attributes, in comments, white space and elements of other namespaces between the elements of the schema, in attributes of other namespaces, and in where things stand in the text.", "quantifier": "every two sets of files, any depth of includes", "why_tests_cant": "it compares all ways to write a schema down, in every combination", "anchors": ["xsd-internal/src/xsd/context.rs: Context::new, get_type_name", "xsd-internal/src/xsd/node.rs", "xsd-internal/src/xsd/parse", "xsd-internal/src/xsd/schema.rs: parse_schema_with_context"]}
{"id": "C72", "title": "Schema nodes keep track of what was looked at", "statement": "After any sequence of lookups on a schema node: attribute(name) returns the last attribute with that local name; prevent_unvisited_attributes fails exactly if an attribute without namespace that is the last of its local name was never asked for, and then names such an attribute; removing children returns each time the first that is left with the name; loops that remove until there is none visit all of them in document order and end; prevent_unvisited_children fails exactly if a child is left and names the first. Filters select the children that meet their conditions, and looking up the prefix found for a namespace returns the namespace. All this agrees with the view that the rest of the parser model has.", "quantifier": "every element, every iteration order of the attribute map, every sequence of lookups and removals, every filter", "why_tests_cant": "the flags and the remaining children depend on the whole sequence of calls, and the order of the hash map differs between runs", "anchors": ["xsd-internal/src/xsd/node.rs"]}
{"id": "C73", "title": "Old documents survive optional additions to the schema", "statement": "If a schema is extended by elements and attributes that may be missing, by further alternatives of choices, further values of enumerations and further types, then code generated for the new schema reads every document in which nothing of that occurs like the code generated for the old one: the same error, or the same value with None in all fields that were added and the variants of enumerations that stand for the same values. Every value of an old type has exactly one such counterpart, different values have different ones, and the counterpart is written as the same document. Conversely, if the old code always returns, whatever the new code makes of such a document the old code makes of it too, and what the new code writes for the counterpart of a value that the old code has read is read back by the old code as that value. Two extensions, one after the other, are one extension, with the same counterparts.", "quantifier": "every two schemas of which one extends the other in any number of places, every document, every value", "why_tests_cant": "it relates two generated programs, for all pairs of schemas and all documents", "anchors": ["xsd-internal/src/ast/leaf.rs: to_xml_impl, from_xml_impl", "xsd-internal/src/ast/attribute.rs", "xsd-internal/src/ast/root.rs: from_xml_impl, lookahead_impl", "xsd/src/decode.rs"]}
{"id": "C74", "title": "The value does not depend on how the document is written down", "statement": "Two documents that say the same are read the same by from_xml: the same value or the same error. Documents say the same if they differ only in which prefixes stand for which namespaces and where these are declared, in the order of attributes, in references, CDATA sections and quotes, in what comments and processing instructions say, and in where things stand in the text.", "quantifier": "every generated module, every type, every two texts", "why_tests_cant": "it compares all ways to write a document down, in every combination", "anchors": ["xsd/src/decode.rs: Node", "xsd-internal/src/ast/root.rs: from_xml_impl", "xsd-internal/src/ast/attribute.rs: from_xml_impl"]}
{"id": "C75", "title": "Including a file again changes nothing", "statement": "If a schema file gets one more include or import, of a file that has been read for one of the earlier includes or imports, directly or through other files, then it is still parsed successfully, and the schema is the same: the same types under the same names, the same namespaces with the same ids and prefixes, the same dependencies. The exception are definitions that another definition with the same name has replaced in between: these may be back. Reading a file again, whenever its namespaces and dependencies are known, gives the same types and adds nothing.", "quantifier": "every set of schema files, every position of the additional include, every chain of includes through which the file was read before", "why_tests_cant": "the parser reads the file a second time, in another state: with namespaces, types and dependencies of everything that was read in between", "anchors": ["xsd-internal/src/xsd/schema.rs: parse_schema_with_context", "xsd-internal/src/xsd/context.rs: discover_type, get_type_name, add_root", "xsd-internal/src/ast/namespaces.rs: get_or_insert"]}
{"id": "C76", "title": "A schema can be split into files", "statement": "Moving consecutive top-level definitions of a schema file, which may themselves be includes, to a file of their own in the same directory, with the same schema element, and including or importing that file in their place, changes nothing: the one is parsed successfully if and only if the other is, and the schemas are equal, with the same types under the same names, namespaces with the same ids, and dependencies.", "quantifier": "every set of schema files, every run of children of a schema element, also if definitions replace others", "why_tests_cant": "it relates two sets of files for every way to split a schema; the included part is parsed in a new context and its types are merged afterwards", "anchors": ["xsd-internal/src/xsd/schema.rs: parse_schema_with_context, parse_file_with_context", "xsd-internal/src/xsd/context.rs: new, add_root, into_schema"]}
{"id": "C77", "title": "Only included files matter, and not where they are", "statement": "If the files that are included, directly or indirectly, have the same content and their includes lead to each other in the same way, then parse_file returns the same schema, or the same error at the same row and column in the corresponding file, wherever the files are. Other files, and what they contain, do not matter.", "quantifier": "every two file systems, every correspondence of files, every schema file", "why_tests_cant": "it compares all file systems in which the included files are the same", "anchors": ["xsd-internal/src/xsd/schema.rs: parse_file, parse_file_with_context, parse_schema_with_context"]}
{"id": "C78", "title": "Annotations do not influence the code", "statement": "If two sets of schema files differ only in annotations, in text and comments between elements, and in where things stand in the files, and both are accepted, then the code that is generated is the same, apart from #[doc] attributes: for the whole schema and for every name with what it depends on. Removing all annotations from files that are accepted gives files that are accepted.", "quantifier": "every two sets of files, every schema file, every name", "why_tests_cant": "it compares all schemas that differ in annotations, at all places where they are allowed", "anchors": ["xsd-internal/src/xsd/parse/annotation.rs: parse", "xsd-internal/src/xsd/parse/mod.rs: parse_annotation", "xsd-internal/src/xsd/parse/sequence.rs: parse", "xsd-internal/src/xsd/parse/choice.rs: parse", "xsd-internal/src/ast/root.rs: with_docs, to_declaration"]}
{"id": "C79", "title": "The order of definitions does not matter", "statement": "If the children of an xs:schema element that is accepted are put into another order (definitions, includes and imports alike), or some of them are repeated, then the result is accepted too, with the same type under every name and the same dependencies, and the code is the same items in some order. This requires that no two of the children give different types to one name, and that no namespace but the target namespace is used; if other namespaces are used, the schemas are the same whenever both orders are accepted and number the namespaces alike.", "quantifier": "every schema file, every order of its children", "why_tests_cant": "the number of orders grows with the factorial of the number of definitions", "anchors": ["xsd-internal/src/xsd/schema.rs: parse_schema_with_context, generate_all, generate_element_and_dependencies", "xsd-internal/src/xsd/context.rs: add_root, discover_type, get_type_name", "xsd-internal/src/ast/namespaces.rs: get_or_insert"]}
{"id": "C80", "title": "Prefixes do not matter", "statement": "If the namespace prefixes in schema files are replaced by others, in each file by others, or the namespace of XML Schema is made the default namespace, such that every qualified name (in type, base and ref attributes) still means the same name, then the files are accepted if and only if they were before, and exactly the same schema is read from them, so the code is the same. (Making another namespace the default one does change what is read, although it should not.)", "quantifier": "every set of schema files, every consistent change of prefixes", "why_tests_cant": "there are infinitely many schemas and ways to choose prefixes", "anchors": ["xsd-internal/src/xsd/context.rs: Context::new, get_type_name", "xsd-internal/src/xsd/schema.rs: parse_schema_with_context", "xsd-internal/src/xsd/parse/*.rs: all functions of the parser"]}
{"id": "C81", "title": "The order of attributes and foreign markup do not matter", "statement": "If in schema files the attributes of elements are put into another order, comments, text, elements of other namespaces or attributes of other namespaces are added or removed (anywhere but at the beginning of a documentation), or elements move to other places in the text, then the files are accepted if and only if they were before, and exactly the same schema is read from them, including the documentation, so the code is the same. This requires that foreign attributes on elements of XML Schema are not named like attributes of XML Schema (they would be taken for these).", "quantifier": "every set of schema files, every such change", "why_tests_cant": "there are infinitely many schemas, orders and things to add", "anchors": ["xsd-internal/src/xsd/node.rs: attribute, try_attribute, children, child, prevent_unvisited_attributes, remove, remove_all, text", "xsd-internal/src/xsd/schema.rs: parse_schema_with_context", "xsd-internal/src/xsd/parse/*.rs: all functions of the parser"]}
