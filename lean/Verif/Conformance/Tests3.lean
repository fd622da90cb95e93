import Verif.Conformance.Covered
/-!
# Tests of the repository, evaluated in the model

Made by `tools/conformance.py`.
-/
namespace Xsd.Conformance

/-! ## `element_simple_type.rs` -/

namespace element_simple_type_test

/-- `xsd/tests/xsd/element_simple_type.xsd` -/
def element_simple_type_xsd : Elem := (⟨⟨c!"schema", (some c!"http://www.w3.org/2001/XMLSchema")⟩, [], [((some c!"xs"), c!"http://www.w3.org/2001/XMLSchema")], 22⟩,
  [.text c!"\n  ",
   .elem ⟨⟨c!"element", (some c!"http://www.w3.org/2001/XMLSchema")⟩, [⟨c!"name", none, c!"count", 92⟩], [((some c!"xs"), c!"http://www.w3.org/2001/XMLSchema")], 80⟩
     [.text c!"\n    ",
      .elem ⟨⟨c!"simpleType", (some c!"http://www.w3.org/2001/XMLSchema")⟩, [], [((some c!"xs"), c!"http://www.w3.org/2001/XMLSchema")], 110⟩
       [.text c!"\n      ",
        .elem ⟨⟨c!"restriction", (some c!"http://www.w3.org/2001/XMLSchema")⟩, [⟨c!"base", none, c!"xs:integer", 148⟩], [((some c!"xs"), c!"http://www.w3.org/2001/XMLSchema")], 132⟩
         [],
        .text c!"\n    "],
      .text c!"\n  "],
   .text c!"\n"])

/-- The text of `xsd/tests/xsd/element_simple_type.xsd`. -/
def element_simple_type_text : Str := c!"<?xml version=\"1.0\"?>\n<xs:schema xmlns:xs=\"http://www.w3.org/2001/XMLSchema\">\n  <xs:element name=\"count\">\n    <xs:simpleType>\n      <xs:restriction base=\"xs:integer\" />\n    </xs:simpleType>\n  </xs:element>\n</xs:schema>"

/-- The schema files. -/
def dir : Files := directory [(c!"element_simple_type.xsd", element_simple_type_text, element_simple_type_xsd)]

/-- The texts of the schema files. -/
def texts : TextFiles := textDirectory [(c!"element_simple_type.xsd", element_simple_type_text)]

theorem texts_files : texts.files = dir := directory_texts (fs := [(c!"element_simple_type.xsd", element_simple_type_text, element_simple_type_xsd)]) (by decide +kernel)

/-- `xsd/tests/xsd/element_simple_type.xml` -/
def xml : Doc := ⟨(⟨⟨c!"count", none⟩, [], [], 39⟩,
  [.text c!"42"])⟩

/-- The tags and texts that are written (`xsd/tests/element_simple_type.rs`). -/
def written : List Ev :=
  [.start c!"count" [] [],
   .chars c!"42",
   .fin]

/-- The expected value (`xsd/tests/element_simple_type.rs`). -/
def expected : Val := .newtype (.int 42)

/-- The text of `xsd/tests/xsd/element_simple_type.xml`. -/
def text : Str := c!"<?xml version=\"1.0\" encoding=\"UTF-8\"?>\n<count>42</count>"

/-- The text that is written. -/
def writtenText : Str := text

example : passes dir c!"element_simple_type.xsd" c!"Count" xml written expected = true := by decide +kernel

example : passesText texts.files c!"element_simple_type.xsd" c!"Count" text writtenText expected = true := by rw [texts_files]; decide +kernel

example : Covered dir c!"element_simple_type.xsd" true := coveredB_sound (by decide +kernel)

end element_simple_type_test

/-! ## `element_type_complex.rs` -/

namespace element_type_complex_test

/-- `xsd/tests/xsd/element_type_complex.xsd` -/
def element_type_complex_xsd : Elem := (⟨⟨c!"schema", (some c!"http://www.w3.org/2001/XMLSchema")⟩, [], [((some c!"xs"), c!"http://www.w3.org/2001/XMLSchema")], 22⟩,
  [.text c!"\n  ",
   .elem ⟨⟨c!"element", (some c!"http://www.w3.org/2001/XMLSchema")⟩, [⟨c!"name", none, c!"article", 92⟩], [((some c!"xs"), c!"http://www.w3.org/2001/XMLSchema")], 80⟩
     [.text c!"\n    ",
      .elem ⟨⟨c!"complexType", (some c!"http://www.w3.org/2001/XMLSchema")⟩, [], [((some c!"xs"), c!"http://www.w3.org/2001/XMLSchema")], 112⟩
       [.text c!"\n      ",
        .elem ⟨⟨c!"sequence", (some c!"http://www.w3.org/2001/XMLSchema")⟩, [], [((some c!"xs"), c!"http://www.w3.org/2001/XMLSchema")], 135⟩
         [.text c!"\n        ",
          .elem ⟨⟨c!"element", (some c!"http://www.w3.org/2001/XMLSchema")⟩, [⟨c!"name", none, c!"excerpt", 169⟩, ⟨c!"type", none, c!"xs:string", 184⟩], [((some c!"xs"), c!"http://www.w3.org/2001/XMLSchema")], 157⟩
           [],
          .text c!"\n        ",
          .elem ⟨⟨c!"element", (some c!"http://www.w3.org/2001/XMLSchema")⟩, [⟨c!"name", none, c!"author", 224⟩, ⟨c!"type", none, c!"author", 238⟩], [((some c!"xs"), c!"http://www.w3.org/2001/XMLSchema")], 212⟩
           [],
          .text c!"\n      "],
        .text c!"\n    "],
      .text c!"\n  "],
   .text c!"\n  ",
   .elem ⟨⟨c!"complexType", (some c!"http://www.w3.org/2001/XMLSchema")⟩, [⟨c!"name", none, c!"author", 332⟩], [((some c!"xs"), c!"http://www.w3.org/2001/XMLSchema")], 316⟩
     [.text c!"\n    ",
      .elem ⟨⟨c!"sequence", (some c!"http://www.w3.org/2001/XMLSchema")⟩, [], [((some c!"xs"), c!"http://www.w3.org/2001/XMLSchema")], 351⟩
       [.text c!"\n      ",
        .elem ⟨⟨c!"element", (some c!"http://www.w3.org/2001/XMLSchema")⟩, [⟨c!"name", none, c!"name", 383⟩, ⟨c!"type", none, c!"xs:string", 395⟩], [((some c!"xs"), c!"http://www.w3.org/2001/XMLSchema")], 371⟩
         [],
        .text c!"\n    "],
      .text c!"\n  "],
   .text c!"\n"])

/-- The text of `xsd/tests/xsd/element_type_complex.xsd`. -/
def element_type_complex_text : Str := c!"<?xml version=\"1.0\"?>\n<xs:schema xmlns:xs=\"http://www.w3.org/2001/XMLSchema\">\n  <xs:element name=\"article\">\n    <xs:complexType>\n      <xs:sequence>\n        <xs:element name=\"excerpt\" type=\"xs:string\" />\n        <xs:element name=\"author\" type=\"author\" />\n      </xs:sequence>\n    </xs:complexType>\n  </xs:element>\n  <xs:complexType name=\"author\">\n    <xs:sequence>\n      <xs:element name=\"name\" type=\"xs:string\" />\n    </xs:sequence>\n  </xs:complexType>\n</xs:schema>"

/-- The schema files. -/
def dir : Files := directory [(c!"element_type_complex.xsd", element_type_complex_text, element_type_complex_xsd)]

/-- The texts of the schema files. -/
def texts : TextFiles := textDirectory [(c!"element_type_complex.xsd", element_type_complex_text)]

theorem texts_files : texts.files = dir := directory_texts (fs := [(c!"element_type_complex.xsd", element_type_complex_text, element_type_complex_xsd)]) (by decide +kernel)

/-- `xsd/tests/xsd/element_type_complex.xml` -/
def xml : Doc := ⟨(⟨⟨c!"article", none⟩, [], [], 39⟩,
  [.text c!"\n  ",
   .elem ⟨⟨c!"excerpt", none⟩, [], [], 51⟩
     [.text c!"Lorem Ipsum"],
   .text c!"\n  ",
   .elem ⟨⟨c!"author", none⟩, [], [], 84⟩
     [.text c!"\n    ",
      .elem ⟨⟨c!"name", none⟩, [], [], 97⟩
       [.text c!"Foobar"],
      .text c!"\n  "],
   .text c!"\n"])⟩

/-- The tags and texts that are written (`xsd/tests/element_type_complex.rs`). -/
def written : List Ev :=
  [.start c!"article" [] [],
   .start c!"excerpt" [] [],
   .chars c!"Lorem Ipsum",
   .fin,
   .start c!"author" [] [],
   .start c!"name" [] [],
   .chars c!"Foobar",
   .fin,
   .fin,
   .fin]

/-- The expected value (`xsd/tests/element_type_complex.rs`). -/
def expected : Val := .struct [(c!"excerpt", .str c!"Lorem Ipsum"), (c!"author", .struct [(c!"name", .str c!"Foobar")])]

/-- The text of `xsd/tests/xsd/element_type_complex.xml`. -/
def text : Str := c!"<?xml version=\"1.0\" encoding=\"UTF-8\"?>\n<article>\n  <excerpt>Lorem Ipsum</excerpt>\n  <author>\n    <name>Foobar</name>\n  </author>\n</article>"

/-- The text that is written. -/
def writtenText : Str := text

example : passes dir c!"element_type_complex.xsd" c!"Article" xml written expected = true := by decide +kernel

example : passesText texts.files c!"element_type_complex.xsd" c!"Article" text writtenText expected = true := by rw [texts_files]; decide +kernel

example : Covered dir c!"element_type_complex.xsd" true := coveredB_sound (by decide +kernel)

end element_type_complex_test

/-! ## `element_type_literal.rs` -/

namespace element_type_literal_test

/-- `xsd/tests/xsd/element_type_literal.xsd` -/
def element_type_literal_xsd : Elem := (⟨⟨c!"schema", (some c!"http://www.w3.org/2001/XMLSchema")⟩, [], [((some c!"xs"), c!"http://www.w3.org/2001/XMLSchema")], 22⟩,
  [.text c!"\n  ",
   .elem ⟨⟨c!"element", (some c!"http://www.w3.org/2001/XMLSchema")⟩, [⟨c!"name", none, c!"Name", 92⟩, ⟨c!"type", none, c!"xs:string", 104⟩], [((some c!"xs"), c!"http://www.w3.org/2001/XMLSchema")], 80⟩
     [],
   .text c!"\n"])

/-- The text of `xsd/tests/xsd/element_type_literal.xsd`. -/
def element_type_literal_text : Str := c!"<?xml version=\"1.0\"?>\n<xs:schema xmlns:xs=\"http://www.w3.org/2001/XMLSchema\">\n  <xs:element name=\"Name\" type=\"xs:string\" />\n</xs:schema>"

/-- The schema files. -/
def dir : Files := directory [(c!"element_type_literal.xsd", element_type_literal_text, element_type_literal_xsd)]

/-- The texts of the schema files. -/
def texts : TextFiles := textDirectory [(c!"element_type_literal.xsd", element_type_literal_text)]

theorem texts_files : texts.files = dir := directory_texts (fs := [(c!"element_type_literal.xsd", element_type_literal_text, element_type_literal_xsd)]) (by decide +kernel)

/-- `xsd/tests/xsd/element_type_literal.xml` -/
def xml : Doc := ⟨(⟨⟨c!"Name", none⟩, [], [], 39⟩,
  [.text c!"Foobar"])⟩

/-- The tags and texts that are written (`xsd/tests/element_type_literal.rs`). -/
def written : List Ev :=
  [.start c!"Name" [] [],
   .chars c!"Foobar",
   .fin]

/-- The expected value (`xsd/tests/element_type_literal.rs`). -/
def expected : Val := .newtype (.str c!"Foobar")

/-- The text of `xsd/tests/xsd/element_type_literal.xml`. -/
def text : Str := c!"<?xml version=\"1.0\" encoding=\"UTF-8\"?>\n<Name>Foobar</Name>"

/-- The text that is written. -/
def writtenText : Str := text

example : passes dir c!"element_type_literal.xsd" c!"Name" xml written expected = true := by decide +kernel

example : passesText texts.files c!"element_type_literal.xsd" c!"Name" text writtenText expected = true := by rw [texts_files]; decide +kernel

example : Covered dir c!"element_type_literal.xsd" true := coveredB_sound (by decide +kernel)

end element_type_literal_test

/-! ## `element_vec.rs` -/

namespace element_vec_test

/-- `xsd/tests/xsd/element_vec.xsd` -/
def element_vec_xsd : Elem := (⟨⟨c!"schema", (some c!"http://www.w3.org/2001/XMLSchema")⟩, [], [((some c!"xs"), c!"http://www.w3.org/2001/XMLSchema")], 22⟩,
  [.text c!"\n  ",
   .elem ⟨⟨c!"element", (some c!"http://www.w3.org/2001/XMLSchema")⟩, [⟨c!"name", none, c!"list", 92⟩], [((some c!"xs"), c!"http://www.w3.org/2001/XMLSchema")], 80⟩
     [.text c!"\n    ",
      .elem ⟨⟨c!"complexType", (some c!"http://www.w3.org/2001/XMLSchema")⟩, [], [((some c!"xs"), c!"http://www.w3.org/2001/XMLSchema")], 109⟩
       [.text c!"\n      ",
        .elem ⟨⟨c!"sequence", (some c!"http://www.w3.org/2001/XMLSchema")⟩, [], [((some c!"xs"), c!"http://www.w3.org/2001/XMLSchema")], 132⟩
         [.text c!"\n        ",
          .elem ⟨⟨c!"element", (some c!"http://www.w3.org/2001/XMLSchema")⟩, [⟨c!"name", none, c!"id", 166⟩, ⟨c!"type", none, c!"xs:long", 176⟩, ⟨c!"maxOccurs", none, c!"unbounded", 191⟩], [((some c!"xs"), c!"http://www.w3.org/2001/XMLSchema")], 154⟩
           [],
          .text c!"\n      "],
        .text c!"\n    "],
      .text c!"\n  "],
   .text c!"\n"])

/-- The text of `xsd/tests/xsd/element_vec.xsd`. -/
def element_vec_text : Str := c!"<?xml version=\"1.0\"?>\n<xs:schema xmlns:xs=\"http://www.w3.org/2001/XMLSchema\">\n  <xs:element name=\"list\">\n    <xs:complexType>\n      <xs:sequence>\n        <xs:element name=\"id\" type=\"xs:long\" maxOccurs=\"unbounded\" />\n      </xs:sequence>\n    </xs:complexType>\n  </xs:element>\n</xs:schema>"

/-- The schema files. -/
def dir : Files := directory [(c!"element_vec.xsd", element_vec_text, element_vec_xsd)]

/-- The texts of the schema files. -/
def texts : TextFiles := textDirectory [(c!"element_vec.xsd", element_vec_text)]

theorem texts_files : texts.files = dir := directory_texts (fs := [(c!"element_vec.xsd", element_vec_text, element_vec_xsd)]) (by decide +kernel)

/-- `xsd/tests/xsd/element_vec.xml` -/
def xml : Doc := ⟨(⟨⟨c!"list", none⟩, [], [], 39⟩,
  [.text c!"\n  ",
   .elem ⟨⟨c!"id", none⟩, [], [], 48⟩
     [.text c!"1"],
   .text c!"\n  ",
   .elem ⟨⟨c!"id", none⟩, [], [], 61⟩
     [.text c!"2"],
   .text c!"\n  ",
   .elem ⟨⟨c!"id", none⟩, [], [], 74⟩
     [.text c!"3"],
   .text c!"\n"])⟩

/-- The tags and texts that are written (`xsd/tests/element_vec.rs`). -/
def written : List Ev :=
  [.start c!"list" [] [],
   .start c!"id" [] [],
   .chars c!"1",
   .fin,
   .start c!"id" [] [],
   .chars c!"2",
   .fin,
   .start c!"id" [] [],
   .chars c!"3",
   .fin,
   .fin]

/-- The expected value (`xsd/tests/element_vec.rs`). -/
def expected : Val := .struct [(c!"id", .vec [.int 1, .int 2, .int 3])]

/-- The text of `xsd/tests/xsd/element_vec.xml`. -/
def text : Str := c!"<?xml version=\"1.0\" encoding=\"UTF-8\"?>\n<list>\n  <id>1</id>\n  <id>2</id>\n  <id>3</id>\n</list>"

/-- The text that is written. -/
def writtenText : Str := text

example : passes dir c!"element_vec.xsd" c!"List" xml written expected = true := by decide +kernel

example : passesText texts.files c!"element_vec.xsd" c!"List" text writtenText expected = true := by rw [texts_files]; decide +kernel

example : Covered dir c!"element_vec.xsd" true := coveredB_sound (by decide +kernel)

end element_vec_test

/-! ## `enum_attribute.rs` -/

namespace enum_attribute_test

/-- `xsd/tests/xsd/enum_attribute.xsd` -/
def enum_attribute_xsd : Elem := (⟨⟨c!"schema", (some c!"http://www.w3.org/2001/XMLSchema")⟩, [], [((some c!"xs"), c!"http://www.w3.org/2001/XMLSchema")], 22⟩,
  [.text c!"\n  ",
   .elem ⟨⟨c!"simpleType", (some c!"http://www.w3.org/2001/XMLSchema")⟩, [⟨c!"name", none, c!"ArticleState", 95⟩], [((some c!"xs"), c!"http://www.w3.org/2001/XMLSchema")], 80⟩
     [.text c!"\n    ",
      .elem ⟨⟨c!"restriction", (some c!"http://www.w3.org/2001/XMLSchema")⟩, [⟨c!"base", none, c!"xs:string", 136⟩], [((some c!"xs"), c!"http://www.w3.org/2001/XMLSchema")], 120⟩
       [.text c!"\n      ",
        .elem ⟨⟨c!"enumeration", (some c!"http://www.w3.org/2001/XMLSchema")⟩, [⟨c!"value", none, c!"DRAFT", 176⟩], [((some c!"xs"), c!"http://www.w3.org/2001/XMLSchema")], 160⟩
         [],
        .text c!"\n      ",
        .elem ⟨⟨c!"enumeration", (some c!"http://www.w3.org/2001/XMLSchema")⟩, [⟨c!"value", none, c!"PUBLISHED", 214⟩], [((some c!"xs"), c!"http://www.w3.org/2001/XMLSchema")], 198⟩
         [],
        .text c!"\n    "],
      .text c!"\n  "],
   .text c!"\n  ",
   .elem ⟨⟨c!"element", (some c!"http://www.w3.org/2001/XMLSchema")⟩, [⟨c!"name", none, c!"article", 289⟩], [((some c!"xs"), c!"http://www.w3.org/2001/XMLSchema")], 277⟩
     [.text c!"\n    ",
      .elem ⟨⟨c!"complexType", (some c!"http://www.w3.org/2001/XMLSchema")⟩, [], [((some c!"xs"), c!"http://www.w3.org/2001/XMLSchema")], 309⟩
       [.text c!"\n      ",
        .elem ⟨⟨c!"attribute", (some c!"http://www.w3.org/2001/XMLSchema")⟩, [⟨c!"name", none, c!"state", 346⟩, ⟨c!"type", none, c!"ArticleState", 359⟩], [((some c!"xs"), c!"http://www.w3.org/2001/XMLSchema")], 332⟩
         [],
        .text c!"\n    "],
      .text c!"\n  "],
   .text c!"\n"])

/-- The text of `xsd/tests/xsd/enum_attribute.xsd`. -/
def enum_attribute_text : Str := c!"<?xml version=\"1.0\"?>\n<xs:schema xmlns:xs=\"http://www.w3.org/2001/XMLSchema\">\n  <xs:simpleType name=\"ArticleState\">\n    <xs:restriction base=\"xs:string\">\n      <xs:enumeration value=\"DRAFT\"/>\n      <xs:enumeration value=\"PUBLISHED\"/>\n    </xs:restriction>\n  </xs:simpleType>\n  <xs:element name=\"article\">\n    <xs:complexType>\n      <xs:attribute name=\"state\" type=\"ArticleState\" />\n    </xs:complexType>\n  </xs:element>\n</xs:schema>"

/-- The schema files. -/
def dir : Files := directory [(c!"enum_attribute.xsd", enum_attribute_text, enum_attribute_xsd)]

/-- The texts of the schema files. -/
def texts : TextFiles := textDirectory [(c!"enum_attribute.xsd", enum_attribute_text)]

theorem texts_files : texts.files = dir := directory_texts (fs := [(c!"enum_attribute.xsd", enum_attribute_text, enum_attribute_xsd)]) (by decide +kernel)

/-- `xsd/tests/xsd/enum_attribute.xml` -/
def xml : Doc := ⟨(⟨⟨c!"article", none⟩, [⟨c!"state", none, c!"PUBLISHED", 48⟩], [], 39⟩,
  [])⟩

/-- The tags and texts that are written (`xsd/tests/enum_attribute.rs`). -/
def written : List Ev :=
  [.start c!"article" [(c!"state", c!"PUBLISHED")] [],
   .fin]

/-- The expected value (`xsd/tests/enum_attribute.rs`). -/
def expected : Val := .struct [(c!"state", .some (.enumv c!"Published"))]

/-- The text of `xsd/tests/xsd/enum_attribute.xml`. -/
def text : Str := c!"<?xml version=\"1.0\" encoding=\"UTF-8\"?>\n<article state=\"PUBLISHED\" />"

/-- The text that is written. -/
def writtenText : Str := text

example : passes dir c!"enum_attribute.xsd" c!"Article" xml written expected = true := by decide +kernel

example : passesText texts.files c!"enum_attribute.xsd" c!"Article" text writtenText expected = true := by rw [texts_files]; decide +kernel

example : Covered dir c!"enum_attribute.xsd" true := coveredB_sound (by decide +kernel)

end enum_attribute_test

/-! ## `enum_literal.rs` -/

namespace enum_literal_test

/-- `xsd/tests/xsd/enum_literal.xsd` -/
def enum_literal_xsd : Elem := (⟨⟨c!"schema", (some c!"http://www.w3.org/2001/XMLSchema")⟩, [], [((some c!"xs"), c!"http://www.w3.org/2001/XMLSchema")], 22⟩,
  [.text c!"\n  ",
   .elem ⟨⟨c!"simpleType", (some c!"http://www.w3.org/2001/XMLSchema")⟩, [⟨c!"name", none, c!"OrderState", 95⟩], [((some c!"xs"), c!"http://www.w3.org/2001/XMLSchema")], 80⟩
     [.text c!"\n    ",
      .elem ⟨⟨c!"restriction", (some c!"http://www.w3.org/2001/XMLSchema")⟩, [⟨c!"base", none, c!"xs:string", 134⟩], [((some c!"xs"), c!"http://www.w3.org/2001/XMLSchema")], 118⟩
       [.text c!"\n      ",
        .elem ⟨⟨c!"enumeration", (some c!"http://www.w3.org/2001/XMLSchema")⟩, [⟨c!"value", none, c!"PENDING", 174⟩], [((some c!"xs"), c!"http://www.w3.org/2001/XMLSchema")], 158⟩
         [],
        .text c!"\n      ",
        .elem ⟨⟨c!"enumeration", (some c!"http://www.w3.org/2001/XMLSchema")⟩, [⟨c!"value", none, c!"READY", 214⟩], [((some c!"xs"), c!"http://www.w3.org/2001/XMLSchema")], 198⟩
         [],
        .text c!"\n    "],
      .text c!"\n  "],
   .text c!"\n  ",
   .elem ⟨⟨c!"element", (some c!"http://www.w3.org/2001/XMLSchema")⟩, [⟨c!"name", none, c!"order", 285⟩], [((some c!"xs"), c!"http://www.w3.org/2001/XMLSchema")], 273⟩
     [.text c!"\n    ",
      .elem ⟨⟨c!"complexType", (some c!"http://www.w3.org/2001/XMLSchema")⟩, [], [((some c!"xs"), c!"http://www.w3.org/2001/XMLSchema")], 303⟩
       [.text c!"\n      ",
        .elem ⟨⟨c!"sequence", (some c!"http://www.w3.org/2001/XMLSchema")⟩, [], [((some c!"xs"), c!"http://www.w3.org/2001/XMLSchema")], 326⟩
         [.text c!"\n        ",
          .elem ⟨⟨c!"element", (some c!"http://www.w3.org/2001/XMLSchema")⟩, [⟨c!"name", none, c!"state", 360⟩, ⟨c!"type", none, c!"OrderState", 373⟩], [((some c!"xs"), c!"http://www.w3.org/2001/XMLSchema")], 348⟩
           [],
          .text c!"\n      "],
        .text c!"\n    "],
      .text c!"\n  "],
   .text c!"\n"])

/-- The text of `xsd/tests/xsd/enum_literal.xsd`. -/
def enum_literal_text : Str := c!"<?xml version=\"1.0\"?>\n<xs:schema xmlns:xs=\"http://www.w3.org/2001/XMLSchema\">\n  <xs:simpleType name=\"OrderState\">\n    <xs:restriction base=\"xs:string\">\n      <xs:enumeration value=\"PENDING\"/>\n      <xs:enumeration value=\"READY\"/>\n    </xs:restriction>\n  </xs:simpleType>\n  <xs:element name=\"order\">\n    <xs:complexType>\n      <xs:sequence>\n        <xs:element name=\"state\" type=\"OrderState\" />\n      </xs:sequence>\n    </xs:complexType>\n  </xs:element>\n</xs:schema>"

/-- The schema files. -/
def dir : Files := directory [(c!"enum_literal.xsd", enum_literal_text, enum_literal_xsd)]

/-- The texts of the schema files. -/
def texts : TextFiles := textDirectory [(c!"enum_literal.xsd", enum_literal_text)]

theorem texts_files : texts.files = dir := directory_texts (fs := [(c!"enum_literal.xsd", enum_literal_text, enum_literal_xsd)]) (by decide +kernel)

/-- `xsd/tests/xsd/enum_literal.xml` -/
def xml : Doc := ⟨(⟨⟨c!"order", none⟩, [], [], 39⟩,
  [.text c!"\n  ",
   .elem ⟨⟨c!"state", none⟩, [], [], 49⟩
     [.text c!"READY"],
   .text c!"\n"])⟩

/-- The tags and texts that are written (`xsd/tests/enum_literal.rs`). -/
def written : List Ev :=
  [.start c!"order" [] [],
   .start c!"state" [] [],
   .chars c!"READY",
   .fin,
   .fin]

/-- The expected value (`xsd/tests/enum_literal.rs`). -/
def expected : Val := .struct [(c!"state", .enumv c!"Ready")]

/-- The text of `xsd/tests/xsd/enum_literal.xml`. -/
def text : Str := c!"<?xml version=\"1.0\" encoding=\"UTF-8\"?>\n<order>\n  <state>READY</state>\n</order>"

/-- The text that is written. -/
def writtenText : Str := text

example : passes dir c!"enum_literal.xsd" c!"Order" xml written expected = true := by decide +kernel

example : passesText texts.files c!"enum_literal.xsd" c!"Order" text writtenText expected = true := by rw [texts_files]; decide +kernel

example : Covered dir c!"enum_literal.xsd" true := coveredB_sound (by decide +kernel)

end enum_literal_test

/-! ## `enum_literal_root.rs` -/

namespace enum_literal_root_test

/-- `xsd/tests/xsd/enum_literal_root.xsd` -/
def enum_literal_root_xsd : Elem := (⟨⟨c!"schema", (some c!"http://www.w3.org/2001/XMLSchema")⟩, [], [((some c!"xs"), c!"http://www.w3.org/2001/XMLSchema")], 22⟩,
  [.text c!"\n  ",
   .elem ⟨⟨c!"simpleType", (some c!"http://www.w3.org/2001/XMLSchema")⟩, [⟨c!"name", none, c!"StateType", 95⟩], [((some c!"xs"), c!"http://www.w3.org/2001/XMLSchema")], 80⟩
     [.text c!"\n    ",
      .elem ⟨⟨c!"restriction", (some c!"http://www.w3.org/2001/XMLSchema")⟩, [⟨c!"base", none, c!"xs:string", 133⟩], [((some c!"xs"), c!"http://www.w3.org/2001/XMLSchema")], 117⟩
       [.text c!"\n      ",
        .elem ⟨⟨c!"enumeration", (some c!"http://www.w3.org/2001/XMLSchema")⟩, [⟨c!"value", none, c!"PENDING", 173⟩], [((some c!"xs"), c!"http://www.w3.org/2001/XMLSchema")], 157⟩
         [],
        .text c!"\n      ",
        .elem ⟨⟨c!"enumeration", (some c!"http://www.w3.org/2001/XMLSchema")⟩, [⟨c!"value", none, c!"READY", 213⟩], [((some c!"xs"), c!"http://www.w3.org/2001/XMLSchema")], 197⟩
         [],
        .text c!"\n    "],
      .text c!"\n  "],
   .text c!"\n  ",
   .elem ⟨⟨c!"element", (some c!"http://www.w3.org/2001/XMLSchema")⟩, [⟨c!"name", none, c!"state", 284⟩, ⟨c!"type", none, c!"StateType", 297⟩], [((some c!"xs"), c!"http://www.w3.org/2001/XMLSchema")], 272⟩
     [],
   .text c!"\n"])

/-- The text of `xsd/tests/xsd/enum_literal_root.xsd`. -/
def enum_literal_root_text : Str := c!"<?xml version=\"1.0\"?>\n<xs:schema xmlns:xs=\"http://www.w3.org/2001/XMLSchema\">\n  <xs:simpleType name=\"StateType\">\n    <xs:restriction base=\"xs:string\">\n      <xs:enumeration value=\"PENDING\"/>\n      <xs:enumeration value=\"READY\"/>\n    </xs:restriction>\n  </xs:simpleType>\n  <xs:element name=\"state\" type=\"StateType\" />\n</xs:schema>"

/-- The schema files. -/
def dir : Files := directory [(c!"enum_literal_root.xsd", enum_literal_root_text, enum_literal_root_xsd)]

/-- The texts of the schema files. -/
def texts : TextFiles := textDirectory [(c!"enum_literal_root.xsd", enum_literal_root_text)]

theorem texts_files : texts.files = dir := directory_texts (fs := [(c!"enum_literal_root.xsd", enum_literal_root_text, enum_literal_root_xsd)]) (by decide +kernel)

/-- `xsd/tests/xsd/enum_literal_root.xml` -/
def xml : Doc := ⟨(⟨⟨c!"state", none⟩, [], [], 39⟩,
  [.text c!"READY"])⟩

/-- The tags and texts that are written (`xsd/tests/enum_literal_root.rs`). -/
def written : List Ev :=
  [.start c!"state" [] [],
   .chars c!"READY",
   .fin]

/-- The expected value (`xsd/tests/enum_literal_root.rs`). -/
def expected : Val := .newtype (.enumv c!"Ready")

/-- The text of `xsd/tests/xsd/enum_literal_root.xml`. -/
def text : Str := c!"<?xml version=\"1.0\" encoding=\"UTF-8\"?>\n<state>READY</state>"

/-- The text that is written. -/
def writtenText : Str := text

example : passes dir c!"enum_literal_root.xsd" c!"State" xml written expected = true := by decide +kernel

example : passesText texts.files c!"enum_literal_root.xsd" c!"State" text writtenText expected = true := by rw [texts_files]; decide +kernel

example : Covered dir c!"enum_literal_root.xsd" true := coveredB_sound (by decide +kernel)

end enum_literal_root_test

/-! ## `form_qualified.rs` -/

namespace form_qualified_test

/-- `xsd/tests/xsd/form_qualified.xsd` -/
def form_qualified_xsd : Elem := (⟨⟨c!"schema", (some c!"http://www.w3.org/2001/XMLSchema")⟩, [⟨c!"elementFormDefault", none, c!"qualified", 77⟩], [((some c!"xs"), c!"http://www.w3.org/2001/XMLSchema")], 22⟩,
  [.text c!"\n  ",
   .elem ⟨⟨c!"element", (some c!"http://www.w3.org/2001/XMLSchema")⟩, [⟨c!"name", none, c!"article", 123⟩], [((some c!"xs"), c!"http://www.w3.org/2001/XMLSchema")], 111⟩
     [.text c!"\n    ",
      .elem ⟨⟨c!"complexType", (some c!"http://www.w3.org/2001/XMLSchema")⟩, [], [((some c!"xs"), c!"http://www.w3.org/2001/XMLSchema")], 143⟩
       [.text c!"\n      ",
        .elem ⟨⟨c!"sequence", (some c!"http://www.w3.org/2001/XMLSchema")⟩, [], [((some c!"xs"), c!"http://www.w3.org/2001/XMLSchema")], 166⟩
         [.text c!"\n        ",
          .elem ⟨⟨c!"element", (some c!"http://www.w3.org/2001/XMLSchema")⟩, [⟨c!"name", none, c!"excerpt", 200⟩, ⟨c!"type", none, c!"xs:string", 215⟩], [((some c!"xs"), c!"http://www.w3.org/2001/XMLSchema")], 188⟩
           [],
          .text c!"\n        ",
          .elem ⟨⟨c!"element", (some c!"http://www.w3.org/2001/XMLSchema")⟩, [⟨c!"name", none, c!"author", 255⟩], [((some c!"xs"), c!"http://www.w3.org/2001/XMLSchema")], 243⟩
           [.text c!"\n          ",
            .elem ⟨⟨c!"complexType", (some c!"http://www.w3.org/2001/XMLSchema")⟩, [], [((some c!"xs"), c!"http://www.w3.org/2001/XMLSchema")], 280⟩
             [.text c!"\n            ",
              .elem ⟨⟨c!"sequence", (some c!"http://www.w3.org/2001/XMLSchema")⟩, [], [((some c!"xs"), c!"http://www.w3.org/2001/XMLSchema")], 309⟩
               [.text c!"\n              ",
                .elem ⟨⟨c!"element", (some c!"http://www.w3.org/2001/XMLSchema")⟩, [⟨c!"name", none, c!"name", 349⟩, ⟨c!"type", none, c!"xs:string", 361⟩], [((some c!"xs"), c!"http://www.w3.org/2001/XMLSchema")], 337⟩
                 [],
                .text c!"\n            "],
              .text c!"\n          "],
            .text c!"\n        "],
          .text c!"\n      "],
        .text c!"\n    "],
      .text c!"\n  "],
   .text c!"\n"])

/-- The text of `xsd/tests/xsd/form_qualified.xsd`. -/
def form_qualified_text : Str := c!"<?xml version=\"1.0\"?>\n<xs:schema xmlns:xs=\"http://www.w3.org/2001/XMLSchema\" elementFormDefault=\"qualified\">\n  <xs:element name=\"article\">\n    <xs:complexType>\n      <xs:sequence>\n        <xs:element name=\"excerpt\" type=\"xs:string\" />\n        <xs:element name=\"author\">\n          <xs:complexType>\n            <xs:sequence>\n              <xs:element name=\"name\" type=\"xs:string\" />\n            </xs:sequence>\n          </xs:complexType>\n        </xs:element>\n      </xs:sequence>\n    </xs:complexType>\n  </xs:element>\n</xs:schema>"

/-- The schema files. -/
def dir : Files := directory [(c!"form_qualified.xsd", form_qualified_text, form_qualified_xsd)]

/-- The texts of the schema files. -/
def texts : TextFiles := textDirectory [(c!"form_qualified.xsd", form_qualified_text)]

theorem texts_files : texts.files = dir := directory_texts (fs := [(c!"form_qualified.xsd", form_qualified_text, form_qualified_xsd)]) (by decide +kernel)

/-- `xsd/tests/xsd/form_qualified.xml` -/
def xml : Doc := ⟨(⟨⟨c!"article", none⟩, [], [], 39⟩,
  [.text c!"\n  ",
   .elem ⟨⟨c!"excerpt", none⟩, [], [], 51⟩
     [.text c!"Lorem Ipsum"],
   .text c!"\n  ",
   .elem ⟨⟨c!"author", none⟩, [], [], 84⟩
     [.text c!"\n    ",
      .elem ⟨⟨c!"name", none⟩, [], [], 97⟩
       [.text c!"Foobar"],
      .text c!"\n  "],
   .text c!"\n"])⟩

/-- The tags and texts that are written (`xsd/tests/form_qualified.rs`). -/
def written : List Ev :=
  [.start c!"article" [] [],
   .start c!"excerpt" [] [],
   .chars c!"Lorem Ipsum",
   .fin,
   .start c!"author" [] [],
   .start c!"name" [] [],
   .chars c!"Foobar",
   .fin,
   .fin,
   .fin]

/-- The expected value (`xsd/tests/form_qualified.rs`). -/
def expected : Val := .struct [(c!"excerpt", .str c!"Lorem Ipsum"), (c!"author", .struct [(c!"name", .str c!"Foobar")])]

/-- The text of `xsd/tests/xsd/form_qualified.xml`. -/
def text : Str := c!"<?xml version=\"1.0\" encoding=\"UTF-8\"?>\n<article>\n  <excerpt>Lorem Ipsum</excerpt>\n  <author>\n    <name>Foobar</name>\n  </author>\n</article>"

/-- The text that is written. -/
def writtenText : Str := text

example : passes dir c!"form_qualified.xsd" c!"Article" xml written expected = true := by decide +kernel

example : passesText texts.files c!"form_qualified.xsd" c!"Article" text writtenText expected = true := by rw [texts_files]; decide +kernel

example : Covered dir c!"form_qualified.xsd" true := coveredB_sound (by decide +kernel)

end form_qualified_test

/-! ## `form_qualified_with_target_namespace.rs` -/

namespace form_qualified_with_target_namespace_test

/-- `xsd/tests/xsd/form_qualified_with_target_namespace.xsd` -/
def form_qualified_with_target_namespace_xsd : Elem := (⟨⟨c!"schema", (some c!"http://www.w3.org/2001/XMLSchema")⟩, [⟨c!"elementFormDefault", none, c!"qualified", 77⟩, ⟨c!"targetNamespace", none, c!"urn:foobar", 108⟩], [((some c!"xs"), c!"http://www.w3.org/2001/XMLSchema")], 22⟩,
  [.text c!"\n  ",
   .elem ⟨⟨c!"element", (some c!"http://www.w3.org/2001/XMLSchema")⟩, [⟨c!"name", none, c!"article", 152⟩], [((some c!"xs"), c!"http://www.w3.org/2001/XMLSchema")], 140⟩
     [.text c!"\n    ",
      .elem ⟨⟨c!"complexType", (some c!"http://www.w3.org/2001/XMLSchema")⟩, [], [((some c!"xs"), c!"http://www.w3.org/2001/XMLSchema")], 172⟩
       [.text c!"\n      ",
        .elem ⟨⟨c!"sequence", (some c!"http://www.w3.org/2001/XMLSchema")⟩, [], [((some c!"xs"), c!"http://www.w3.org/2001/XMLSchema")], 195⟩
         [.text c!"\n        ",
          .elem ⟨⟨c!"element", (some c!"http://www.w3.org/2001/XMLSchema")⟩, [⟨c!"name", none, c!"excerpt", 229⟩, ⟨c!"type", none, c!"xs:string", 244⟩], [((some c!"xs"), c!"http://www.w3.org/2001/XMLSchema")], 217⟩
           [],
          .text c!"\n        ",
          .elem ⟨⟨c!"element", (some c!"http://www.w3.org/2001/XMLSchema")⟩, [⟨c!"name", none, c!"author", 284⟩], [((some c!"xs"), c!"http://www.w3.org/2001/XMLSchema")], 272⟩
           [.text c!"\n          ",
            .elem ⟨⟨c!"complexType", (some c!"http://www.w3.org/2001/XMLSchema")⟩, [], [((some c!"xs"), c!"http://www.w3.org/2001/XMLSchema")], 309⟩
             [.text c!"\n            ",
              .elem ⟨⟨c!"sequence", (some c!"http://www.w3.org/2001/XMLSchema")⟩, [], [((some c!"xs"), c!"http://www.w3.org/2001/XMLSchema")], 338⟩
               [.text c!"\n              ",
                .elem ⟨⟨c!"element", (some c!"http://www.w3.org/2001/XMLSchema")⟩, [⟨c!"name", none, c!"name", 378⟩, ⟨c!"type", none, c!"xs:string", 390⟩], [((some c!"xs"), c!"http://www.w3.org/2001/XMLSchema")], 366⟩
                 [],
                .text c!"\n            "],
              .text c!"\n          "],
            .text c!"\n        "],
          .text c!"\n      "],
        .text c!"\n    "],
      .text c!"\n  "],
   .text c!"\n"])

/-- The text of `xsd/tests/xsd/form_qualified_with_target_namespace.xsd`. -/
def form_qualified_with_target_namespace_text : Str := c!"<?xml version=\"1.0\"?>\n<xs:schema xmlns:xs=\"http://www.w3.org/2001/XMLSchema\" elementFormDefault=\"qualified\" targetNamespace=\"urn:foobar\">\n  <xs:element name=\"article\">\n    <xs:complexType>\n      <xs:sequence>\n        <xs:element name=\"excerpt\" type=\"xs:string\" />\n        <xs:element name=\"author\">\n          <xs:complexType>\n            <xs:sequence>\n              <xs:element name=\"name\" type=\"xs:string\" />\n            </xs:sequence>\n          </xs:complexType>\n        </xs:element>\n      </xs:sequence>\n    </xs:complexType>\n  </xs:element>\n</xs:schema>"

/-- The schema files. -/
def dir : Files := directory [(c!"form_qualified_with_target_namespace.xsd", form_qualified_with_target_namespace_text, form_qualified_with_target_namespace_xsd)]

/-- The texts of the schema files. -/
def texts : TextFiles := textDirectory [(c!"form_qualified_with_target_namespace.xsd", form_qualified_with_target_namespace_text)]

theorem texts_files : texts.files = dir := directory_texts (fs := [(c!"form_qualified_with_target_namespace.xsd", form_qualified_with_target_namespace_text, form_qualified_with_target_namespace_xsd)]) (by decide +kernel)

/-- `xsd/tests/xsd/form_qualified_with_target_namespace.xml` -/
def xml : Doc := ⟨(⟨⟨c!"article", (some c!"urn:foobar")⟩, [], [(none, c!"urn:foobar")], 39⟩,
  [.text c!"\n  ",
   .elem ⟨⟨c!"excerpt", (some c!"urn:foobar")⟩, [], [(none, c!"urn:foobar")], 70⟩
     [.text c!"Lorem Ipsum"],
   .text c!"\n  ",
   .elem ⟨⟨c!"author", (some c!"urn:foobar")⟩, [], [(none, c!"urn:foobar")], 103⟩
     [.text c!"\n    ",
      .elem ⟨⟨c!"name", (some c!"urn:foobar")⟩, [], [(none, c!"urn:foobar")], 116⟩
       [.text c!"Foobar"],
      .text c!"\n  "],
   .text c!"\n"])⟩

/-- The tags and texts that are written (`xsd/tests/form_qualified_with_target_namespace.rs`). -/
def written : List Ev :=
  [.start c!"article" [] [(c!"", c!"urn:foobar")],
   .start c!"excerpt" [] [],
   .chars c!"Lorem Ipsum",
   .fin,
   .start c!"author" [] [],
   .start c!"name" [] [],
   .chars c!"Foobar",
   .fin,
   .fin,
   .fin]

/-- The expected value (`xsd/tests/form_qualified_with_target_namespace.rs`). -/
def expected : Val := .struct [(c!"excerpt", .str c!"Lorem Ipsum"), (c!"author", .struct [(c!"name", .str c!"Foobar")])]

/-- The text of `xsd/tests/xsd/form_qualified_with_target_namespace.xml`. -/
def text : Str := c!"<?xml version=\"1.0\" encoding=\"UTF-8\"?>\n<article xmlns=\"urn:foobar\">\n  <excerpt>Lorem Ipsum</excerpt>\n  <author>\n    <name>Foobar</name>\n  </author>\n</article>"

/-- The text that is written. -/
def writtenText : Str := text

example : passes dir c!"form_qualified_with_target_namespace.xsd" c!"Article" xml written expected = true := by decide +kernel

example : passesText texts.files c!"form_qualified_with_target_namespace.xsd" c!"Article" text writtenText expected = true := by rw [texts_files]; decide +kernel

example : Covered dir c!"form_qualified_with_target_namespace.xsd" true := coveredB_sound (by decide +kernel)

end form_qualified_with_target_namespace_test

/-! ## `form_unqualified.rs` -/

namespace form_unqualified_test

/-- `xsd/tests/xsd/form_unqualified.xsd` -/
def form_unqualified_xsd : Elem := (⟨⟨c!"schema", (some c!"http://www.w3.org/2001/XMLSchema")⟩, [⟨c!"elementFormDefault", none, c!"unqualified", 77⟩], [((some c!"xs"), c!"http://www.w3.org/2001/XMLSchema")], 22⟩,
  [.text c!"\n  ",
   .elem ⟨⟨c!"element", (some c!"http://www.w3.org/2001/XMLSchema")⟩, [⟨c!"name", none, c!"article", 125⟩], [((some c!"xs"), c!"http://www.w3.org/2001/XMLSchema")], 113⟩
     [.text c!"\n    ",
      .elem ⟨⟨c!"complexType", (some c!"http://www.w3.org/2001/XMLSchema")⟩, [], [((some c!"xs"), c!"http://www.w3.org/2001/XMLSchema")], 145⟩
       [.text c!"\n      ",
        .elem ⟨⟨c!"sequence", (some c!"http://www.w3.org/2001/XMLSchema")⟩, [], [((some c!"xs"), c!"http://www.w3.org/2001/XMLSchema")], 168⟩
         [.text c!"\n        ",
          .elem ⟨⟨c!"element", (some c!"http://www.w3.org/2001/XMLSchema")⟩, [⟨c!"name", none, c!"excerpt", 202⟩, ⟨c!"type", none, c!"xs:string", 217⟩], [((some c!"xs"), c!"http://www.w3.org/2001/XMLSchema")], 190⟩
           [],
          .text c!"\n        ",
          .elem ⟨⟨c!"element", (some c!"http://www.w3.org/2001/XMLSchema")⟩, [⟨c!"name", none, c!"author", 257⟩], [((some c!"xs"), c!"http://www.w3.org/2001/XMLSchema")], 245⟩
           [.text c!"\n          ",
            .elem ⟨⟨c!"complexType", (some c!"http://www.w3.org/2001/XMLSchema")⟩, [], [((some c!"xs"), c!"http://www.w3.org/2001/XMLSchema")], 282⟩
             [.text c!"\n            ",
              .elem ⟨⟨c!"sequence", (some c!"http://www.w3.org/2001/XMLSchema")⟩, [], [((some c!"xs"), c!"http://www.w3.org/2001/XMLSchema")], 311⟩
               [.text c!"\n              ",
                .elem ⟨⟨c!"element", (some c!"http://www.w3.org/2001/XMLSchema")⟩, [⟨c!"name", none, c!"name", 351⟩, ⟨c!"type", none, c!"xs:string", 363⟩], [((some c!"xs"), c!"http://www.w3.org/2001/XMLSchema")], 339⟩
                 [],
                .text c!"\n            "],
              .text c!"\n          "],
            .text c!"\n        "],
          .text c!"\n      "],
        .text c!"\n    "],
      .text c!"\n  "],
   .text c!"\n"])

/-- The text of `xsd/tests/xsd/form_unqualified.xsd`. -/
def form_unqualified_text : Str := c!"<?xml version=\"1.0\"?>\n<xs:schema xmlns:xs=\"http://www.w3.org/2001/XMLSchema\" elementFormDefault=\"unqualified\">\n  <xs:element name=\"article\">\n    <xs:complexType>\n      <xs:sequence>\n        <xs:element name=\"excerpt\" type=\"xs:string\" />\n        <xs:element name=\"author\">\n          <xs:complexType>\n            <xs:sequence>\n              <xs:element name=\"name\" type=\"xs:string\" />\n            </xs:sequence>\n          </xs:complexType>\n        </xs:element>\n      </xs:sequence>\n    </xs:complexType>\n  </xs:element>\n</xs:schema>"

/-- The schema files. -/
def dir : Files := directory [(c!"form_unqualified.xsd", form_unqualified_text, form_unqualified_xsd)]

/-- The texts of the schema files. -/
def texts : TextFiles := textDirectory [(c!"form_unqualified.xsd", form_unqualified_text)]

theorem texts_files : texts.files = dir := directory_texts (fs := [(c!"form_unqualified.xsd", form_unqualified_text, form_unqualified_xsd)]) (by decide +kernel)

/-- `xsd/tests/xsd/form_unqualified.xml` -/
def xml : Doc := ⟨(⟨⟨c!"article", none⟩, [], [], 39⟩,
  [.text c!"\n  ",
   .elem ⟨⟨c!"excerpt", none⟩, [], [], 51⟩
     [.text c!"Lorem Ipsum"],
   .text c!"\n  ",
   .elem ⟨⟨c!"author", none⟩, [], [], 84⟩
     [.text c!"\n    ",
      .elem ⟨⟨c!"name", none⟩, [], [], 97⟩
       [.text c!"Foobar"],
      .text c!"\n  "],
   .text c!"\n"])⟩

/-- The tags and texts that are written (`xsd/tests/form_unqualified.rs`). -/
def written : List Ev :=
  [.start c!"article" [] [],
   .start c!"excerpt" [] [],
   .chars c!"Lorem Ipsum",
   .fin,
   .start c!"author" [] [],
   .start c!"name" [] [],
   .chars c!"Foobar",
   .fin,
   .fin,
   .fin]

/-- The expected value (`xsd/tests/form_unqualified.rs`). -/
def expected : Val := .struct [(c!"excerpt", .str c!"Lorem Ipsum"), (c!"author", .struct [(c!"name", .str c!"Foobar")])]

/-- The text of `xsd/tests/xsd/form_unqualified.xml`. -/
def text : Str := c!"<?xml version=\"1.0\" encoding=\"UTF-8\"?>\n<article>\n  <excerpt>Lorem Ipsum</excerpt>\n  <author>\n    <name>Foobar</name>\n  </author>\n</article>"

/-- The text that is written. -/
def writtenText : Str := text

example : passes dir c!"form_unqualified.xsd" c!"Article" xml written expected = true := by decide +kernel

example : passesText texts.files c!"form_unqualified.xsd" c!"Article" text writtenText expected = true := by rw [texts_files]; decide +kernel

example : Covered dir c!"form_unqualified.xsd" true := coveredB_sound (by decide +kernel)

end form_unqualified_test

/-! ## `form_unqualified_with_target_namespace.rs` -/

namespace form_unqualified_with_target_namespace_test

/-- `xsd/tests/xsd/form_unqualified_with_target_namespace.xsd` -/
def form_unqualified_with_target_namespace_xsd : Elem := (⟨⟨c!"schema", (some c!"http://www.w3.org/2001/XMLSchema")⟩, [⟨c!"elementFormDefault", none, c!"unqualified", 77⟩, ⟨c!"targetNamespace", none, c!"urn:foobar", 110⟩], [((some c!"xs"), c!"http://www.w3.org/2001/XMLSchema")], 22⟩,
  [.text c!"\n  ",
   .elem ⟨⟨c!"element", (some c!"http://www.w3.org/2001/XMLSchema")⟩, [⟨c!"name", none, c!"article", 154⟩], [((some c!"xs"), c!"http://www.w3.org/2001/XMLSchema")], 142⟩
     [.text c!"\n    ",
      .elem ⟨⟨c!"complexType", (some c!"http://www.w3.org/2001/XMLSchema")⟩, [], [((some c!"xs"), c!"http://www.w3.org/2001/XMLSchema")], 174⟩
       [.text c!"\n      ",
        .elem ⟨⟨c!"sequence", (some c!"http://www.w3.org/2001/XMLSchema")⟩, [], [((some c!"xs"), c!"http://www.w3.org/2001/XMLSchema")], 197⟩
         [.text c!"\n        ",
          .elem ⟨⟨c!"element", (some c!"http://www.w3.org/2001/XMLSchema")⟩, [⟨c!"name", none, c!"excerpt", 231⟩, ⟨c!"type", none, c!"xs:string", 246⟩], [((some c!"xs"), c!"http://www.w3.org/2001/XMLSchema")], 219⟩
           [],
          .text c!"\n        ",
          .elem ⟨⟨c!"element", (some c!"http://www.w3.org/2001/XMLSchema")⟩, [⟨c!"name", none, c!"author", 286⟩], [((some c!"xs"), c!"http://www.w3.org/2001/XMLSchema")], 274⟩
           [.text c!"\n          ",
            .elem ⟨⟨c!"complexType", (some c!"http://www.w3.org/2001/XMLSchema")⟩, [], [((some c!"xs"), c!"http://www.w3.org/2001/XMLSchema")], 311⟩
             [.text c!"\n            ",
              .elem ⟨⟨c!"sequence", (some c!"http://www.w3.org/2001/XMLSchema")⟩, [], [((some c!"xs"), c!"http://www.w3.org/2001/XMLSchema")], 340⟩
               [.text c!"\n              ",
                .elem ⟨⟨c!"element", (some c!"http://www.w3.org/2001/XMLSchema")⟩, [⟨c!"name", none, c!"name", 380⟩, ⟨c!"type", none, c!"xs:string", 392⟩], [((some c!"xs"), c!"http://www.w3.org/2001/XMLSchema")], 368⟩
                 [],
                .text c!"\n            "],
              .text c!"\n          "],
            .text c!"\n        "],
          .text c!"\n      "],
        .text c!"\n    "],
      .text c!"\n  "],
   .text c!"\n"])

/-- The text of `xsd/tests/xsd/form_unqualified_with_target_namespace.xsd`. -/
def form_unqualified_with_target_namespace_text : Str := c!"<?xml version=\"1.0\"?>\n<xs:schema xmlns:xs=\"http://www.w3.org/2001/XMLSchema\" elementFormDefault=\"unqualified\" targetNamespace=\"urn:foobar\">\n  <xs:element name=\"article\">\n    <xs:complexType>\n      <xs:sequence>\n        <xs:element name=\"excerpt\" type=\"xs:string\" />\n        <xs:element name=\"author\">\n          <xs:complexType>\n            <xs:sequence>\n              <xs:element name=\"name\" type=\"xs:string\" />\n            </xs:sequence>\n          </xs:complexType>\n        </xs:element>\n      </xs:sequence>\n    </xs:complexType>\n  </xs:element>\n</xs:schema>"

/-- The schema files. -/
def dir : Files := directory [(c!"form_unqualified_with_target_namespace.xsd", form_unqualified_with_target_namespace_text, form_unqualified_with_target_namespace_xsd)]

/-- The texts of the schema files. -/
def texts : TextFiles := textDirectory [(c!"form_unqualified_with_target_namespace.xsd", form_unqualified_with_target_namespace_text)]

theorem texts_files : texts.files = dir := directory_texts (fs := [(c!"form_unqualified_with_target_namespace.xsd", form_unqualified_with_target_namespace_text, form_unqualified_with_target_namespace_xsd)]) (by decide +kernel)

/-- `xsd/tests/xsd/form_unqualified_with_target_namespace.xml` -/
def xml : Doc := ⟨(⟨⟨c!"article", (some c!"urn:foobar")⟩, [], [((some c!"ns1"), c!"urn:foobar")], 39⟩,
  [.text c!"\n  ",
   .elem ⟨⟨c!"excerpt", none⟩, [], [((some c!"ns1"), c!"urn:foobar")], 78⟩
     [.text c!"Lorem Ipsum"],
   .text c!"\n  ",
   .elem ⟨⟨c!"author", none⟩, [], [((some c!"ns1"), c!"urn:foobar")], 111⟩
     [.text c!"\n    ",
      .elem ⟨⟨c!"name", none⟩, [], [((some c!"ns1"), c!"urn:foobar")], 124⟩
       [.text c!"Foobar"],
      .text c!"\n  "],
   .text c!"\n"])⟩

/-- The tags and texts that are written (`xsd/tests/form_unqualified_with_target_namespace.rs`). -/
def written : List Ev :=
  [.start c!"ns1:article" [] [(c!"ns1", c!"urn:foobar")],
   .start c!"excerpt" [] [],
   .chars c!"Lorem Ipsum",
   .fin,
   .start c!"author" [] [],
   .start c!"name" [] [],
   .chars c!"Foobar",
   .fin,
   .fin,
   .fin]

/-- The expected value (`xsd/tests/form_unqualified_with_target_namespace.rs`). -/
def expected : Val := .struct [(c!"excerpt", .str c!"Lorem Ipsum"), (c!"author", .struct [(c!"name", .str c!"Foobar")])]

/-- The text of `xsd/tests/xsd/form_unqualified_with_target_namespace.xml`. -/
def text : Str := c!"<?xml version=\"1.0\" encoding=\"UTF-8\"?>\n<ns1:article xmlns:ns1=\"urn:foobar\">\n  <excerpt>Lorem Ipsum</excerpt>\n  <author>\n    <name>Foobar</name>\n  </author>\n</ns1:article>"

/-- The text that is written. -/
def writtenText : Str := text

example : passes dir c!"form_unqualified_with_target_namespace.xsd" c!"Article" xml written expected = true := by decide +kernel

example : passesText texts.files c!"form_unqualified_with_target_namespace.xsd" c!"Article" text writtenText expected = true := by rw [texts_files]; decide +kernel

example : Covered dir c!"form_unqualified_with_target_namespace.xsd" true := coveredB_sound (by decide +kernel)

end form_unqualified_with_target_namespace_test

/-! ## `import.rs` -/

namespace import_test

/-- `xsd/tests/xsd/import.xsd` -/
def import_xsd : Elem := (⟨⟨c!"schema", (some c!"http://www.w3.org/2001/XMLSchema")⟩, [⟨c!"elementFormDefault", none, c!"qualified", 94⟩, ⟨c!"targetNamespace", none, c!"urn:main", 125⟩], [((some c!"xs"), c!"http://www.w3.org/2001/XMLSchema"), ((some c!"base"), c!"urn:base")], 39⟩,
  [.text c!"\n\t",
   .elem ⟨⟨c!"import", (some c!"http://www.w3.org/2001/XMLSchema")⟩, [⟨c!"namespace", none, c!"urn:base", 187⟩, ⟨c!"schemaLocation", none, c!"./import_other.xsd", 208⟩], [((some c!"xs"), c!"http://www.w3.org/2001/XMLSchema"), ((some c!"base"), c!"urn:base")], 176⟩
     [],
   .text c!"\n  ",
   .elem ⟨⟨c!"element", (some c!"http://www.w3.org/2001/XMLSchema")⟩, [⟨c!"name", none, c!"article", 260⟩], [((some c!"xs"), c!"http://www.w3.org/2001/XMLSchema"), ((some c!"base"), c!"urn:base")], 248⟩
     [.text c!"\n    ",
      .elem ⟨⟨c!"complexType", (some c!"http://www.w3.org/2001/XMLSchema")⟩, [], [((some c!"xs"), c!"http://www.w3.org/2001/XMLSchema"), ((some c!"base"), c!"urn:base")], 280⟩
       [.text c!"\n      ",
        .elem ⟨⟨c!"sequence", (some c!"http://www.w3.org/2001/XMLSchema")⟩, [], [((some c!"xs"), c!"http://www.w3.org/2001/XMLSchema"), ((some c!"base"), c!"urn:base")], 303⟩
         [.text c!"\n        ",
          .elem ⟨⟨c!"element", (some c!"http://www.w3.org/2001/XMLSchema")⟩, [⟨c!"name", none, c!"content", 337⟩, ⟨c!"type", none, c!"base:ArticleContent", 352⟩], [((some c!"xs"), c!"http://www.w3.org/2001/XMLSchema"), ((some c!"base"), c!"urn:base")], 325⟩
           [],
          .text c!"\n      "],
        .text c!"\n    "],
      .text c!"\n  "],
   .text c!"\n"])

/-- The text of `xsd/tests/xsd/import.xsd`. -/
def import_text : Str := c!"<?xml version=\"1.0\" encoding=\"UTF-8\"?>\n<xs:schema xmlns:xs=\"http://www.w3.org/2001/XMLSchema\" elementFormDefault=\"qualified\" targetNamespace=\"urn:main\" xmlns:base=\"urn:base\">\n\t<xs:import namespace=\"urn:base\" schemaLocation=\"./import_other.xsd\"/>\n  <xs:element name=\"article\">\n    <xs:complexType>\n      <xs:sequence>\n        <xs:element name=\"content\" type=\"base:ArticleContent\" />\n      </xs:sequence>\n    </xs:complexType>\n  </xs:element>\n</xs:schema>"

/-- `xsd/tests/xsd/import_other.xsd` -/
def import_other_xsd : Elem := (⟨⟨c!"schema", (some c!"http://www.w3.org/2001/XMLSchema")⟩, [⟨c!"elementFormDefault", none, c!"qualified", 77⟩, ⟨c!"targetNamespace", none, c!"urn:base", 108⟩], [((some c!"xs"), c!"http://www.w3.org/2001/XMLSchema")], 22⟩,
  [.text c!"\n  ",
   .elem ⟨⟨c!"complexType", (some c!"http://www.w3.org/2001/XMLSchema")⟩, [⟨c!"name", none, c!"ArticleContent", 154⟩], [((some c!"xs"), c!"http://www.w3.org/2001/XMLSchema")], 138⟩
     [.text c!"\n    ",
      .elem ⟨⟨c!"sequence", (some c!"http://www.w3.org/2001/XMLSchema")⟩, [], [((some c!"xs"), c!"http://www.w3.org/2001/XMLSchema")], 181⟩
       [.text c!"\n      ",
        .elem ⟨⟨c!"element", (some c!"http://www.w3.org/2001/XMLSchema")⟩, [⟨c!"name", none, c!"excerpt", 213⟩, ⟨c!"type", none, c!"xs:string", 228⟩], [((some c!"xs"), c!"http://www.w3.org/2001/XMLSchema")], 201⟩
         [],
        .text c!"\n      ",
        .elem ⟨⟨c!"element", (some c!"http://www.w3.org/2001/XMLSchema")⟩, [⟨c!"name", none, c!"author", 266⟩], [((some c!"xs"), c!"http://www.w3.org/2001/XMLSchema")], 254⟩
         [.text c!"\n        ",
          .elem ⟨⟨c!"complexType", (some c!"http://www.w3.org/2001/XMLSchema")⟩, [], [((some c!"xs"), c!"http://www.w3.org/2001/XMLSchema")], 289⟩
           [.text c!"\n          ",
            .elem ⟨⟨c!"sequence", (some c!"http://www.w3.org/2001/XMLSchema")⟩, [], [((some c!"xs"), c!"http://www.w3.org/2001/XMLSchema")], 316⟩
             [.text c!"\n            ",
              .elem ⟨⟨c!"element", (some c!"http://www.w3.org/2001/XMLSchema")⟩, [⟨c!"name", none, c!"name", 354⟩, ⟨c!"type", none, c!"xs:string", 366⟩], [((some c!"xs"), c!"http://www.w3.org/2001/XMLSchema")], 342⟩
               [],
              .text c!"\n          "],
            .text c!"\n        "],
          .text c!"\n      "],
        .text c!"\n    "],
      .text c!"\n  "],
   .text c!"\n"])

/-- The text of `xsd/tests/xsd/import_other.xsd`. -/
def import_other_text : Str := c!"<?xml version=\"1.0\"?>\n<xs:schema xmlns:xs=\"http://www.w3.org/2001/XMLSchema\" elementFormDefault=\"qualified\" targetNamespace=\"urn:base\">\n  <xs:complexType name=\"ArticleContent\">\n    <xs:sequence>\n      <xs:element name=\"excerpt\" type=\"xs:string\" />\n      <xs:element name=\"author\">\n        <xs:complexType>\n          <xs:sequence>\n            <xs:element name=\"name\" type=\"xs:string\" />\n          </xs:sequence>\n        </xs:complexType>\n      </xs:element>\n    </xs:sequence>\n  </xs:complexType>\n</xs:schema>"

/-- The schema files. -/
def dir : Files := directory [(c!"import.xsd", import_text, import_xsd), (c!"import_other.xsd", import_other_text, import_other_xsd)]

/-- The texts of the schema files. -/
def texts : TextFiles := textDirectory [(c!"import.xsd", import_text), (c!"import_other.xsd", import_other_text)]

theorem texts_files : texts.files = dir := directory_texts (fs := [(c!"import.xsd", import_text, import_xsd), (c!"import_other.xsd", import_other_text, import_other_xsd)]) (by decide +kernel)

/-- `xsd/tests/xsd/import.xml` -/
def xml : Doc := ⟨(⟨⟨c!"article", (some c!"urn:main")⟩, [], [(none, c!"urn:main"), ((some c!"ns2"), c!"urn:base")], 39⟩,
  [.text c!"\n  ",
   .elem ⟨⟨c!"content", (some c!"urn:main")⟩, [], [(none, c!"urn:main"), ((some c!"ns2"), c!"urn:base")], 89⟩
     [.text c!"\n    ",
      .elem ⟨⟨c!"excerpt", (some c!"urn:base")⟩, [], [(none, c!"urn:main"), ((some c!"ns2"), c!"urn:base")], 103⟩
       [.text c!"Lorem Ipsum"],
      .text c!"\n    ",
      .elem ⟨⟨c!"author", (some c!"urn:base")⟩, [], [(none, c!"urn:main"), ((some c!"ns2"), c!"urn:base")], 146⟩
       [.text c!"\n      ",
        .elem ⟨⟨c!"name", (some c!"urn:base")⟩, [], [(none, c!"urn:main"), ((some c!"ns2"), c!"urn:base")], 165⟩
         [.text c!"Foobar"],
        .text c!"\n    "],
      .text c!"\n  "],
   .text c!"\n"])⟩

/-- The tags and texts that are written (`xsd/tests/import.rs`). -/
def written : List Ev :=
  [.start c!"article" [] [(c!"", c!"urn:main"), (c!"ns2", c!"urn:base")],
   .start c!"content" [] [],
   .start c!"ns2:excerpt" [] [],
   .chars c!"Lorem Ipsum",
   .fin,
   .start c!"ns2:author" [] [],
   .start c!"ns2:name" [] [],
   .chars c!"Foobar",
   .fin,
   .fin,
   .fin,
   .fin]

/-- The expected value (`xsd/tests/import.rs`). -/
def expected : Val := .struct [(c!"content", .struct [(c!"excerpt", .str c!"Lorem Ipsum"), (c!"author", .struct [(c!"name", .str c!"Foobar")])])]

/-- The text of `xsd/tests/xsd/import.xml`. -/
def text : Str := c!"<?xml version=\"1.0\" encoding=\"UTF-8\"?>\n<article xmlns=\"urn:main\" xmlns:ns2=\"urn:base\">\n  <content>\n    <ns2:excerpt>Lorem Ipsum</ns2:excerpt>\n    <ns2:author>\n      <ns2:name>Foobar</ns2:name>\n    </ns2:author>\n  </content>\n</article>"

/-- The text that is written. -/
def writtenText : Str := text

example : passes dir c!"import.xsd" c!"Article" xml written expected = true := by decide +kernel

example : passesText texts.files c!"import.xsd" c!"Article" text writtenText expected = true := by rw [texts_files]; decide +kernel

example : Covered dir c!"import.xsd" true := coveredB_sound (by decide +kernel)

end import_test

/-! ## `include.rs` -/

namespace include_test

/-- `xsd/tests/xsd/include.xsd` -/
def include_xsd : Elem := (⟨⟨c!"schema", (some c!"http://www.w3.org/2001/XMLSchema")⟩, [⟨c!"elementFormDefault", none, c!"qualified", 94⟩], [((some c!"xs"), c!"http://www.w3.org/2001/XMLSchema")], 39⟩,
  [.text c!"\n\t",
   .elem ⟨⟨c!"include", (some c!"http://www.w3.org/2001/XMLSchema")⟩, [⟨c!"schemaLocation", none, c!"./include_other.xsd", 139⟩], [((some c!"xs"), c!"http://www.w3.org/2001/XMLSchema")], 127⟩
     [],
   .text c!"\n  ",
   .elem ⟨⟨c!"element", (some c!"http://www.w3.org/2001/XMLSchema")⟩, [⟨c!"name", none, c!"article", 192⟩], [((some c!"xs"), c!"http://www.w3.org/2001/XMLSchema")], 180⟩
     [.text c!"\n    ",
      .elem ⟨⟨c!"complexType", (some c!"http://www.w3.org/2001/XMLSchema")⟩, [], [((some c!"xs"), c!"http://www.w3.org/2001/XMLSchema")], 212⟩
       [.text c!"\n      ",
        .elem ⟨⟨c!"sequence", (some c!"http://www.w3.org/2001/XMLSchema")⟩, [], [((some c!"xs"), c!"http://www.w3.org/2001/XMLSchema")], 235⟩
         [.text c!"\n        ",
          .elem ⟨⟨c!"element", (some c!"http://www.w3.org/2001/XMLSchema")⟩, [⟨c!"name", none, c!"content", 269⟩, ⟨c!"type", none, c!"ArticleContent", 284⟩], [((some c!"xs"), c!"http://www.w3.org/2001/XMLSchema")], 257⟩
           [],
          .text c!"\n      "],
        .text c!"\n    "],
      .text c!"\n  "],
   .text c!"\n"])

/-- The text of `xsd/tests/xsd/include.xsd`. -/
def include_text : Str := c!"<?xml version=\"1.0\" encoding=\"UTF-8\"?>\n<xs:schema xmlns:xs=\"http://www.w3.org/2001/XMLSchema\" elementFormDefault=\"qualified\">\n\t<xs:include schemaLocation=\"./include_other.xsd\"/>\n  <xs:element name=\"article\">\n    <xs:complexType>\n      <xs:sequence>\n        <xs:element name=\"content\" type=\"ArticleContent\" />\n      </xs:sequence>\n    </xs:complexType>\n  </xs:element>\n</xs:schema>"

/-- `xsd/tests/xsd/include_other.xsd` -/
def include_other_xsd : Elem := (⟨⟨c!"schema", (some c!"http://www.w3.org/2001/XMLSchema")⟩, [⟨c!"elementFormDefault", none, c!"qualified", 77⟩], [((some c!"xs"), c!"http://www.w3.org/2001/XMLSchema")], 22⟩,
  [.text c!"\n  ",
   .elem ⟨⟨c!"complexType", (some c!"http://www.w3.org/2001/XMLSchema")⟩, [⟨c!"name", none, c!"ArticleContent", 127⟩], [((some c!"xs"), c!"http://www.w3.org/2001/XMLSchema")], 111⟩
     [.text c!"\n    ",
      .elem ⟨⟨c!"sequence", (some c!"http://www.w3.org/2001/XMLSchema")⟩, [], [((some c!"xs"), c!"http://www.w3.org/2001/XMLSchema")], 154⟩
       [.text c!"\n      ",
        .elem ⟨⟨c!"element", (some c!"http://www.w3.org/2001/XMLSchema")⟩, [⟨c!"name", none, c!"excerpt", 186⟩, ⟨c!"type", none, c!"xs:string", 201⟩], [((some c!"xs"), c!"http://www.w3.org/2001/XMLSchema")], 174⟩
         [],
        .text c!"\n      ",
        .elem ⟨⟨c!"element", (some c!"http://www.w3.org/2001/XMLSchema")⟩, [⟨c!"name", none, c!"author", 239⟩], [((some c!"xs"), c!"http://www.w3.org/2001/XMLSchema")], 227⟩
         [.text c!"\n        ",
          .elem ⟨⟨c!"complexType", (some c!"http://www.w3.org/2001/XMLSchema")⟩, [], [((some c!"xs"), c!"http://www.w3.org/2001/XMLSchema")], 262⟩
           [.text c!"\n          ",
            .elem ⟨⟨c!"sequence", (some c!"http://www.w3.org/2001/XMLSchema")⟩, [], [((some c!"xs"), c!"http://www.w3.org/2001/XMLSchema")], 289⟩
             [.text c!"\n            ",
              .elem ⟨⟨c!"element", (some c!"http://www.w3.org/2001/XMLSchema")⟩, [⟨c!"name", none, c!"name", 327⟩, ⟨c!"type", none, c!"xs:string", 339⟩], [((some c!"xs"), c!"http://www.w3.org/2001/XMLSchema")], 315⟩
               [],
              .text c!"\n          "],
            .text c!"\n        "],
          .text c!"\n      "],
        .text c!"\n    "],
      .text c!"\n  "],
   .text c!"\n"])

/-- The text of `xsd/tests/xsd/include_other.xsd`. -/
def include_other_text : Str := c!"<?xml version=\"1.0\"?>\n<xs:schema xmlns:xs=\"http://www.w3.org/2001/XMLSchema\" elementFormDefault=\"qualified\">\n  <xs:complexType name=\"ArticleContent\">\n    <xs:sequence>\n      <xs:element name=\"excerpt\" type=\"xs:string\" />\n      <xs:element name=\"author\">\n        <xs:complexType>\n          <xs:sequence>\n            <xs:element name=\"name\" type=\"xs:string\" />\n          </xs:sequence>\n        </xs:complexType>\n      </xs:element>\n    </xs:sequence>\n  </xs:complexType>\n</xs:schema>"

/-- The schema files. -/
def dir : Files := directory [(c!"include.xsd", include_text, include_xsd), (c!"include_other.xsd", include_other_text, include_other_xsd)]

/-- The texts of the schema files. -/
def texts : TextFiles := textDirectory [(c!"include.xsd", include_text), (c!"include_other.xsd", include_other_text)]

theorem texts_files : texts.files = dir := directory_texts (fs := [(c!"include.xsd", include_text, include_xsd), (c!"include_other.xsd", include_other_text, include_other_xsd)]) (by decide +kernel)

/-- `xsd/tests/xsd/include.xml` -/
def xml : Doc := ⟨(⟨⟨c!"article", none⟩, [], [], 39⟩,
  [.text c!"\n  ",
   .elem ⟨⟨c!"content", none⟩, [], [], 51⟩
     [.text c!"\n    ",
      .elem ⟨⟨c!"excerpt", none⟩, [], [], 65⟩
       [.text c!"Lorem Ipsum"],
      .text c!"\n    ",
      .elem ⟨⟨c!"author", none⟩, [], [], 100⟩
       [.text c!"\n      ",
        .elem ⟨⟨c!"name", none⟩, [], [], 115⟩
         [.text c!"Foobar"],
        .text c!"\n    "],
      .text c!"\n  "],
   .text c!"\n"])⟩

/-- The tags and texts that are written (`xsd/tests/include.rs`). -/
def written : List Ev :=
  [.start c!"article" [] [],
   .start c!"content" [] [],
   .start c!"excerpt" [] [],
   .chars c!"Lorem Ipsum",
   .fin,
   .start c!"author" [] [],
   .start c!"name" [] [],
   .chars c!"Foobar",
   .fin,
   .fin,
   .fin,
   .fin]

/-- The expected value (`xsd/tests/include.rs`). -/
def expected : Val := .struct [(c!"content", .struct [(c!"excerpt", .str c!"Lorem Ipsum"), (c!"author", .struct [(c!"name", .str c!"Foobar")])])]

/-- The text of `xsd/tests/xsd/include.xml`. -/
def text : Str := c!"<?xml version=\"1.0\" encoding=\"UTF-8\"?>\n<article>\n  <content>\n    <excerpt>Lorem Ipsum</excerpt>\n    <author>\n      <name>Foobar</name>\n    </author>\n  </content>\n</article>"

/-- The text that is written. -/
def writtenText : Str := text

example : passes dir c!"include.xsd" c!"Article" xml written expected = true := by decide +kernel

example : passesText texts.files c!"include.xsd" c!"Article" text writtenText expected = true := by rw [texts_files]; decide +kernel

example : Covered dir c!"include.xsd" true := coveredB_sound (by decide +kernel)

end include_test

end Xsd.Conformance
