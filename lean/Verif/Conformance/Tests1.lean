import Verif.Conformance.Covered
/-!
# Tests of the repository, evaluated in the model

Made by `tools/conformance.py`.
-/
namespace Xsd.Conformance

/-! ## `all.rs` -/

namespace all_test

/-- `xsd/tests/xsd/all.xsd` -/
def all_xsd : Elem := (⟨⟨c!"schema", (some c!"http://www.w3.org/2001/XMLSchema")⟩, [], [((some c!"xs"), c!"http://www.w3.org/2001/XMLSchema")], 22⟩,
  [.text c!"\n  ",
   .elem ⟨⟨c!"element", (some c!"http://www.w3.org/2001/XMLSchema")⟩, [⟨c!"name", none, c!"all", 92⟩], [((some c!"xs"), c!"http://www.w3.org/2001/XMLSchema")], 80⟩
     [.text c!"\n    ",
      .elem ⟨⟨c!"complexType", (some c!"http://www.w3.org/2001/XMLSchema")⟩, [], [((some c!"xs"), c!"http://www.w3.org/2001/XMLSchema")], 108⟩
       [.text c!"\n      ",
        .elem ⟨⟨c!"all", (some c!"http://www.w3.org/2001/XMLSchema")⟩, [], [((some c!"xs"), c!"http://www.w3.org/2001/XMLSchema")], 131⟩
         [.text c!"\n        ",
          .elem ⟨⟨c!"annotation", (some c!"http://www.w3.org/2001/XMLSchema")⟩, [], [((some c!"xs"), c!"http://www.w3.org/2001/XMLSchema")], 148⟩
           [.text c!"\n          ",
            .elem ⟨⟨c!"documentation", (some c!"http://www.w3.org/2001/XMLSchema")⟩, [], [((some c!"xs"), c!"http://www.w3.org/2001/XMLSchema")], 174⟩
             [.text c!"all"],
            .text c!"\n        "],
          .text c!"\n        ",
          .elem ⟨⟨c!"element", (some c!"http://www.w3.org/2001/XMLSchema")⟩, [⟨c!"name", none, c!"first", 260⟩, ⟨c!"type", none, c!"xs:string", 273⟩], [((some c!"xs"), c!"http://www.w3.org/2001/XMLSchema")], 248⟩
           [],
          .text c!"\n        ",
          .elem ⟨⟨c!"element", (some c!"http://www.w3.org/2001/XMLSchema")⟩, [⟨c!"name", none, c!"second", 313⟩, ⟨c!"type", none, c!"xs:string", 327⟩], [((some c!"xs"), c!"http://www.w3.org/2001/XMLSchema")], 301⟩
           [],
          .text c!"\n        ",
          .elem ⟨⟨c!"element", (some c!"http://www.w3.org/2001/XMLSchema")⟩, [⟨c!"name", none, c!"third", 367⟩, ⟨c!"type", none, c!"xs:string", 380⟩], [((some c!"xs"), c!"http://www.w3.org/2001/XMLSchema")], 355⟩
           [],
          .text c!"\n      "],
        .text c!"\n    "],
      .text c!"\n  "],
   .text c!"\n"])

/-- The text of `xsd/tests/xsd/all.xsd`. -/
def all_text : Str := c!"<?xml version=\"1.0\"?>\n<xs:schema xmlns:xs=\"http://www.w3.org/2001/XMLSchema\">\n  <xs:element name=\"all\">\n    <xs:complexType>\n      <xs:all>\n        <xs:annotation>\n          <xs:documentation>all</xs:documentation>\n        </xs:annotation>\n        <xs:element name=\"first\" type=\"xs:string\" />\n        <xs:element name=\"second\" type=\"xs:string\" />\n        <xs:element name=\"third\" type=\"xs:string\" />\n      </xs:all>\n    </xs:complexType>\n  </xs:element>\n</xs:schema>"

/-- The schema files. -/
def dir : Files := directory [(c!"all.xsd", all_text, all_xsd)]

/-- The texts of the schema files. -/
def texts : TextFiles := textDirectory [(c!"all.xsd", all_text)]

theorem texts_files : texts.files = dir := directory_texts (fs := [(c!"all.xsd", all_text, all_xsd)]) (by decide +kernel)

/-- `xsd/tests/xsd/all.xml` -/
def xml : Doc := ⟨(⟨⟨c!"all", none⟩, [], [], 39⟩,
  [.text c!"\n  ",
   .elem ⟨⟨c!"second", none⟩, [], [], 47⟩
     [.text c!"second"],
   .text c!"\n  ",
   .elem ⟨⟨c!"third", none⟩, [], [], 73⟩
     [.text c!"third"],
   .text c!"\n  ",
   .elem ⟨⟨c!"first", none⟩, [], [], 96⟩
     [.text c!"first"],
   .text c!"\n"])⟩

/-- The tags and texts that are written (`xsd/tests/all.rs`). -/
def written : List Ev :=
  [.start c!"all" [] [],
   .start c!"first" [] [],
   .chars c!"first",
   .fin,
   .start c!"second" [] [],
   .chars c!"second",
   .fin,
   .start c!"third" [] [],
   .chars c!"third",
   .fin,
   .fin]

/-- The expected value (`xsd/tests/all.rs`). -/
def expected : Val := .struct [(c!"first", .str c!"first"), (c!"second", .str c!"second"), (c!"third", .str c!"third")]

/-- The text of `xsd/tests/xsd/all.xml`. -/
def text : Str := c!"<?xml version=\"1.0\" encoding=\"UTF-8\"?>\n<all>\n  <second>second</second>\n  <third>third</third>\n  <first>first</first>\n</all>"

/-- The text that is written. -/
def writtenText : Str := c!"<?xml version=\"1.0\" encoding=\"UTF-8\"?>\n<all>\n  <first>first</first>\n  <second>second</second>\n  <third>third</third>\n</all>"

example : passes dir c!"all.xsd" c!"All" xml written expected = true := by decide +kernel

example : passesText texts.files c!"all.xsd" c!"All" text writtenText expected = true := by rw [texts_files]; decide +kernel

example : Covered dir c!"all.xsd" true := coveredB_sound (by decide +kernel)

end all_test

/-! ## `attribute_default.rs` -/

namespace attribute_default_test

/-- `xsd/tests/xsd/attribute_default.xsd` -/
def attribute_default_xsd : Elem := (⟨⟨c!"schema", (some c!"http://www.w3.org/2001/XMLSchema")⟩, [], [((some c!"xs"), c!"http://www.w3.org/2001/XMLSchema")], 22⟩,
  [.text c!"\n  ",
   .elem ⟨⟨c!"element", (some c!"http://www.w3.org/2001/XMLSchema")⟩, [⟨c!"name", none, c!"text", 92⟩], [((some c!"xs"), c!"http://www.w3.org/2001/XMLSchema")], 80⟩
     [.text c!"\n    ",
      .elem ⟨⟨c!"complexType", (some c!"http://www.w3.org/2001/XMLSchema")⟩, [], [((some c!"xs"), c!"http://www.w3.org/2001/XMLSchema")], 109⟩
       [.text c!"\n      ",
        .elem ⟨⟨c!"simpleContent", (some c!"http://www.w3.org/2001/XMLSchema")⟩, [], [((some c!"xs"), c!"http://www.w3.org/2001/XMLSchema")], 132⟩
         [.text c!"\n        ",
          .elem ⟨⟨c!"extension", (some c!"http://www.w3.org/2001/XMLSchema")⟩, [⟨c!"base", none, c!"xs:string", 173⟩], [((some c!"xs"), c!"http://www.w3.org/2001/XMLSchema")], 159⟩
           [.text c!"\n          ",
            .elem ⟨⟨c!"attribute", (some c!"http://www.w3.org/2001/XMLSchema")⟩, [⟨c!"name", none, c!"lang", 215⟩, ⟨c!"type", none, c!"xs:string", 227⟩, ⟨c!"default", none, c!"en", 244⟩], [((some c!"xs"), c!"http://www.w3.org/2001/XMLSchema")], 201⟩
             [],
            .text c!"\n        "],
          .text c!"\n      "],
        .text c!"\n    "],
      .text c!"\n  "],
   .text c!"\n"])

/-- The text of `xsd/tests/xsd/attribute_default.xsd`. -/
def attribute_default_text : Str := c!"<?xml version=\"1.0\"?>\n<xs:schema xmlns:xs=\"http://www.w3.org/2001/XMLSchema\">\n  <xs:element name=\"text\">\n    <xs:complexType>\n      <xs:simpleContent>\n        <xs:extension base=\"xs:string\">\n          <xs:attribute name=\"lang\" type=\"xs:string\" default=\"en\" />\n        </xs:extension>\n      </xs:simpleContent>\n    </xs:complexType>\n  </xs:element>\n</xs:schema>"

/-- The schema files. -/
def dir : Files := directory [(c!"attribute_default.xsd", attribute_default_text, attribute_default_xsd)]

/-- The texts of the schema files. -/
def texts : TextFiles := textDirectory [(c!"attribute_default.xsd", attribute_default_text)]

theorem texts_files : texts.files = dir := directory_texts (fs := [(c!"attribute_default.xsd", attribute_default_text, attribute_default_xsd)]) (by decide +kernel)

/-- `xsd/tests/xsd/attribute_default.xml` -/
def xml : Doc := ⟨(⟨⟨c!"text", none⟩, [], [], 39⟩,
  [.text c!"foobar"])⟩

/-- The tags and texts that are written (`xsd/tests/attribute_default.rs`). -/
def written : List Ev :=
  [.start c!"text" [] [],
   .chars c!"foobar",
   .fin]

/-- The expected value (`xsd/tests/attribute_default.rs`). -/
def expected : Val := .struct [(c!"text", .str c!"foobar"), (c!"lang", .none)]

/-- The text of `xsd/tests/xsd/attribute_default.xml`. -/
def text : Str := c!"<?xml version=\"1.0\" encoding=\"UTF-8\"?>\n<text>foobar</text>"

/-- The text that is written. -/
def writtenText : Str := text

example : passes dir c!"attribute_default.xsd" c!"Text" xml written expected = true := by decide +kernel

example : passesText texts.files c!"attribute_default.xsd" c!"Text" text writtenText expected = true := by rw [texts_files]; decide +kernel

example : Covered dir c!"attribute_default.xsd" true := coveredB_sound (by decide +kernel)

end attribute_default_test

/-! ## `attribute_simple_type.rs` -/

namespace attribute_simple_type_test

/-- `xsd/tests/xsd/attribute_simple_type.xsd` -/
def attribute_simple_type_xsd : Elem := (⟨⟨c!"schema", (some c!"http://www.w3.org/2001/XMLSchema")⟩, [], [((some c!"xs"), c!"http://www.w3.org/2001/XMLSchema")], 22⟩,
  [.text c!"\n  ",
   .elem ⟨⟨c!"element", (some c!"http://www.w3.org/2001/XMLSchema")⟩, [⟨c!"name", none, c!"text", 92⟩], [((some c!"xs"), c!"http://www.w3.org/2001/XMLSchema")], 80⟩
     [.text c!"\n    ",
      .elem ⟨⟨c!"complexType", (some c!"http://www.w3.org/2001/XMLSchema")⟩, [], [((some c!"xs"), c!"http://www.w3.org/2001/XMLSchema")], 109⟩
       [.text c!"\n      ",
        .elem ⟨⟨c!"simpleContent", (some c!"http://www.w3.org/2001/XMLSchema")⟩, [], [((some c!"xs"), c!"http://www.w3.org/2001/XMLSchema")], 132⟩
         [.text c!"\n        ",
          .elem ⟨⟨c!"extension", (some c!"http://www.w3.org/2001/XMLSchema")⟩, [⟨c!"base", none, c!"xs:string", 173⟩], [((some c!"xs"), c!"http://www.w3.org/2001/XMLSchema")], 159⟩
           [.text c!"\n          ",
            .elem ⟨⟨c!"attribute", (some c!"http://www.w3.org/2001/XMLSchema")⟩, [⟨c!"name", none, c!"lang", 215⟩, ⟨c!"use", none, c!"required", 227⟩], [((some c!"xs"), c!"http://www.w3.org/2001/XMLSchema")], 201⟩
             [.text c!"\n            ",
              .elem ⟨⟨c!"simpleType", (some c!"http://www.w3.org/2001/XMLSchema")⟩, [], [((some c!"xs"), c!"http://www.w3.org/2001/XMLSchema")], 255⟩
               [.text c!"\n              ",
                .elem ⟨⟨c!"restriction", (some c!"http://www.w3.org/2001/XMLSchema")⟩, [⟨c!"base", none, c!"xs:string", 301⟩], [((some c!"xs"), c!"http://www.w3.org/2001/XMLSchema")], 285⟩
                 [.text c!"\n                ",
                  .elem ⟨⟨c!"length", (some c!"http://www.w3.org/2001/XMLSchema")⟩, [⟨c!"value", none, c!"2", 346⟩], [((some c!"xs"), c!"http://www.w3.org/2001/XMLSchema")], 335⟩
                   [],
                  .text c!"\n              "],
                .text c!"\n            "],
              .text c!"\n          "],
            .text c!"\n        "],
          .text c!"\n      "],
        .text c!"\n    "],
      .text c!"\n  "],
   .text c!"\n"])

/-- The text of `xsd/tests/xsd/attribute_simple_type.xsd`. -/
def attribute_simple_type_text : Str := c!"<?xml version=\"1.0\"?>\n<xs:schema xmlns:xs=\"http://www.w3.org/2001/XMLSchema\">\n  <xs:element name=\"text\">\n    <xs:complexType>\n      <xs:simpleContent>\n        <xs:extension base=\"xs:string\">\n          <xs:attribute name=\"lang\" use=\"required\">\n            <xs:simpleType>\n              <xs:restriction base=\"xs:string\">\n                <xs:length value=\"2\"/>\n              </xs:restriction>\n            </xs:simpleType>\n          </xs:attribute>\n        </xs:extension>\n      </xs:simpleContent>\n    </xs:complexType>\n  </xs:element>\n</xs:schema>"

/-- The schema files. -/
def dir : Files := directory [(c!"attribute_simple_type.xsd", attribute_simple_type_text, attribute_simple_type_xsd)]

/-- The texts of the schema files. -/
def texts : TextFiles := textDirectory [(c!"attribute_simple_type.xsd", attribute_simple_type_text)]

theorem texts_files : texts.files = dir := directory_texts (fs := [(c!"attribute_simple_type.xsd", attribute_simple_type_text, attribute_simple_type_xsd)]) (by decide +kernel)

/-- `xsd/tests/xsd/attribute_simple_type.xml` -/
def xml : Doc := ⟨(⟨⟨c!"text", none⟩, [⟨c!"lang", none, c!"DE", 45⟩], [], 39⟩,
  [.text c!"Deutsch"])⟩

/-- The tags and texts that are written (`xsd/tests/attribute_simple_type.rs`). -/
def written : List Ev :=
  [.start c!"text" [(c!"lang", c!"DE")] [],
   .chars c!"Deutsch",
   .fin]

/-- The expected value (`xsd/tests/attribute_simple_type.rs`). -/
def expected : Val := .struct [(c!"text", .str c!"Deutsch"), (c!"lang", .str c!"DE")]

/-- The text of `xsd/tests/xsd/attribute_simple_type.xml`. -/
def text : Str := c!"<?xml version=\"1.0\" encoding=\"UTF-8\"?>\n<text lang=\"DE\">Deutsch</text>"

/-- The text that is written. -/
def writtenText : Str := text

example : passes dir c!"attribute_simple_type.xsd" c!"Text" xml written expected = true := by decide +kernel

example : passesText texts.files c!"attribute_simple_type.xsd" c!"Text" text writtenText expected = true := by rw [texts_files]; decide +kernel

example : Covered dir c!"attribute_simple_type.xsd" true := coveredB_sound (by decide +kernel)

end attribute_simple_type_test

/-! ## `attribute_use.rs` -/

namespace attribute_use_test

/-- `xsd/tests/xsd/attribute_use.xsd` -/
def attribute_use_xsd : Elem := (⟨⟨c!"schema", (some c!"http://www.w3.org/2001/XMLSchema")⟩, [], [((some c!"xs"), c!"http://www.w3.org/2001/XMLSchema")], 22⟩,
  [.text c!"\n  ",
   .elem ⟨⟨c!"element", (some c!"http://www.w3.org/2001/XMLSchema")⟩, [⟨c!"name", none, c!"setting", 92⟩], [((some c!"xs"), c!"http://www.w3.org/2001/XMLSchema")], 80⟩
     [.text c!"\n    ",
      .elem ⟨⟨c!"complexType", (some c!"http://www.w3.org/2001/XMLSchema")⟩, [], [((some c!"xs"), c!"http://www.w3.org/2001/XMLSchema")], 112⟩
       [.text c!"\n      ",
        .elem ⟨⟨c!"attribute", (some c!"http://www.w3.org/2001/XMLSchema")⟩, [⟨c!"name", none, c!"key", 149⟩, ⟨c!"type", none, c!"xs:string", 160⟩, ⟨c!"use", none, c!"required", 177⟩], [((some c!"xs"), c!"http://www.w3.org/2001/XMLSchema")], 135⟩
         [],
        .text c!"\n      ",
        .elem ⟨⟨c!"attribute", (some c!"http://www.w3.org/2001/XMLSchema")⟩, [⟨c!"name", none, c!"value", 215⟩, ⟨c!"type", none, c!"xs:string", 228⟩, ⟨c!"use", none, c!"optional", 245⟩], [((some c!"xs"), c!"http://www.w3.org/2001/XMLSchema")], 201⟩
         [],
        .text c!"\n      ",
        .elem ⟨⟨c!"attribute", (some c!"http://www.w3.org/2001/XMLSchema")⟩, [⟨c!"name", none, c!"debug", 283⟩, ⟨c!"type", none, c!"xs:boolean", 296⟩, ⟨c!"use", none, c!"prohibited", 314⟩], [((some c!"xs"), c!"http://www.w3.org/2001/XMLSchema")], 269⟩
         [],
        .text c!"\n    "],
      .text c!"\n  "],
   .text c!"\n"])

/-- The text of `xsd/tests/xsd/attribute_use.xsd`. -/
def attribute_use_text : Str := c!"<?xml version=\"1.0\"?>\n<xs:schema xmlns:xs=\"http://www.w3.org/2001/XMLSchema\">\n  <xs:element name=\"setting\">\n    <xs:complexType>\n      <xs:attribute name=\"key\" type=\"xs:string\" use=\"required\" />\n      <xs:attribute name=\"value\" type=\"xs:string\" use=\"optional\" />\n      <xs:attribute name=\"debug\" type=\"xs:boolean\" use=\"prohibited\" />\n    </xs:complexType>\n  </xs:element>\n</xs:schema>"

/-- The schema files. -/
def dir : Files := directory [(c!"attribute_use.xsd", attribute_use_text, attribute_use_xsd)]

/-- The texts of the schema files. -/
def texts : TextFiles := textDirectory [(c!"attribute_use.xsd", attribute_use_text)]

theorem texts_files : texts.files = dir := directory_texts (fs := [(c!"attribute_use.xsd", attribute_use_text, attribute_use_xsd)]) (by decide +kernel)

/-- `xsd/tests/xsd/attribute_use.xml` -/
def xml : Doc := ⟨(⟨⟨c!"setting", none⟩, [⟨c!"key", none, c!"foo", 48⟩, ⟨c!"value", none, c!"bar", 58⟩], [], 39⟩,
  [])⟩

/-- The tags and texts that are written (`xsd/tests/attribute_use.rs`). -/
def written : List Ev :=
  [.start c!"setting" [(c!"key", c!"foo"), (c!"value", c!"bar")] [],
   .fin]

/-- The expected value (`xsd/tests/attribute_use.rs`). -/
def expected : Val := .struct [(c!"key", .str c!"foo"), (c!"value", .some (.str c!"bar"))]

/-- The text of `xsd/tests/xsd/attribute_use.xml`. -/
def text : Str := c!"<?xml version=\"1.0\" encoding=\"UTF-8\"?>\n<setting key=\"foo\" value=\"bar\" />"

/-- The text that is written. -/
def writtenText : Str := text

example : passes dir c!"attribute_use.xsd" c!"Setting" xml written expected = true := by decide +kernel

example : passesText texts.files c!"attribute_use.xsd" c!"Setting" text writtenText expected = true := by rw [texts_files]; decide +kernel

example : Covered dir c!"attribute_use.xsd" true := coveredB_sound (by decide +kernel)

end attribute_use_test

/-! ## `choice_element_vec.rs` -/

namespace choice_element_vec_test

/-- `xsd/tests/xsd/choice_element_vec.xsd` -/
def choice_element_vec_xsd : Elem := (⟨⟨c!"schema", (some c!"http://www.w3.org/2001/XMLSchema")⟩, [], [((some c!"xs"), c!"http://www.w3.org/2001/XMLSchema")], 22⟩,
  [.text c!"\n  ",
   .elem ⟨⟨c!"element", (some c!"http://www.w3.org/2001/XMLSchema")⟩, [⟨c!"name", none, c!"shape", 92⟩], [((some c!"xs"), c!"http://www.w3.org/2001/XMLSchema")], 80⟩
     [.text c!"\n    ",
      .elem ⟨⟨c!"complexType", (some c!"http://www.w3.org/2001/XMLSchema")⟩, [], [((some c!"xs"), c!"http://www.w3.org/2001/XMLSchema")], 110⟩
       [.text c!"\n      ",
        .elem ⟨⟨c!"sequence", (some c!"http://www.w3.org/2001/XMLSchema")⟩, [], [((some c!"xs"), c!"http://www.w3.org/2001/XMLSchema")], 133⟩
         [.text c!"\n        ",
          .elem ⟨⟨c!"choice", (some c!"http://www.w3.org/2001/XMLSchema")⟩, [], [((some c!"xs"), c!"http://www.w3.org/2001/XMLSchema")], 155⟩
           [.text c!"\n          ",
            .elem ⟨⟨c!"element", (some c!"http://www.w3.org/2001/XMLSchema")⟩, [⟨c!"name", none, c!"points", 189⟩, ⟨c!"minOccurs", none, c!"1", 203⟩, ⟨c!"maxOccurs", none, c!"unbounded", 217⟩, ⟨c!"type", none, c!"xs:string", 239⟩], [((some c!"xs"), c!"http://www.w3.org/2001/XMLSchema")], 177⟩
             [],
            .text c!"\n          ",
            .elem ⟨⟨c!"element", (some c!"http://www.w3.org/2001/XMLSchema")⟩, [⟨c!"name", none, c!"lines", 281⟩, ⟨c!"minOccurs", none, c!"1", 294⟩, ⟨c!"maxOccurs", none, c!"unbounded", 308⟩, ⟨c!"type", none, c!"xs:string", 330⟩], [((some c!"xs"), c!"http://www.w3.org/2001/XMLSchema")], 269⟩
             [],
            .text c!"\n        "],
          .text c!"\n      "],
        .text c!"\n    "],
      .text c!"\n  "],
   .text c!"\n"])

/-- The text of `xsd/tests/xsd/choice_element_vec.xsd`. -/
def choice_element_vec_text : Str := c!"<?xml version=\"1.0\"?>\n<xs:schema xmlns:xs=\"http://www.w3.org/2001/XMLSchema\">\n  <xs:element name=\"shape\">\n    <xs:complexType>\n      <xs:sequence>\n        <xs:choice>\n          <xs:element name=\"points\" minOccurs=\"1\" maxOccurs=\"unbounded\" type=\"xs:string\" />\n          <xs:element name=\"lines\" minOccurs=\"1\" maxOccurs=\"unbounded\" type=\"xs:string\" />\n        </xs:choice>\n      </xs:sequence>\n    </xs:complexType>\n  </xs:element>\n</xs:schema>"

/-- The schema files. -/
def dir : Files := directory [(c!"choice_element_vec.xsd", choice_element_vec_text, choice_element_vec_xsd)]

/-- The texts of the schema files. -/
def texts : TextFiles := textDirectory [(c!"choice_element_vec.xsd", choice_element_vec_text)]

theorem texts_files : texts.files = dir := directory_texts (fs := [(c!"choice_element_vec.xsd", choice_element_vec_text, choice_element_vec_xsd)]) (by decide +kernel)

/-- `xsd/tests/xsd/choice_element_vec.xml` -/
def xml : Doc := ⟨(⟨⟨c!"shape", none⟩, [], [], 39⟩,
  [.text c!"\n  ",
   .elem ⟨⟨c!"points", none⟩, [], [], 49⟩
     [.text c!"1,2"],
   .text c!"\n  ",
   .elem ⟨⟨c!"points", none⟩, [], [], 72⟩
     [.text c!"2,3"],
   .text c!"\n"])⟩

/-- The tags and texts that are written (`xsd/tests/choice_element_vec.rs`). -/
def written : List Ev :=
  [.start c!"shape" [] [],
   .start c!"points" [] [],
   .chars c!"1,2",
   .fin,
   .start c!"points" [] [],
   .chars c!"2,3",
   .fin,
   .fin]

/-- The expected value (`xsd/tests/choice_element_vec.rs`). -/
def expected : Val := .struct [(c!"s", .variant c!"Points" (.vec [.str c!"1,2", .str c!"2,3"]))]

/-- The text of `xsd/tests/xsd/choice_element_vec.xml`. -/
def text : Str := c!"<?xml version=\"1.0\" encoding=\"UTF-8\"?>\n<shape>\n  <points>1,2</points>\n  <points>2,3</points>\n</shape>"

/-- The text that is written. -/
def writtenText : Str := text

example : passes dir c!"choice_element_vec.xsd" c!"Shape" xml written expected = true := by decide +kernel

example : passesText texts.files c!"choice_element_vec.xsd" c!"Shape" text writtenText expected = true := by rw [texts_files]; decide +kernel

example : Covered dir c!"choice_element_vec.xsd" true := coveredB_sound (by decide +kernel)

end choice_element_vec_test

/-! ## `choice_literal.rs` -/

namespace choice_literal_test

/-- `xsd/tests/xsd/choice_literal.xsd` -/
def choice_literal_xsd : Elem := (⟨⟨c!"schema", (some c!"http://www.w3.org/2001/XMLSchema")⟩, [], [((some c!"xs"), c!"http://www.w3.org/2001/XMLSchema")], 22⟩,
  [.text c!"\n  ",
   .elem ⟨⟨c!"element", (some c!"http://www.w3.org/2001/XMLSchema")⟩, [⟨c!"name", none, c!"article", 92⟩], [((some c!"xs"), c!"http://www.w3.org/2001/XMLSchema")], 80⟩
     [.text c!"\n    ",
      .elem ⟨⟨c!"complexType", (some c!"http://www.w3.org/2001/XMLSchema")⟩, [], [((some c!"xs"), c!"http://www.w3.org/2001/XMLSchema")], 112⟩
       [.text c!"\n      ",
        .elem ⟨⟨c!"sequence", (some c!"http://www.w3.org/2001/XMLSchema")⟩, [], [((some c!"xs"), c!"http://www.w3.org/2001/XMLSchema")], 135⟩
         [.text c!"\n        ",
          .elem ⟨⟨c!"choice", (some c!"http://www.w3.org/2001/XMLSchema")⟩, [], [((some c!"xs"), c!"http://www.w3.org/2001/XMLSchema")], 157⟩
           [.text c!"\n          ",
            .elem ⟨⟨c!"element", (some c!"http://www.w3.org/2001/XMLSchema")⟩, [⟨c!"name", none, c!"user", 191⟩, ⟨c!"type", none, c!"xs:string", 203⟩], [((some c!"xs"), c!"http://www.w3.org/2001/XMLSchema")], 179⟩
             [],
            .text c!"\n          ",
            .elem ⟨⟨c!"element", (some c!"http://www.w3.org/2001/XMLSchema")⟩, [⟨c!"name", none, c!"bot", 245⟩, ⟨c!"type", none, c!"xs:string", 256⟩], [((some c!"xs"), c!"http://www.w3.org/2001/XMLSchema")], 233⟩
             [],
            .text c!"\n        "],
          .text c!"\n      "],
        .text c!"\n    "],
      .text c!"\n  "],
   .text c!"\n"])

/-- The text of `xsd/tests/xsd/choice_literal.xsd`. -/
def choice_literal_text : Str := c!"<?xml version=\"1.0\"?>\n<xs:schema xmlns:xs=\"http://www.w3.org/2001/XMLSchema\">\n  <xs:element name=\"article\">\n    <xs:complexType>\n      <xs:sequence>\n        <xs:choice>\n          <xs:element name=\"user\" type=\"xs:string\" />\n          <xs:element name=\"bot\" type=\"xs:string\" />\n        </xs:choice>\n      </xs:sequence>\n    </xs:complexType>\n  </xs:element>\n</xs:schema>"

/-- The schema files. -/
def dir : Files := directory [(c!"choice_literal.xsd", choice_literal_text, choice_literal_xsd)]

/-- The texts of the schema files. -/
def texts : TextFiles := textDirectory [(c!"choice_literal.xsd", choice_literal_text)]

theorem texts_files : texts.files = dir := directory_texts (fs := [(c!"choice_literal.xsd", choice_literal_text, choice_literal_xsd)]) (by decide +kernel)

/-- `xsd/tests/xsd/choice_literal.xml` -/
def xml : Doc := ⟨(⟨⟨c!"article", none⟩, [], [], 39⟩,
  [.text c!"\n  ",
   .elem ⟨⟨c!"bot", none⟩, [], [], 51⟩
     [.text c!"foobot"],
   .text c!"\n"])⟩

/-- The tags and texts that are written (`xsd/tests/choice_literal.rs`). -/
def written : List Ev :=
  [.start c!"article" [] [],
   .start c!"bot" [] [],
   .chars c!"foobot",
   .fin,
   .fin]

/-- The expected value (`xsd/tests/choice_literal.rs`). -/
def expected : Val := .struct [(c!"user_bot", .variant c!"Bot" (.str c!"foobot"))]

/-- The text of `xsd/tests/xsd/choice_literal.xml`. -/
def text : Str := c!"<?xml version=\"1.0\" encoding=\"UTF-8\"?>\n<article>\n  <bot>foobot</bot>\n</article>"

/-- The text that is written. -/
def writtenText : Str := text

example : passes dir c!"choice_literal.xsd" c!"Article" xml written expected = true := by decide +kernel

example : passesText texts.files c!"choice_literal.xsd" c!"Article" text writtenText expected = true := by rw [texts_files]; decide +kernel

example : Covered dir c!"choice_literal.xsd" true := coveredB_sound (by decide +kernel)

end choice_literal_test

/-! ## `choice_optional.rs` -/

namespace choice_optional_test

/-- `xsd/tests/xsd/choice_optional.xsd` -/
def choice_optional_xsd : Elem := (⟨⟨c!"schema", (some c!"http://www.w3.org/2001/XMLSchema")⟩, [], [((some c!"xs"), c!"http://www.w3.org/2001/XMLSchema")], 22⟩,
  [.text c!"\n  ",
   .elem ⟨⟨c!"complexType", (some c!"http://www.w3.org/2001/XMLSchema")⟩, [⟨c!"name", none, c!"User", 96⟩], [((some c!"xs"), c!"http://www.w3.org/2001/XMLSchema")], 80⟩
     [.text c!"\n    ",
      .elem ⟨⟨c!"sequence", (some c!"http://www.w3.org/2001/XMLSchema")⟩, [], [((some c!"xs"), c!"http://www.w3.org/2001/XMLSchema")], 113⟩
       [.text c!"\n      ",
        .elem ⟨⟨c!"element", (some c!"http://www.w3.org/2001/XMLSchema")⟩, [⟨c!"name", none, c!"name", 145⟩, ⟨c!"type", none, c!"xs:string", 157⟩], [((some c!"xs"), c!"http://www.w3.org/2001/XMLSchema")], 133⟩
         [],
        .text c!"\n    "],
      .text c!"\n  "],
   .text c!"\n  ",
   .elem ⟨⟨c!"complexType", (some c!"http://www.w3.org/2001/XMLSchema")⟩, [⟨c!"name", none, c!"Bot", 234⟩], [((some c!"xs"), c!"http://www.w3.org/2001/XMLSchema")], 218⟩
     [.text c!"\n    ",
      .elem ⟨⟨c!"sequence", (some c!"http://www.w3.org/2001/XMLSchema")⟩, [], [((some c!"xs"), c!"http://www.w3.org/2001/XMLSchema")], 250⟩
       [.text c!"\n      ",
        .elem ⟨⟨c!"element", (some c!"http://www.w3.org/2001/XMLSchema")⟩, [⟨c!"name", none, c!"handle", 282⟩, ⟨c!"type", none, c!"xs:string", 296⟩], [((some c!"xs"), c!"http://www.w3.org/2001/XMLSchema")], 270⟩
         [],
        .text c!"\n    "],
      .text c!"\n  "],
   .text c!"\n  ",
   .elem ⟨⟨c!"element", (some c!"http://www.w3.org/2001/XMLSchema")⟩, [⟨c!"name", none, c!"article", 369⟩], [((some c!"xs"), c!"http://www.w3.org/2001/XMLSchema")], 357⟩
     [.text c!"\n    ",
      .elem ⟨⟨c!"complexType", (some c!"http://www.w3.org/2001/XMLSchema")⟩, [], [((some c!"xs"), c!"http://www.w3.org/2001/XMLSchema")], 389⟩
       [.text c!"\n      ",
        .elem ⟨⟨c!"sequence", (some c!"http://www.w3.org/2001/XMLSchema")⟩, [], [((some c!"xs"), c!"http://www.w3.org/2001/XMLSchema")], 412⟩
         [.text c!"\n        ",
          .elem ⟨⟨c!"element", (some c!"http://www.w3.org/2001/XMLSchema")⟩, [⟨c!"name", none, c!"body", 446⟩, ⟨c!"type", none, c!"xs:string", 458⟩], [((some c!"xs"), c!"http://www.w3.org/2001/XMLSchema")], 434⟩
           [],
          .text c!"\n        ",
          .elem ⟨⟨c!"choice", (some c!"http://www.w3.org/2001/XMLSchema")⟩, [⟨c!"minOccurs", none, c!"0", 497⟩, ⟨c!"maxOccurs", none, c!"1", 511⟩], [((some c!"xs"), c!"http://www.w3.org/2001/XMLSchema")], 486⟩
           [.text c!"\n          ",
            .elem ⟨⟨c!"element", (some c!"http://www.w3.org/2001/XMLSchema")⟩, [⟨c!"name", none, c!"user", 548⟩, ⟨c!"type", none, c!"User", 560⟩], [((some c!"xs"), c!"http://www.w3.org/2001/XMLSchema")], 536⟩
             [],
            .text c!"\n          ",
            .elem ⟨⟨c!"element", (some c!"http://www.w3.org/2001/XMLSchema")⟩, [⟨c!"name", none, c!"bot", 597⟩, ⟨c!"type", none, c!"Bot", 608⟩], [((some c!"xs"), c!"http://www.w3.org/2001/XMLSchema")], 585⟩
             [],
            .text c!"\n        "],
          .text c!"\n      "],
        .text c!"\n    "],
      .text c!"\n  "],
   .text c!"\n"])

/-- The text of `xsd/tests/xsd/choice_optional.xsd`. -/
def choice_optional_text : Str := c!"<?xml version=\"1.0\"?>\n<xs:schema xmlns:xs=\"http://www.w3.org/2001/XMLSchema\">\n  <xs:complexType name=\"User\">\n    <xs:sequence>\n      <xs:element name=\"name\" type=\"xs:string\" />\n    </xs:sequence>\n  </xs:complexType>\n  <xs:complexType name=\"Bot\">\n    <xs:sequence>\n      <xs:element name=\"handle\" type=\"xs:string\" />\n    </xs:sequence>\n  </xs:complexType>\n  <xs:element name=\"article\">\n    <xs:complexType>\n      <xs:sequence>\n        <xs:element name=\"body\" type=\"xs:string\" />\n        <xs:choice minOccurs=\"0\" maxOccurs=\"1\">\n          <xs:element name=\"user\" type=\"User\" />\n          <xs:element name=\"bot\" type=\"Bot\" />\n        </xs:choice>\n      </xs:sequence>\n    </xs:complexType>\n  </xs:element>\n</xs:schema>"

/-- The schema files. -/
def dir : Files := directory [(c!"choice_optional.xsd", choice_optional_text, choice_optional_xsd)]

/-- The texts of the schema files. -/
def texts : TextFiles := textDirectory [(c!"choice_optional.xsd", choice_optional_text)]

theorem texts_files : texts.files = dir := directory_texts (fs := [(c!"choice_optional.xsd", choice_optional_text, choice_optional_xsd)]) (by decide +kernel)

/-- `xsd/tests/xsd/choice_optional.xml` -/
def xml : Doc := ⟨(⟨⟨c!"article", none⟩, [], [], 39⟩,
  [.text c!"\n  ",
   .elem ⟨⟨c!"body", none⟩, [], [], 51⟩
     [.text c!"Lorem Ipsum"],
   .text c!"\n  ",
   .elem ⟨⟨c!"bot", none⟩, [], [], 78⟩
     [.text c!"\n    ",
      .elem ⟨⟨c!"handle", none⟩, [], [], 88⟩
       [.text c!"foobot"],
      .text c!"\n  "],
   .text c!"\n"])⟩

/-- The tags and texts that are written (`xsd/tests/choice_optional.rs`). -/
def written : List Ev :=
  [.start c!"article" [] [],
   .start c!"body" [] [],
   .chars c!"Lorem Ipsum",
   .fin,
   .start c!"bot" [] [],
   .start c!"handle" [] [],
   .chars c!"foobot",
   .fin,
   .fin,
   .fin]

/-- The expected value (`xsd/tests/choice_optional.rs`). -/
def expected : Val := .struct [(c!"body", .str c!"Lorem Ipsum"), (c!"user_bot", .some (.variant c!"Bot" (.struct [(c!"handle", .str c!"foobot")])))]

/-- The text of `xsd/tests/xsd/choice_optional.xml`. -/
def text : Str := c!"<?xml version=\"1.0\" encoding=\"UTF-8\"?>\n<article>\n  <body>Lorem Ipsum</body>\n  <bot>\n    <handle>foobot</handle>\n  </bot>\n</article>"

/-- The text that is written. -/
def writtenText : Str := text

example : passes dir c!"choice_optional.xsd" c!"Article" xml written expected = true := by decide +kernel

example : passesText texts.files c!"choice_optional.xsd" c!"Article" text writtenText expected = true := by rw [texts_files]; decide +kernel

example : Covered dir c!"choice_optional.xsd" true := coveredB_sound (by decide +kernel)

end choice_optional_test

/-! ## `choice_selection_optional.rs` -/

namespace choice_selection_optional_test

/-- `xsd/tests/xsd/choice_selection_optional.xsd` -/
def choice_selection_optional_xsd : Elem := (⟨⟨c!"schema", (some c!"http://www.w3.org/2001/XMLSchema")⟩, [], [((some c!"xs"), c!"http://www.w3.org/2001/XMLSchema")], 22⟩,
  [.text c!"\n  ",
   .elem ⟨⟨c!"complexType", (some c!"http://www.w3.org/2001/XMLSchema")⟩, [⟨c!"name", none, c!"GeometryType", 96⟩], [((some c!"xs"), c!"http://www.w3.org/2001/XMLSchema")], 80⟩
     [.text c!"\n\t\t",
      .elem ⟨⟨c!"sequence", (some c!"http://www.w3.org/2001/XMLSchema")⟩, [], [((some c!"xs"), c!"http://www.w3.org/2001/XMLSchema")], 119⟩
       [.text c!"\n\t\t\t",
        .elem ⟨⟨c!"element", (some c!"http://www.w3.org/2001/XMLSchema")⟩, [⟨c!"name", none, c!"diameter", 148⟩, ⟨c!"type", none, c!"xs:float", 164⟩], [((some c!"xs"), c!"http://www.w3.org/2001/XMLSchema")], 136⟩
         [],
        .text c!"\n\t\t\t",
        .elem ⟨⟨c!"choice", (some c!"http://www.w3.org/2001/XMLSchema")⟩, [], [((some c!"xs"), c!"http://www.w3.org/2001/XMLSchema")], 186⟩
         [.text c!"\n\t\t\t\t",
          .elem ⟨⟨c!"sequence", (some c!"http://www.w3.org/2001/XMLSchema")⟩, [], [((some c!"xs"), c!"http://www.w3.org/2001/XMLSchema")], 202⟩
           [.text c!"\n\t\t\t\t\t",
            .elem ⟨⟨c!"element", (some c!"http://www.w3.org/2001/XMLSchema")⟩, [⟨c!"name", none, c!"thickness", 233⟩, ⟨c!"minOccurs", none, c!"0", 250⟩, ⟨c!"maxOccurs", none, c!"unbounded", 264⟩], [((some c!"xs"), c!"http://www.w3.org/2001/XMLSchema")], 221⟩
             [.text c!"\n\t\t\t\t\t\t",
              .elem ⟨⟨c!"complexType", (some c!"http://www.w3.org/2001/XMLSchema")⟩, [], [((some c!"xs"), c!"http://www.w3.org/2001/XMLSchema")], 293⟩
               [.text c!"\n\t\t\t\t\t\t\t",
                .elem ⟨⟨c!"simpleContent", (some c!"http://www.w3.org/2001/XMLSchema")⟩, [], [((some c!"xs"), c!"http://www.w3.org/2001/XMLSchema")], 317⟩
                 [.text c!"\n\t\t\t\t\t\t\t\t",
                  .elem ⟨⟨c!"extension", (some c!"http://www.w3.org/2001/XMLSchema")⟩, [⟨c!"base", none, c!"xs:float", 358⟩], [((some c!"xs"), c!"http://www.w3.org/2001/XMLSchema")], 344⟩
                   [.text c!"\n\t\t\t\t\t\t\t\t\t",
                    .elem ⟨⟨c!"attribute", (some c!"http://www.w3.org/2001/XMLSchema")⟩, [⟨c!"name", none, c!"reference", 398⟩, ⟨c!"type", none, c!"xs:string", 415⟩, ⟨c!"use", none, c!"required", 432⟩], [((some c!"xs"), c!"http://www.w3.org/2001/XMLSchema")], 384⟩
                     [],
                    .text c!"\n\t\t\t\t\t\t\t\t"],
                  .text c!"\n\t\t\t\t\t\t\t"],
                .text c!"\n\t\t\t\t\t\t"],
              .text c!"\n\t\t\t\t\t"],
            .text c!"\n\t\t\t\t\t",
            .elem ⟨⟨c!"element", (some c!"http://www.w3.org/2001/XMLSchema")⟩, [⟨c!"name", none, c!"thicknessReduction", 561⟩, ⟨c!"default", none, c!"false", 587⟩, ⟨c!"minOccurs", none, c!"0", 603⟩], [((some c!"xs"), c!"http://www.w3.org/2001/XMLSchema")], 549⟩
             [.text c!"\n\t\t\t\t\t\t",
              .elem ⟨⟨c!"complexType", (some c!"http://www.w3.org/2001/XMLSchema")⟩, [], [((some c!"xs"), c!"http://www.w3.org/2001/XMLSchema")], 624⟩
               [.text c!"\n\t\t\t\t\t\t\t",
                .elem ⟨⟨c!"simpleContent", (some c!"http://www.w3.org/2001/XMLSchema")⟩, [], [((some c!"xs"), c!"http://www.w3.org/2001/XMLSchema")], 648⟩
                 [.text c!"\n\t\t\t\t\t\t\t\t",
                  .elem ⟨⟨c!"extension", (some c!"http://www.w3.org/2001/XMLSchema")⟩, [⟨c!"base", none, c!"xs:boolean", 689⟩], [((some c!"xs"), c!"http://www.w3.org/2001/XMLSchema")], 675⟩
                   [.text c!"\n\t\t\t\t\t\t\t\t\t",
                    .elem ⟨⟨c!"attribute", (some c!"http://www.w3.org/2001/XMLSchema")⟩, [⟨c!"name", none, c!"reference", 731⟩, ⟨c!"type", none, c!"xs:string", 748⟩, ⟨c!"use", none, c!"required", 765⟩], [((some c!"xs"), c!"http://www.w3.org/2001/XMLSchema")], 717⟩
                     [],
                    .text c!"\n\t\t\t\t\t\t\t\t"],
                  .text c!"\n\t\t\t\t\t\t\t"],
                .text c!"\n\t\t\t\t\t\t"],
              .text c!"\n\t\t\t\t\t"],
            .text c!"\n\t\t\t\t"],
          .text c!"\n\t\t\t\t",
          .elem ⟨⟨c!"element", (some c!"http://www.w3.org/2001/XMLSchema")⟩, [⟨c!"name", none, c!"thicknessReductionThin", 912⟩, ⟨c!"type", none, c!"xs:boolean", 942⟩, ⟨c!"default", none, c!"false", 960⟩, ⟨c!"minOccurs", none, c!"0", 976⟩], [((some c!"xs"), c!"http://www.w3.org/2001/XMLSchema")], 900⟩
           [],
          .text c!"\n\t\t\t"],
        .text c!"\n\t\t"],
      .text c!"\n\t"],
   .text c!"\n  ",
   .elem ⟨⟨c!"element", (some c!"http://www.w3.org/2001/XMLSchema")⟩, [⟨c!"name", none, c!"geometry", 1059⟩, ⟨c!"type", none, c!"GeometryType", 1075⟩], [((some c!"xs"), c!"http://www.w3.org/2001/XMLSchema")], 1047⟩
     [],
   .text c!"\n"])

/-- The text of `xsd/tests/xsd/choice_selection_optional.xsd`. -/
def choice_selection_optional_text : Str := c!"<?xml version=\"1.0\"?>\n<xs:schema xmlns:xs=\"http://www.w3.org/2001/XMLSchema\">\n  <xs:complexType name=\"GeometryType\">\n\t\t<xs:sequence>\n\t\t\t<xs:element name=\"diameter\" type=\"xs:float\" />\n\t\t\t<xs:choice>\n\t\t\t\t<xs:sequence>\n\t\t\t\t\t<xs:element name=\"thickness\" minOccurs=\"0\" maxOccurs=\"unbounded\">\n\t\t\t\t\t\t<xs:complexType>\n\t\t\t\t\t\t\t<xs:simpleContent>\n\t\t\t\t\t\t\t\t<xs:extension base=\"xs:float\">\n\t\t\t\t\t\t\t\t\t<xs:attribute name=\"reference\" type=\"xs:string\" use=\"required\" />\n\t\t\t\t\t\t\t\t</xs:extension>\n\t\t\t\t\t\t\t</xs:simpleContent>\n\t\t\t\t\t\t</xs:complexType>\n\t\t\t\t\t</xs:element>\n\t\t\t\t\t<xs:element name=\"thicknessReduction\" default=\"false\" minOccurs=\"0\">\n\t\t\t\t\t\t<xs:complexType>\n\t\t\t\t\t\t\t<xs:simpleContent>\n\t\t\t\t\t\t\t\t<xs:extension base=\"xs:boolean\">\n\t\t\t\t\t\t\t\t\t<xs:attribute name=\"reference\" type=\"xs:string\" use=\"required\" />\n\t\t\t\t\t\t\t\t</xs:extension>\n\t\t\t\t\t\t\t</xs:simpleContent>\n\t\t\t\t\t\t</xs:complexType>\n\t\t\t\t\t</xs:element>\n\t\t\t\t</xs:sequence>\n\t\t\t\t<xs:element name=\"thicknessReductionThin\" type=\"xs:boolean\" default=\"false\" minOccurs=\"0\" />\n\t\t\t</xs:choice>\n\t\t</xs:sequence>\n\t</xs:complexType>\n  <xs:element name=\"geometry\" type=\"GeometryType\" />\n</xs:schema>"

/-- The schema files. -/
def dir : Files := directory [(c!"choice_selection_optional.xsd", choice_selection_optional_text, choice_selection_optional_xsd)]

/-- The texts of the schema files. -/
def texts : TextFiles := textDirectory [(c!"choice_selection_optional.xsd", choice_selection_optional_text)]

theorem texts_files : texts.files = dir := directory_texts (fs := [(c!"choice_selection_optional.xsd", choice_selection_optional_text, choice_selection_optional_xsd)]) (by decide +kernel)

/-- `xsd/tests/xsd/choice_selection_optional.xml` -/
def xml : Doc := ⟨(⟨⟨c!"geometry", none⟩, [], [], 39⟩,
  [.text c!"\n  ",
   .elem ⟨⟨c!"diameter", none⟩, [], [], 52⟩
     [.text c!"12.4"],
   .text c!"\n  ",
   .elem ⟨⟨c!"thicknessReduction", none⟩, [⟨c!"reference", none, c!"shape", 100⟩], [], 80⟩
     [.text c!"true"],
   .text c!"\n"])⟩

/-- The tags and texts that are written (`xsd/tests/choice_selection_optional.rs`). -/
def written : List Ev :=
  [.start c!"geometry" [] [],
   .start c!"diameter" [] [],
   .chars c!"12.4",
   .fin,
   .start c!"thicknessReduction" [(c!"reference", c!"shape")] [],
   .chars c!"true",
   .fin,
   .fin]

/-- The expected value (`xsd/tests/choice_selection_optional.rs`). -/
def expected : Val := .newtype (.struct [(c!"diameter", .flt 124), (c!"thickness", .variant c!"Thickness" (.struct [(c!"thickness", .none), (c!"thickness_reduction", .some (.struct [(c!"geometry_type_thickness_reduction_data", .bool true), (c!"reference", .str c!"shape")]))]))])

/-- The text of `xsd/tests/xsd/choice_selection_optional.xml`. -/
def text : Str := c!"<?xml version=\"1.0\" encoding=\"UTF-8\"?>\n<geometry>\n  <diameter>12.4</diameter>\n  <thicknessReduction reference=\"shape\">true</thicknessReduction>\n</geometry>"

/-- The text that is written. -/
def writtenText : Str := text

example : passes dir c!"choice_selection_optional.xsd" c!"Geometry" xml written expected = true := by decide +kernel

example : passesText texts.files c!"choice_selection_optional.xsd" c!"Geometry" text writtenText expected = true := by rw [texts_files]; decide +kernel

example : Covered dir c!"choice_selection_optional.xsd" true := coveredB_sound (by decide +kernel)

end choice_selection_optional_test

/-! ## `choice_sequence.rs` -/

namespace choice_sequence_test

/-- `xsd/tests/xsd/choice_sequence.xsd` -/
def choice_sequence_xsd : Elem := (⟨⟨c!"schema", (some c!"http://www.w3.org/2001/XMLSchema")⟩, [], [((some c!"xs"), c!"http://www.w3.org/2001/XMLSchema")], 22⟩,
  [.text c!"\n  ",
   .elem ⟨⟨c!"element", (some c!"http://www.w3.org/2001/XMLSchema")⟩, [⟨c!"name", none, c!"user", 92⟩], [((some c!"xs"), c!"http://www.w3.org/2001/XMLSchema")], 80⟩
     [.text c!"\n    ",
      .elem ⟨⟨c!"complexType", (some c!"http://www.w3.org/2001/XMLSchema")⟩, [], [((some c!"xs"), c!"http://www.w3.org/2001/XMLSchema")], 109⟩
       [.text c!"\n      ",
        .elem ⟨⟨c!"sequence", (some c!"http://www.w3.org/2001/XMLSchema")⟩, [], [((some c!"xs"), c!"http://www.w3.org/2001/XMLSchema")], 132⟩
         [.text c!"\n        ",
          .elem ⟨⟨c!"element", (some c!"http://www.w3.org/2001/XMLSchema")⟩, [⟨c!"name", none, c!"id", 166⟩, ⟨c!"type", none, c!"xs:long", 176⟩], [((some c!"xs"), c!"http://www.w3.org/2001/XMLSchema")], 154⟩
           [],
          .text c!"\n        ",
          .elem ⟨⟨c!"choice", (some c!"http://www.w3.org/2001/XMLSchema")⟩, [], [((some c!"xs"), c!"http://www.w3.org/2001/XMLSchema")], 202⟩
           [.text c!"\n          ",
            .elem ⟨⟨c!"annotation", (some c!"http://www.w3.org/2001/XMLSchema")⟩, [], [((some c!"xs"), c!"http://www.w3.org/2001/XMLSchema")], 224⟩
             [.text c!"\n            ",
              .elem ⟨⟨c!"documentation", (some c!"http://www.w3.org/2001/XMLSchema")⟩, [], [((some c!"xs"), c!"http://www.w3.org/2001/XMLSchema")], 252⟩
               [.text c!"the name"],
              .text c!"\n          "],
            .text c!"\n          ",
            .elem ⟨⟨c!"element", (some c!"http://www.w3.org/2001/XMLSchema")⟩, [⟨c!"name", none, c!"fullName", 347⟩, ⟨c!"type", none, c!"xs:string", 363⟩], [((some c!"xs"), c!"http://www.w3.org/2001/XMLSchema")], 335⟩
             [],
            .text c!"\n          ",
            .elem ⟨⟨c!"sequence", (some c!"http://www.w3.org/2001/XMLSchema")⟩, [], [((some c!"xs"), c!"http://www.w3.org/2001/XMLSchema")], 393⟩
             [.text c!"\n            ",
              .elem ⟨⟨c!"element", (some c!"http://www.w3.org/2001/XMLSchema")⟩, [⟨c!"name", none, c!"firstName", 431⟩, ⟨c!"type", none, c!"xs:string", 448⟩], [((some c!"xs"), c!"http://www.w3.org/2001/XMLSchema")], 419⟩
               [],
              .text c!"\n            ",
              .elem ⟨⟨c!"element", (some c!"http://www.w3.org/2001/XMLSchema")⟩, [⟨c!"name", none, c!"lastName", 492⟩, ⟨c!"type", none, c!"xs:string", 508⟩], [((some c!"xs"), c!"http://www.w3.org/2001/XMLSchema")], 480⟩
               [],
              .text c!"\n          "],
            .text c!"\n        "],
          .text c!"\n      "],
        .text c!"\n    "],
      .text c!"\n  "],
   .text c!"\n"])

/-- The text of `xsd/tests/xsd/choice_sequence.xsd`. -/
def choice_sequence_text : Str := c!"<?xml version=\"1.0\"?>\n<xs:schema xmlns:xs=\"http://www.w3.org/2001/XMLSchema\">\n  <xs:element name=\"user\">\n    <xs:complexType>\n      <xs:sequence>\n        <xs:element name=\"id\" type=\"xs:long\" />\n        <xs:choice>\n          <xs:annotation>\n            <xs:documentation>the name</xs:documentation>\n          </xs:annotation>\n          <xs:element name=\"fullName\" type=\"xs:string\" />\n          <xs:sequence>\n            <xs:element name=\"firstName\" type=\"xs:string\" />\n            <xs:element name=\"lastName\" type=\"xs:string\" />\n          </xs:sequence>\n        </xs:choice>\n      </xs:sequence>\n    </xs:complexType>\n  </xs:element>\n</xs:schema>"

/-- The schema files. -/
def dir : Files := directory [(c!"choice_sequence.xsd", choice_sequence_text, choice_sequence_xsd)]

/-- The texts of the schema files. -/
def texts : TextFiles := textDirectory [(c!"choice_sequence.xsd", choice_sequence_text)]

theorem texts_files : texts.files = dir := directory_texts (fs := [(c!"choice_sequence.xsd", choice_sequence_text, choice_sequence_xsd)]) (by decide +kernel)

/-- `xsd/tests/xsd/choice_sequence.xml` -/
def xml : Doc := ⟨(⟨⟨c!"user", none⟩, [], [], 39⟩,
  [.text c!"\n  ",
   .elem ⟨⟨c!"id", none⟩, [], [], 48⟩
     [.text c!"42"],
   .text c!"\n  ",
   .elem ⟨⟨c!"firstName", none⟩, [], [], 62⟩
     [.text c!"Foo"],
   .text c!"\n  ",
   .elem ⟨⟨c!"lastName", none⟩, [], [], 91⟩
     [.text c!"Foo"],
   .text c!"\n"])⟩

/-- The tags and texts that are written (`xsd/tests/choice_sequence.rs`). -/
def written : List Ev :=
  [.start c!"user" [] [],
   .start c!"id" [] [],
   .chars c!"42",
   .fin,
   .start c!"firstName" [] [],
   .chars c!"Foo",
   .fin,
   .start c!"lastName" [] [],
   .chars c!"Foo",
   .fin,
   .fin]

/-- The expected value (`xsd/tests/choice_sequence.rs`). -/
def expected : Val := .struct [(c!"id", .int 42), (c!"name", .variant c!"Name" (.struct [(c!"first_name", .str c!"Foo"), (c!"last_name", .str c!"Foo")]))]

/-- The text of `xsd/tests/xsd/choice_sequence.xml`. -/
def text : Str := c!"<?xml version=\"1.0\" encoding=\"UTF-8\"?>\n<user>\n  <id>42</id>\n  <firstName>Foo</firstName>\n  <lastName>Foo</lastName>\n</user>"

/-- The text that is written. -/
def writtenText : Str := text

example : passes dir c!"choice_sequence.xsd" c!"User" xml written expected = true := by decide +kernel

example : passesText texts.files c!"choice_sequence.xsd" c!"User" text writtenText expected = true := by rw [texts_files]; decide +kernel

example : Covered dir c!"choice_sequence.xsd" true := coveredB_sound (by decide +kernel)

end choice_sequence_test

/-! ## `choice_vec.rs` -/

namespace choice_vec_test

/-- `xsd/tests/xsd/choice_vec.xsd` -/
def choice_vec_xsd : Elem := (⟨⟨c!"schema", (some c!"http://www.w3.org/2001/XMLSchema")⟩, [], [((some c!"xs"), c!"http://www.w3.org/2001/XMLSchema")], 22⟩,
  [.text c!"\n  ",
   .elem ⟨⟨c!"element", (some c!"http://www.w3.org/2001/XMLSchema")⟩, [⟨c!"name", none, c!"user", 92⟩], [((some c!"xs"), c!"http://www.w3.org/2001/XMLSchema")], 80⟩
     [.text c!"\n    ",
      .elem ⟨⟨c!"complexType", (some c!"http://www.w3.org/2001/XMLSchema")⟩, [], [((some c!"xs"), c!"http://www.w3.org/2001/XMLSchema")], 109⟩
       [.text c!"\n      ",
        .elem ⟨⟨c!"sequence", (some c!"http://www.w3.org/2001/XMLSchema")⟩, [], [((some c!"xs"), c!"http://www.w3.org/2001/XMLSchema")], 132⟩
         [.text c!"\n        ",
          .elem ⟨⟨c!"element", (some c!"http://www.w3.org/2001/XMLSchema")⟩, [⟨c!"name", none, c!"id", 166⟩, ⟨c!"type", none, c!"xs:long", 176⟩], [((some c!"xs"), c!"http://www.w3.org/2001/XMLSchema")], 154⟩
           [],
          .text c!"\n        ",
          .elem ⟨⟨c!"choice", (some c!"http://www.w3.org/2001/XMLSchema")⟩, [⟨c!"minOccurs", none, c!"0", 213⟩, ⟨c!"maxOccurs", none, c!"unbounded", 227⟩], [((some c!"xs"), c!"http://www.w3.org/2001/XMLSchema")], 202⟩
           [.text c!"\n          ",
            .elem ⟨⟨c!"element", (some c!"http://www.w3.org/2001/XMLSchema")⟩, [⟨c!"name", none, c!"alias", 272⟩, ⟨c!"type", none, c!"xs:string", 285⟩], [((some c!"xs"), c!"http://www.w3.org/2001/XMLSchema")], 260⟩
             [],
            .text c!"\n          ",
            .elem ⟨⟨c!"element", (some c!"http://www.w3.org/2001/XMLSchema")⟩, [⟨c!"name", none, c!"email", 327⟩, ⟨c!"type", none, c!"xs:string", 340⟩], [((some c!"xs"), c!"http://www.w3.org/2001/XMLSchema")], 315⟩
             [],
            .text c!"\n        "],
          .text c!"\n      "],
        .text c!"\n    "],
      .text c!"\n  "],
   .text c!"\n"])

/-- The text of `xsd/tests/xsd/choice_vec.xsd`. -/
def choice_vec_text : Str := c!"<?xml version=\"1.0\"?>\n<xs:schema xmlns:xs=\"http://www.w3.org/2001/XMLSchema\">\n  <xs:element name=\"user\">\n    <xs:complexType>\n      <xs:sequence>\n        <xs:element name=\"id\" type=\"xs:long\" />\n        <xs:choice minOccurs=\"0\" maxOccurs=\"unbounded\">\n          <xs:element name=\"alias\" type=\"xs:string\" />\n          <xs:element name=\"email\" type=\"xs:string\" />\n        </xs:choice>\n      </xs:sequence>\n    </xs:complexType>\n  </xs:element>\n</xs:schema>"

/-- The schema files. -/
def dir : Files := directory [(c!"choice_vec.xsd", choice_vec_text, choice_vec_xsd)]

/-- The texts of the schema files. -/
def texts : TextFiles := textDirectory [(c!"choice_vec.xsd", choice_vec_text)]

theorem texts_files : texts.files = dir := directory_texts (fs := [(c!"choice_vec.xsd", choice_vec_text, choice_vec_xsd)]) (by decide +kernel)

/-- `xsd/tests/xsd/choice_vec.xml` -/
def xml : Doc := ⟨(⟨⟨c!"user", none⟩, [], [], 39⟩,
  [.text c!"\n  ",
   .elem ⟨⟨c!"id", none⟩, [], [], 48⟩
     [.text c!"42"],
   .text c!"\n  ",
   .elem ⟨⟨c!"alias", none⟩, [], [], 62⟩
     [.text c!"Foo"],
   .text c!"\n  ",
   .elem ⟨⟨c!"email", none⟩, [], [], 83⟩
     [.text c!"foo@example.org"],
   .text c!"\n  ",
   .elem ⟨⟨c!"email", none⟩, [], [], 116⟩
     [.text c!"42@example.org"],
   .text c!"\n"])⟩

/-- The tags and texts that are written (`xsd/tests/choice_vec.rs`). -/
def written : List Ev :=
  [.start c!"user" [] [],
   .start c!"id" [] [],
   .chars c!"42",
   .fin,
   .start c!"alias" [] [],
   .chars c!"Foo",
   .fin,
   .start c!"email" [] [],
   .chars c!"foo@example.org",
   .fin,
   .start c!"email" [] [],
   .chars c!"42@example.org",
   .fin,
   .fin]

/-- The expected value (`xsd/tests/choice_vec.rs`). -/
def expected : Val := .struct [(c!"id", .int 42), (c!"alias_email", .some (.vec [.variant c!"Alias" (.str c!"Foo"), .variant c!"Email" (.str c!"foo@example.org"), .variant c!"Email" (.str c!"42@example.org")]))]

/-- The text of `xsd/tests/xsd/choice_vec.xml`. -/
def text : Str := c!"<?xml version=\"1.0\" encoding=\"UTF-8\"?>\n<user>\n  <id>42</id>\n  <alias>Foo</alias>\n  <email>foo@example.org</email>\n  <email>42@example.org</email>\n</user>"

/-- The text that is written. -/
def writtenText : Str := text

example : passes dir c!"choice_vec.xsd" c!"User" xml written expected = true := by decide +kernel

example : passesText texts.files c!"choice_vec.xsd" c!"User" text writtenText expected = true := by rw [texts_files]; decide +kernel

example : Covered dir c!"choice_vec.xsd" true := coveredB_sound (by decide +kernel)

end choice_vec_test

/-! ## `complex_content.rs` -/

namespace complex_content_test

/-- `xsd/tests/xsd/complex_content.xsd` -/
def complex_content_xsd : Elem := (⟨⟨c!"schema", (some c!"http://www.w3.org/2001/XMLSchema")⟩, [], [((some c!"xs"), c!"http://www.w3.org/2001/XMLSchema")], 22⟩,
  [.text c!"\n\t",
   .elem ⟨⟨c!"complexType", (some c!"http://www.w3.org/2001/XMLSchema")⟩, [⟨c!"name", none, c!"User", 95⟩], [((some c!"xs"), c!"http://www.w3.org/2001/XMLSchema")], 79⟩
     [.text c!"\n\t\t",
      .elem ⟨⟨c!"sequence", (some c!"http://www.w3.org/2001/XMLSchema")⟩, [], [((some c!"xs"), c!"http://www.w3.org/2001/XMLSchema")], 110⟩
       [.text c!"\n\t\t\t",
        .elem ⟨⟨c!"element", (some c!"http://www.w3.org/2001/XMLSchema")⟩, [⟨c!"name", none, c!"name", 139⟩, ⟨c!"type", none, c!"xs:string", 151⟩], [((some c!"xs"), c!"http://www.w3.org/2001/XMLSchema")], 127⟩
         [],
        .text c!"\n    "],
      .text c!"\n    ",
      .elem ⟨⟨c!"attribute", (some c!"http://www.w3.org/2001/XMLSchema")⟩, [⟨c!"name", none, c!"id", 209⟩, ⟨c!"type", none, c!"xs:long", 219⟩, ⟨c!"use", none, c!"required", 234⟩], [((some c!"xs"), c!"http://www.w3.org/2001/XMLSchema")], 194⟩
       [],
      .text c!"\n  "],
   .text c!"\n\t",
   .elem ⟨⟨c!"simpleType", (some c!"http://www.w3.org/2001/XMLSchema")⟩, [⟨c!"name", none, c!"Roles", 288⟩], [((some c!"xs"), c!"http://www.w3.org/2001/XMLSchema")], 273⟩
     [.text c!"\n\t\t",
      .elem ⟨⟨c!"restriction", (some c!"http://www.w3.org/2001/XMLSchema")⟩, [⟨c!"base", none, c!"xs:string", 320⟩], [((some c!"xs"), c!"http://www.w3.org/2001/XMLSchema")], 304⟩
       [.text c!"\n\t\t\t",
        .elem ⟨⟨c!"enumeration", (some c!"http://www.w3.org/2001/XMLSchema")⟩, [⟨c!"value", none, c!"USER", 357⟩], [((some c!"xs"), c!"http://www.w3.org/2001/XMLSchema")], 341⟩
         [],
        .text c!"\n\t\t\t",
        .elem ⟨⟨c!"enumeration", (some c!"http://www.w3.org/2001/XMLSchema")⟩, [⟨c!"value", none, c!"ADMIN", 391⟩], [((some c!"xs"), c!"http://www.w3.org/2001/XMLSchema")], 375⟩
         [],
        .text c!"\n\t\t"],
      .text c!"\n\t"],
   .text c!"\n  ",
   .elem ⟨⟨c!"element", (some c!"http://www.w3.org/2001/XMLSchema")⟩, [⟨c!"name", none, c!"Account", 459⟩], [((some c!"xs"), c!"http://www.w3.org/2001/XMLSchema")], 447⟩
     [.text c!"\n    ",
      .elem ⟨⟨c!"complexType", (some c!"http://www.w3.org/2001/XMLSchema")⟩, [⟨c!"mixed", none, c!"false", 495⟩], [((some c!"xs"), c!"http://www.w3.org/2001/XMLSchema")], 479⟩
       [.text c!"\n      ",
        .elem ⟨⟨c!"annotation", (some c!"http://www.w3.org/2001/XMLSchema")⟩, [], [((some c!"xs"), c!"http://www.w3.org/2001/XMLSchema")], 516⟩
         [.text c!"\n        ",
          .elem ⟨⟨c!"documentation", (some c!"http://www.w3.org/2001/XMLSchema")⟩, [], [((some c!"xs"), c!"http://www.w3.org/2001/XMLSchema")], 540⟩
           [.text c!"A account."],
          .text c!"\n      "],
        .text c!"\n      ",
        .elem ⟨⟨c!"complexContent", (some c!"http://www.w3.org/2001/XMLSchema")⟩, [], [((some c!"xs"), c!"http://www.w3.org/2001/XMLSchema")], 617⟩
         [.text c!"\n        ",
          .elem ⟨⟨c!"extension", (some c!"http://www.w3.org/2001/XMLSchema")⟩, [⟨c!"base", none, c!"User", 659⟩], [((some c!"xs"), c!"http://www.w3.org/2001/XMLSchema")], 645⟩
           [.text c!"\n          ",
            .elem ⟨⟨c!"attribute", (some c!"http://www.w3.org/2001/XMLSchema")⟩, [⟨c!"name", none, c!"role", 696⟩, ⟨c!"type", none, c!"Roles", 708⟩, ⟨c!"use", none, c!"required", 721⟩], [((some c!"xs"), c!"http://www.w3.org/2001/XMLSchema")], 682⟩
             [],
            .text c!"\n        "],
          .text c!"\n      "],
        .text c!"\n    "],
      .text c!"\n  "],
   .text c!"\n"])

/-- The text of `xsd/tests/xsd/complex_content.xsd`. -/
def complex_content_text : Str := c!"<?xml version=\"1.0\"?>\n<xs:schema xmlns:xs=\"http://www.w3.org/2001/XMLSchema\">\n\t<xs:complexType name=\"User\">\n\t\t<xs:sequence>\n\t\t\t<xs:element name=\"name\" type=\"xs:string\" />\n    </xs:sequence>\n    <xs:attribute  name=\"id\" type=\"xs:long\" use=\"required\" />\n  </xs:complexType>\n\t<xs:simpleType name=\"Roles\">\n\t\t<xs:restriction base=\"xs:string\">\n\t\t\t<xs:enumeration value=\"USER\"/>\n\t\t\t<xs:enumeration value=\"ADMIN\"/>\n\t\t</xs:restriction>\n\t</xs:simpleType>\n  <xs:element name=\"Account\">\n    <xs:complexType mixed=\"false\">\n      <xs:annotation>\n        <xs:documentation>A account.</xs:documentation>\n      </xs:annotation>\n      <xs:complexContent>\n        <xs:extension base=\"User\">\n          <xs:attribute name=\"role\" type=\"Roles\" use=\"required\" />\n        </xs:extension>\n      </xs:complexContent>\n    </xs:complexType>\n  </xs:element>\n</xs:schema>\n"

/-- The schema files. -/
def dir : Files := directory [(c!"complex_content.xsd", complex_content_text, complex_content_xsd)]

/-- The texts of the schema files. -/
def texts : TextFiles := textDirectory [(c!"complex_content.xsd", complex_content_text)]

theorem texts_files : texts.files = dir := directory_texts (fs := [(c!"complex_content.xsd", complex_content_text, complex_content_xsd)]) (by decide +kernel)

/-- `xsd/tests/xsd/complex_content.xml` -/
def xml : Doc := ⟨(⟨⟨c!"Account", none⟩, [⟨c!"role", none, c!"ADMIN", 48⟩, ⟨c!"id", none, c!"42", 61⟩], [], 39⟩,
  [.text c!"\n  ",
   .elem ⟨⟨c!"name", none⟩, [], [], 72⟩
     [.text c!"Foobar"],
   .text c!"\n"])⟩

/-- The tags and texts that are written (`xsd/tests/complex_content.rs`). -/
def written : List Ev :=
  [.start c!"Account" [(c!"role", c!"ADMIN"), (c!"id", c!"42")] [],
   .start c!"name" [] [],
   .chars c!"Foobar",
   .fin,
   .fin]

/-- The expected value (`xsd/tests/complex_content.rs`). -/
def expected : Val := .struct [(c!"user", .struct [(c!"id", .int 42), (c!"name", .str c!"Foobar")]), (c!"role", .enumv c!"Admin")]

/-- The text of `xsd/tests/xsd/complex_content.xml`. -/
def text : Str := c!"<?xml version=\"1.0\" encoding=\"UTF-8\"?>\n<Account role=\"ADMIN\" id=\"42\">\n  <name>Foobar</name>\n</Account>"

/-- The text that is written. -/
def writtenText : Str := text

example : passes dir c!"complex_content.xsd" c!"Account" xml written expected = true := by decide +kernel

example : passesText texts.files c!"complex_content.xsd" c!"Account" text writtenText expected = true := by rw [texts_files]; decide +kernel

example : Covered dir c!"complex_content.xsd" true := coveredB_sound (by decide +kernel)

end complex_content_test

/-! ## `complex_content_sequence.rs` -/

namespace complex_content_sequence_test

/-- `xsd/tests/xsd/complex_content_sequence.xsd` -/
def complex_content_sequence_xsd : Elem := (⟨⟨c!"schema", (some c!"http://www.w3.org/2001/XMLSchema")⟩, [], [((some c!"xs"), c!"http://www.w3.org/2001/XMLSchema")], 22⟩,
  [.text c!"\n\t",
   .elem ⟨⟨c!"complexType", (some c!"http://www.w3.org/2001/XMLSchema")⟩, [⟨c!"name", none, c!"User", 95⟩], [((some c!"xs"), c!"http://www.w3.org/2001/XMLSchema")], 79⟩
     [.text c!"\n\t\t",
      .elem ⟨⟨c!"sequence", (some c!"http://www.w3.org/2001/XMLSchema")⟩, [], [((some c!"xs"), c!"http://www.w3.org/2001/XMLSchema")], 110⟩
       [.text c!"\n\t\t\t",
        .elem ⟨⟨c!"element", (some c!"http://www.w3.org/2001/XMLSchema")⟩, [⟨c!"name", none, c!"id", 139⟩, ⟨c!"type", none, c!"xs:long", 149⟩], [((some c!"xs"), c!"http://www.w3.org/2001/XMLSchema")], 127⟩
         [],
        .text c!"\n\t\t\t",
        .elem ⟨⟨c!"element", (some c!"http://www.w3.org/2001/XMLSchema")⟩, [⟨c!"name", none, c!"name", 182⟩, ⟨c!"type", none, c!"xs:string", 194⟩], [((some c!"xs"), c!"http://www.w3.org/2001/XMLSchema")], 170⟩
         [],
        .text c!"\n    "],
      .text c!"\n  "],
   .text c!"\n\t",
   .elem ⟨⟨c!"simpleType", (some c!"http://www.w3.org/2001/XMLSchema")⟩, [⟨c!"name", none, c!"Roles", 269⟩], [((some c!"xs"), c!"http://www.w3.org/2001/XMLSchema")], 254⟩
     [.text c!"\n\t\t",
      .elem ⟨⟨c!"restriction", (some c!"http://www.w3.org/2001/XMLSchema")⟩, [⟨c!"base", none, c!"xs:string", 301⟩], [((some c!"xs"), c!"http://www.w3.org/2001/XMLSchema")], 285⟩
       [.text c!"\n\t\t\t",
        .elem ⟨⟨c!"enumeration", (some c!"http://www.w3.org/2001/XMLSchema")⟩, [⟨c!"value", none, c!"USER", 338⟩], [((some c!"xs"), c!"http://www.w3.org/2001/XMLSchema")], 322⟩
         [],
        .text c!"\n\t\t\t",
        .elem ⟨⟨c!"enumeration", (some c!"http://www.w3.org/2001/XMLSchema")⟩, [⟨c!"value", none, c!"ADMIN", 372⟩], [((some c!"xs"), c!"http://www.w3.org/2001/XMLSchema")], 356⟩
         [],
        .text c!"\n\t\t"],
      .text c!"\n\t"],
   .text c!"\n  ",
   .elem ⟨⟨c!"element", (some c!"http://www.w3.org/2001/XMLSchema")⟩, [⟨c!"name", none, c!"Account", 440⟩], [((some c!"xs"), c!"http://www.w3.org/2001/XMLSchema")], 428⟩
     [.text c!"\n    ",
      .elem ⟨⟨c!"complexType", (some c!"http://www.w3.org/2001/XMLSchema")⟩, [⟨c!"mixed", none, c!"false", 476⟩], [((some c!"xs"), c!"http://www.w3.org/2001/XMLSchema")], 460⟩
       [.text c!"\n      ",
        .elem ⟨⟨c!"complexContent", (some c!"http://www.w3.org/2001/XMLSchema")⟩, [], [((some c!"xs"), c!"http://www.w3.org/2001/XMLSchema")], 497⟩
         [.text c!"\n        ",
          .elem ⟨⟨c!"extension", (some c!"http://www.w3.org/2001/XMLSchema")⟩, [⟨c!"base", none, c!"User", 539⟩], [((some c!"xs"), c!"http://www.w3.org/2001/XMLSchema")], 525⟩
           [.text c!"\n          ",
            .elem ⟨⟨c!"sequence", (some c!"http://www.w3.org/2001/XMLSchema")⟩, [], [((some c!"xs"), c!"http://www.w3.org/2001/XMLSchema")], 562⟩
             [.text c!"\n            ",
              .elem ⟨⟨c!"element", (some c!"http://www.w3.org/2001/XMLSchema")⟩, [⟨c!"name", none, c!"role", 600⟩, ⟨c!"type", none, c!"Roles", 612⟩], [((some c!"xs"), c!"http://www.w3.org/2001/XMLSchema")], 588⟩
               [],
              .text c!"\n            ",
              .elem ⟨⟨c!"element", (some c!"http://www.w3.org/2001/XMLSchema")⟩, [⟨c!"name", none, c!"enabled", 652⟩, ⟨c!"type", none, c!"xs:boolean", 667⟩], [((some c!"xs"), c!"http://www.w3.org/2001/XMLSchema")], 640⟩
               [],
              .text c!"\n          "],
            .text c!"\n        "],
          .text c!"\n      "],
        .text c!"\n    "],
      .text c!"\n  "],
   .text c!"\n"])

/-- The text of `xsd/tests/xsd/complex_content_sequence.xsd`. -/
def complex_content_sequence_text : Str := c!"<?xml version=\"1.0\"?>\n<xs:schema xmlns:xs=\"http://www.w3.org/2001/XMLSchema\">\n\t<xs:complexType name=\"User\">\n\t\t<xs:sequence>\n\t\t\t<xs:element name=\"id\" type=\"xs:long\" />\n\t\t\t<xs:element name=\"name\" type=\"xs:string\" />\n    </xs:sequence>\n  </xs:complexType>\n\t<xs:simpleType name=\"Roles\">\n\t\t<xs:restriction base=\"xs:string\">\n\t\t\t<xs:enumeration value=\"USER\"/>\n\t\t\t<xs:enumeration value=\"ADMIN\"/>\n\t\t</xs:restriction>\n\t</xs:simpleType>\n  <xs:element name=\"Account\">\n    <xs:complexType mixed=\"false\">\n      <xs:complexContent>\n        <xs:extension base=\"User\">\n          <xs:sequence>\n            <xs:element name=\"role\" type=\"Roles\" />\n            <xs:element name=\"enabled\" type=\"xs:boolean\" />\n          </xs:sequence>\n        </xs:extension>\n      </xs:complexContent>\n    </xs:complexType>\n  </xs:element>\n</xs:schema>\n"

/-- The schema files. -/
def dir : Files := directory [(c!"complex_content_sequence.xsd", complex_content_sequence_text, complex_content_sequence_xsd)]

/-- The texts of the schema files. -/
def texts : TextFiles := textDirectory [(c!"complex_content_sequence.xsd", complex_content_sequence_text)]

theorem texts_files : texts.files = dir := directory_texts (fs := [(c!"complex_content_sequence.xsd", complex_content_sequence_text, complex_content_sequence_xsd)]) (by decide +kernel)

/-- `xsd/tests/xsd/complex_content_sequence.xml` -/
def xml : Doc := ⟨(⟨⟨c!"Account", none⟩, [], [], 39⟩,
  [.text c!"\n  ",
   .elem ⟨⟨c!"id", none⟩, [], [], 51⟩
     [.text c!"42"],
   .text c!"\n  ",
   .elem ⟨⟨c!"name", none⟩, [], [], 65⟩
     [.text c!"Foobar"],
   .text c!"\n  ",
   .elem ⟨⟨c!"role", none⟩, [], [], 87⟩
     [.text c!"ADMIN"],
   .text c!"\n  ",
   .elem ⟨⟨c!"enabled", none⟩, [], [], 108⟩
     [.text c!"true"],
   .text c!"\n"])⟩

/-- The tags and texts that are written (`xsd/tests/complex_content_sequence.rs`). -/
def written : List Ev :=
  [.start c!"Account" [] [],
   .start c!"id" [] [],
   .chars c!"42",
   .fin,
   .start c!"name" [] [],
   .chars c!"Foobar",
   .fin,
   .start c!"role" [] [],
   .chars c!"ADMIN",
   .fin,
   .start c!"enabled" [] [],
   .chars c!"true",
   .fin,
   .fin]

/-- The expected value (`xsd/tests/complex_content_sequence.rs`). -/
def expected : Val := .struct [(c!"base", .struct [(c!"id", .int 42), (c!"name", .str c!"Foobar")]), (c!"user", .struct [(c!"role", .enumv c!"Admin"), (c!"enabled", .bool true)])]

/-- The text of `xsd/tests/xsd/complex_content_sequence.xml`. -/
def text : Str := c!"<?xml version=\"1.0\" encoding=\"UTF-8\"?>\n<Account>\n  <id>42</id>\n  <name>Foobar</name>\n  <role>ADMIN</role>\n  <enabled>true</enabled>\n</Account>"

/-- The text that is written. -/
def writtenText : Str := text

example : passes dir c!"complex_content_sequence.xsd" c!"Account" xml written expected = true := by decide +kernel

example : passesText texts.files c!"complex_content_sequence.xsd" c!"Account" text writtenText expected = true := by rw [texts_files]; decide +kernel

example : Covered dir c!"complex_content_sequence.xsd" true := coveredB_sound (by decide +kernel)

end complex_content_sequence_test

/-! ## `complex_content_sequence_optional.rs` -/

namespace complex_content_sequence_optional_test

/-- `xsd/tests/xsd/complex_content_sequence_optional.xsd` -/
def complex_content_sequence_optional_xsd : Elem := (⟨⟨c!"schema", (some c!"http://www.w3.org/2001/XMLSchema")⟩, [], [((some c!"xs"), c!"http://www.w3.org/2001/XMLSchema")], 22⟩,
  [.text c!"\n\t",
   .elem ⟨⟨c!"complexType", (some c!"http://www.w3.org/2001/XMLSchema")⟩, [⟨c!"name", none, c!"User", 95⟩], [((some c!"xs"), c!"http://www.w3.org/2001/XMLSchema")], 79⟩
     [.text c!"\n\t\t",
      .elem ⟨⟨c!"sequence", (some c!"http://www.w3.org/2001/XMLSchema")⟩, [], [((some c!"xs"), c!"http://www.w3.org/2001/XMLSchema")], 110⟩
       [.text c!"\n\t\t\t",
        .elem ⟨⟨c!"element", (some c!"http://www.w3.org/2001/XMLSchema")⟩, [⟨c!"name", none, c!"id", 139⟩, ⟨c!"type", none, c!"xs:long", 149⟩], [((some c!"xs"), c!"http://www.w3.org/2001/XMLSchema")], 127⟩
         [],
        .text c!"\n\t\t\t",
        .elem ⟨⟨c!"element", (some c!"http://www.w3.org/2001/XMLSchema")⟩, [⟨c!"name", none, c!"name", 182⟩, ⟨c!"type", none, c!"xs:string", 194⟩], [((some c!"xs"), c!"http://www.w3.org/2001/XMLSchema")], 170⟩
         [],
        .text c!"\n    "],
      .text c!"\n  "],
   .text c!"\n\t",
   .elem ⟨⟨c!"simpleType", (some c!"http://www.w3.org/2001/XMLSchema")⟩, [⟨c!"name", none, c!"Roles", 269⟩], [((some c!"xs"), c!"http://www.w3.org/2001/XMLSchema")], 254⟩
     [.text c!"\n\t\t",
      .elem ⟨⟨c!"restriction", (some c!"http://www.w3.org/2001/XMLSchema")⟩, [⟨c!"base", none, c!"xs:string", 301⟩], [((some c!"xs"), c!"http://www.w3.org/2001/XMLSchema")], 285⟩
       [.text c!"\n\t\t\t",
        .elem ⟨⟨c!"enumeration", (some c!"http://www.w3.org/2001/XMLSchema")⟩, [⟨c!"value", none, c!"USER", 338⟩], [((some c!"xs"), c!"http://www.w3.org/2001/XMLSchema")], 322⟩
         [],
        .text c!"\n\t\t\t",
        .elem ⟨⟨c!"enumeration", (some c!"http://www.w3.org/2001/XMLSchema")⟩, [⟨c!"value", none, c!"ADMIN", 372⟩], [((some c!"xs"), c!"http://www.w3.org/2001/XMLSchema")], 356⟩
         [],
        .text c!"\n\t\t"],
      .text c!"\n\t"],
   .text c!"\n  ",
   .elem ⟨⟨c!"element", (some c!"http://www.w3.org/2001/XMLSchema")⟩, [⟨c!"name", none, c!"Account", 440⟩], [((some c!"xs"), c!"http://www.w3.org/2001/XMLSchema")], 428⟩
     [.text c!"\n    ",
      .elem ⟨⟨c!"complexType", (some c!"http://www.w3.org/2001/XMLSchema")⟩, [⟨c!"mixed", none, c!"false", 476⟩], [((some c!"xs"), c!"http://www.w3.org/2001/XMLSchema")], 460⟩
       [.text c!"\n      ",
        .elem ⟨⟨c!"complexContent", (some c!"http://www.w3.org/2001/XMLSchema")⟩, [], [((some c!"xs"), c!"http://www.w3.org/2001/XMLSchema")], 497⟩
         [.text c!"\n        ",
          .elem ⟨⟨c!"extension", (some c!"http://www.w3.org/2001/XMLSchema")⟩, [⟨c!"base", none, c!"User", 539⟩], [((some c!"xs"), c!"http://www.w3.org/2001/XMLSchema")], 525⟩
           [.text c!"\n          ",
            .elem ⟨⟨c!"sequence", (some c!"http://www.w3.org/2001/XMLSchema")⟩, [⟨c!"minOccurs", none, c!"0", 575⟩], [((some c!"xs"), c!"http://www.w3.org/2001/XMLSchema")], 562⟩
             [.text c!"\n            ",
              .elem ⟨⟨c!"element", (some c!"http://www.w3.org/2001/XMLSchema")⟩, [⟨c!"name", none, c!"role", 614⟩, ⟨c!"type", none, c!"Roles", 626⟩], [((some c!"xs"), c!"http://www.w3.org/2001/XMLSchema")], 602⟩
               [],
              .text c!"\n            ",
              .elem ⟨⟨c!"element", (some c!"http://www.w3.org/2001/XMLSchema")⟩, [⟨c!"name", none, c!"enabled", 666⟩, ⟨c!"type", none, c!"xs:boolean", 681⟩], [((some c!"xs"), c!"http://www.w3.org/2001/XMLSchema")], 654⟩
               [],
              .text c!"\n          "],
            .text c!"\n        "],
          .text c!"\n      "],
        .text c!"\n    "],
      .text c!"\n  "],
   .text c!"\n"])

/-- The text of `xsd/tests/xsd/complex_content_sequence_optional.xsd`. -/
def complex_content_sequence_optional_text : Str := c!"<?xml version=\"1.0\"?>\n<xs:schema xmlns:xs=\"http://www.w3.org/2001/XMLSchema\">\n\t<xs:complexType name=\"User\">\n\t\t<xs:sequence>\n\t\t\t<xs:element name=\"id\" type=\"xs:long\" />\n\t\t\t<xs:element name=\"name\" type=\"xs:string\" />\n    </xs:sequence>\n  </xs:complexType>\n\t<xs:simpleType name=\"Roles\">\n\t\t<xs:restriction base=\"xs:string\">\n\t\t\t<xs:enumeration value=\"USER\"/>\n\t\t\t<xs:enumeration value=\"ADMIN\"/>\n\t\t</xs:restriction>\n\t</xs:simpleType>\n  <xs:element name=\"Account\">\n    <xs:complexType mixed=\"false\">\n      <xs:complexContent>\n        <xs:extension base=\"User\">\n          <xs:sequence minOccurs=\"0\">\n            <xs:element name=\"role\" type=\"Roles\" />\n            <xs:element name=\"enabled\" type=\"xs:boolean\" />\n          </xs:sequence>\n        </xs:extension>\n      </xs:complexContent>\n    </xs:complexType>\n  </xs:element>\n</xs:schema>\n"

/-- The schema files. -/
def dir : Files := directory [(c!"complex_content_sequence_optional.xsd", complex_content_sequence_optional_text, complex_content_sequence_optional_xsd)]

/-- The texts of the schema files. -/
def texts : TextFiles := textDirectory [(c!"complex_content_sequence_optional.xsd", complex_content_sequence_optional_text)]

theorem texts_files : texts.files = dir := directory_texts (fs := [(c!"complex_content_sequence_optional.xsd", complex_content_sequence_optional_text, complex_content_sequence_optional_xsd)]) (by decide +kernel)

/-- `xsd/tests/xsd/complex_content_sequence_optional.xml` -/
def xml : Doc := ⟨(⟨⟨c!"Account", none⟩, [], [], 39⟩,
  [.text c!"\n  ",
   .elem ⟨⟨c!"id", none⟩, [], [], 51⟩
     [.text c!"42"],
   .text c!"\n  ",
   .elem ⟨⟨c!"name", none⟩, [], [], 65⟩
     [.text c!"Foobar"],
   .text c!"\n  ",
   .elem ⟨⟨c!"role", none⟩, [], [], 87⟩
     [.text c!"ADMIN"],
   .text c!"\n  ",
   .elem ⟨⟨c!"enabled", none⟩, [], [], 108⟩
     [.text c!"true"],
   .text c!"\n"])⟩

/-- The tags and texts that are written (`xsd/tests/complex_content_sequence_optional.rs`). -/
def written : List Ev :=
  [.start c!"Account" [] [],
   .start c!"id" [] [],
   .chars c!"42",
   .fin,
   .start c!"name" [] [],
   .chars c!"Foobar",
   .fin,
   .start c!"role" [] [],
   .chars c!"ADMIN",
   .fin,
   .start c!"enabled" [] [],
   .chars c!"true",
   .fin,
   .fin]

/-- The expected value (`xsd/tests/complex_content_sequence_optional.rs`). -/
def expected : Val := .struct [(c!"base", .struct [(c!"id", .int 42), (c!"name", .str c!"Foobar")]), (c!"user", .some (.struct [(c!"role", .enumv c!"Admin"), (c!"enabled", .bool true)]))]

/-- The text of `xsd/tests/xsd/complex_content_sequence_optional.xml`. -/
def text : Str := c!"<?xml version=\"1.0\" encoding=\"UTF-8\"?>\n<Account>\n  <id>42</id>\n  <name>Foobar</name>\n  <role>ADMIN</role>\n  <enabled>true</enabled>\n</Account>"

/-- The text that is written. -/
def writtenText : Str := text

example : passes dir c!"complex_content_sequence_optional.xsd" c!"Account" xml written expected = true := by decide +kernel

example : passesText texts.files c!"complex_content_sequence_optional.xsd" c!"Account" text writtenText expected = true := by rw [texts_files]; decide +kernel

example : Covered dir c!"complex_content_sequence_optional.xsd" true := coveredB_sound (by decide +kernel)

end complex_content_sequence_optional_test

end Xsd.Conformance
