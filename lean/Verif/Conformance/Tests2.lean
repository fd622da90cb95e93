import Verif.Conformance.Covered
/-!
# Tests of the repository, evaluated in the model

Made by `tools/conformance.py`.
-/
namespace Xsd.Conformance

/-! ## `complex_type_attribute.rs` -/

namespace complex_type_attribute_test

/-- `xsd/tests/xsd/complex_type_attribute.xsd` -/
def complex_type_attribute_xsd : Elem := (⟨⟨c!"schema", (some c!"http://www.w3.org/2001/XMLSchema")⟩, [], [((some c!"xs"), c!"http://www.w3.org/2001/XMLSchema")], 22⟩,
  [.text c!"\n  ",
   .elem ⟨⟨c!"element", (some c!"http://www.w3.org/2001/XMLSchema")⟩, [⟨c!"name", none, c!"article", 92⟩], [((some c!"xs"), c!"http://www.w3.org/2001/XMLSchema")], 80⟩
     [.text c!"\n    ",
      .elem ⟨⟨c!"complexType", (some c!"http://www.w3.org/2001/XMLSchema")⟩, [], [((some c!"xs"), c!"http://www.w3.org/2001/XMLSchema")], 112⟩
       [.text c!"\n      ",
        .elem ⟨⟨c!"annotation", (some c!"http://www.w3.org/2001/XMLSchema")⟩, [], [((some c!"xs"), c!"http://www.w3.org/2001/XMLSchema")], 135⟩
         [.text c!"\n        ",
          .elem ⟨⟨c!"documentation", (some c!"http://www.w3.org/2001/XMLSchema")⟩, [], [((some c!"xs"), c!"http://www.w3.org/2001/XMLSchema")], 159⟩
           [.text c!"An article."],
          .text c!"\n      "],
        .text c!"\n      ",
        .elem ⟨⟨c!"sequence", (some c!"http://www.w3.org/2001/XMLSchema")⟩, [], [((some c!"xs"), c!"http://www.w3.org/2001/XMLSchema")], 237⟩
         [.text c!"\n        ",
          .elem ⟨⟨c!"element", (some c!"http://www.w3.org/2001/XMLSchema")⟩, [⟨c!"name", none, c!"excerpt", 271⟩, ⟨c!"type", none, c!"xs:string", 286⟩], [((some c!"xs"), c!"http://www.w3.org/2001/XMLSchema")], 259⟩
           [],
          .text c!"\n      "],
        .text c!"\n      ",
        .elem ⟨⟨c!"attribute", (some c!"http://www.w3.org/2001/XMLSchema")⟩, [⟨c!"name", none, c!"author", 347⟩, ⟨c!"type", none, c!"xs:string", 361⟩], [((some c!"xs"), c!"http://www.w3.org/2001/XMLSchema")], 333⟩
         [.text c!"\n        ",
          .elem ⟨⟨c!"annotation", (some c!"http://www.w3.org/2001/XMLSchema")⟩, [], [((some c!"xs"), c!"http://www.w3.org/2001/XMLSchema")], 387⟩
           [.text c!"\n          ",
            .elem ⟨⟨c!"documentation", (some c!"http://www.w3.org/2001/XMLSchema")⟩, [], [((some c!"xs"), c!"http://www.w3.org/2001/XMLSchema")], 413⟩
             [.text c!"The article author."],
            .text c!"\n        "],
          .text c!"\n      "],
        .text c!"\n    "],
      .text c!"\n  "],
   .text c!"\n"])

/-- The text of `xsd/tests/xsd/complex_type_attribute.xsd`. -/
def complex_type_attribute_text : Str := c!"<?xml version=\"1.0\"?>\n<xs:schema xmlns:xs=\"http://www.w3.org/2001/XMLSchema\">\n  <xs:element name=\"article\">\n    <xs:complexType>\n      <xs:annotation>\n        <xs:documentation>An article.</xs:documentation>\n      </xs:annotation>\n      <xs:sequence>\n        <xs:element name=\"excerpt\" type=\"xs:string\" />\n      </xs:sequence>\n      <xs:attribute name=\"author\" type=\"xs:string\">\n        <xs:annotation>\n          <xs:documentation>The article author.</xs:documentation>\n        </xs:annotation>\n      </xs:attribute>\n    </xs:complexType>\n  </xs:element>\n</xs:schema>"

/-- The schema files. -/
def dir : Files := directory [(c!"complex_type_attribute.xsd", complex_type_attribute_text, complex_type_attribute_xsd)]

/-- The texts of the schema files. -/
def texts : TextFiles := textDirectory [(c!"complex_type_attribute.xsd", complex_type_attribute_text)]

theorem texts_files : texts.files = dir := directory_texts (fs := [(c!"complex_type_attribute.xsd", complex_type_attribute_text, complex_type_attribute_xsd)]) (by decide +kernel)

/-- `xsd/tests/xsd/complex_type_attribute.xml` -/
def xml : Doc := ⟨(⟨⟨c!"article", none⟩, [⟨c!"author", none, c!"Foobar", 48⟩], [], 39⟩,
  [.text c!"\n  ",
   .elem ⟨⟨c!"excerpt", none⟩, [], [], 67⟩
     [.text c!"Lorem Ipsum"],
   .text c!"\n"])⟩

/-- The tags and texts that are written (`xsd/tests/complex_type_attribute.rs`). -/
def written : List Ev :=
  [.start c!"article" [(c!"author", c!"Foobar")] [],
   .start c!"excerpt" [] [],
   .chars c!"Lorem Ipsum",
   .fin,
   .fin]

/-- The expected value (`xsd/tests/complex_type_attribute.rs`). -/
def expected : Val := .struct [(c!"excerpt", .str c!"Lorem Ipsum"), (c!"author", .some (.str c!"Foobar"))]

/-- The text of `xsd/tests/xsd/complex_type_attribute.xml`. -/
def text : Str := c!"<?xml version=\"1.0\" encoding=\"UTF-8\"?>\n<article author=\"Foobar\">\n  <excerpt>Lorem Ipsum</excerpt>\n</article>"

/-- The text that is written. -/
def writtenText : Str := text

example : passes dir c!"complex_type_attribute.xsd" c!"Article" xml written expected = true := by decide +kernel

example : passesText texts.files c!"complex_type_attribute.xsd" c!"Article" text writtenText expected = true := by rw [texts_files]; decide +kernel

example : Covered dir c!"complex_type_attribute.xsd" true := coveredB_sound (by decide +kernel)

end complex_type_attribute_test

/-! ## `complex_type_choice.rs` -/

namespace complex_type_choice_test

/-- `xsd/tests/xsd/complex_type_choice.xsd` -/
def complex_type_choice_xsd : Elem := (⟨⟨c!"schema", (some c!"http://www.w3.org/2001/XMLSchema")⟩, [], [((some c!"xs"), c!"http://www.w3.org/2001/XMLSchema")], 22⟩,
  [.text c!"\n  ",
   .elem ⟨⟨c!"complexType", (some c!"http://www.w3.org/2001/XMLSchema")⟩, [⟨c!"name", none, c!"User", 96⟩], [((some c!"xs"), c!"http://www.w3.org/2001/XMLSchema")], 80⟩
     [.text c!"\n    ",
      .elem ⟨⟨c!"annotation", (some c!"http://www.w3.org/2001/XMLSchema")⟩, [], [((some c!"xs"), c!"http://www.w3.org/2001/XMLSchema")], 113⟩
       [.text c!"\n      ",
        .elem ⟨⟨c!"documentation", (some c!"http://www.w3.org/2001/XMLSchema")⟩, [], [((some c!"xs"), c!"http://www.w3.org/2001/XMLSchema")], 135⟩
         [.text c!"An user."],
        .text c!"\n    "],
      .text c!"\n    ",
      .elem ⟨⟨c!"attribute", (some c!"http://www.w3.org/2001/XMLSchema")⟩, [⟨c!"name", none, c!"name", 220⟩, ⟨c!"type", none, c!"xs:string", 232⟩, ⟨c!"use", none, c!"required", 249⟩], [((some c!"xs"), c!"http://www.w3.org/2001/XMLSchema")], 206⟩
       [],
      .text c!"\n  "],
   .text c!"\n  ",
   .elem ⟨⟨c!"complexType", (some c!"http://www.w3.org/2001/XMLSchema")⟩, [⟨c!"name", none, c!"Bot", 305⟩], [((some c!"xs"), c!"http://www.w3.org/2001/XMLSchema")], 289⟩
     [.text c!"\n    ",
      .elem ⟨⟨c!"attribute", (some c!"http://www.w3.org/2001/XMLSchema")⟩, [⟨c!"name", none, c!"handle", 335⟩, ⟨c!"type", none, c!"xs:string", 349⟩, ⟨c!"use", none, c!"required", 366⟩], [((some c!"xs"), c!"http://www.w3.org/2001/XMLSchema")], 321⟩
       [],
      .text c!"\n  "],
   .text c!"\n  ",
   .elem ⟨⟨c!"complexType", (some c!"http://www.w3.org/2001/XMLSchema")⟩, [⟨c!"name", none, c!"Author", 422⟩], [((some c!"xs"), c!"http://www.w3.org/2001/XMLSchema")], 406⟩
     [.text c!"\n    ",
      .elem ⟨⟨c!"annotation", (some c!"http://www.w3.org/2001/XMLSchema")⟩, [], [((some c!"xs"), c!"http://www.w3.org/2001/XMLSchema")], 441⟩
       [.text c!"\n      ",
        .elem ⟨⟨c!"documentation", (some c!"http://www.w3.org/2001/XMLSchema")⟩, [], [((some c!"xs"), c!"http://www.w3.org/2001/XMLSchema")], 463⟩
         [.text c!"An author."],
        .text c!"\n    "],
      .text c!"\n    ",
      .elem ⟨⟨c!"choice", (some c!"http://www.w3.org/2001/XMLSchema")⟩, [], [((some c!"xs"), c!"http://www.w3.org/2001/XMLSchema")], 536⟩
       [.text c!"\n      ",
        .elem ⟨⟨c!"element", (some c!"http://www.w3.org/2001/XMLSchema")⟩, [⟨c!"name", none, c!"user", 566⟩, ⟨c!"type", none, c!"User", 578⟩], [((some c!"xs"), c!"http://www.w3.org/2001/XMLSchema")], 554⟩
         [],
        .text c!"\n      ",
        .elem ⟨⟨c!"element", (some c!"http://www.w3.org/2001/XMLSchema")⟩, [⟨c!"name", none, c!"bot", 611⟩, ⟨c!"type", none, c!"Bot", 622⟩], [((some c!"xs"), c!"http://www.w3.org/2001/XMLSchema")], 599⟩
         [],
        .text c!"\n    "],
      .text c!"\n    ",
      .elem ⟨⟨c!"attribute", (some c!"http://www.w3.org/2001/XMLSchema")⟩, [⟨c!"name", none, c!"isVerified", 671⟩, ⟨c!"type", none, c!"xs:boolean", 689⟩, ⟨c!"use", none, c!"required", 707⟩], [((some c!"xs"), c!"http://www.w3.org/2001/XMLSchema")], 657⟩
       [],
      .text c!"\n  "],
   .text c!"\n  ",
   .elem ⟨⟨c!"element", (some c!"http://www.w3.org/2001/XMLSchema")⟩, [⟨c!"name", none, c!"article", 758⟩], [((some c!"xs"), c!"http://www.w3.org/2001/XMLSchema")], 746⟩
     [.text c!"\n    ",
      .elem ⟨⟨c!"complexType", (some c!"http://www.w3.org/2001/XMLSchema")⟩, [], [((some c!"xs"), c!"http://www.w3.org/2001/XMLSchema")], 778⟩
       [.text c!"\n      ",
        .elem ⟨⟨c!"annotation", (some c!"http://www.w3.org/2001/XMLSchema")⟩, [], [((some c!"xs"), c!"http://www.w3.org/2001/XMLSchema")], 801⟩
         [.text c!"\n        ",
          .elem ⟨⟨c!"documentation", (some c!"http://www.w3.org/2001/XMLSchema")⟩, [], [((some c!"xs"), c!"http://www.w3.org/2001/XMLSchema")], 825⟩
           [.text c!"An article."],
          .text c!"\n      "],
        .text c!"\n      ",
        .elem ⟨⟨c!"sequence", (some c!"http://www.w3.org/2001/XMLSchema")⟩, [], [((some c!"xs"), c!"http://www.w3.org/2001/XMLSchema")], 903⟩
         [.text c!"\n        ",
          .elem ⟨⟨c!"element", (some c!"http://www.w3.org/2001/XMLSchema")⟩, [⟨c!"name", none, c!"createdBy", 937⟩, ⟨c!"type", none, c!"Author", 954⟩], [((some c!"xs"), c!"http://www.w3.org/2001/XMLSchema")], 925⟩
           [],
          .text c!"\n        ",
          .elem ⟨⟨c!"element", (some c!"http://www.w3.org/2001/XMLSchema")⟩, [⟨c!"name", none, c!"postedBy", 991⟩], [((some c!"xs"), c!"http://www.w3.org/2001/XMLSchema")], 979⟩
           [.text c!"\n          ",
            .elem ⟨⟨c!"complexType", (some c!"http://www.w3.org/2001/XMLSchema")⟩, [], [((some c!"xs"), c!"http://www.w3.org/2001/XMLSchema")], 1018⟩
             [.text c!"\n            ",
              .elem ⟨⟨c!"choice", (some c!"http://www.w3.org/2001/XMLSchema")⟩, [], [((some c!"xs"), c!"http://www.w3.org/2001/XMLSchema")], 1047⟩
               [.text c!"\n              ",
                .elem ⟨⟨c!"element", (some c!"http://www.w3.org/2001/XMLSchema")⟩, [⟨c!"name", none, c!"user", 1085⟩, ⟨c!"type", none, c!"User", 1097⟩], [((some c!"xs"), c!"http://www.w3.org/2001/XMLSchema")], 1073⟩
                 [],
                .text c!"\n              ",
                .elem ⟨⟨c!"element", (some c!"http://www.w3.org/2001/XMLSchema")⟩, [⟨c!"name", none, c!"bot", 1138⟩, ⟨c!"type", none, c!"Bot", 1149⟩], [((some c!"xs"), c!"http://www.w3.org/2001/XMLSchema")], 1126⟩
                 [],
                .text c!"\n            "],
              .text c!"\n            ",
              .elem ⟨⟨c!"attribute", (some c!"http://www.w3.org/2001/XMLSchema")⟩, [⟨c!"name", none, c!"isVerified", 1214⟩, ⟨c!"type", none, c!"xs:boolean", 1232⟩, ⟨c!"use", none, c!"required", 1250⟩], [((some c!"xs"), c!"http://www.w3.org/2001/XMLSchema")], 1200⟩
               [],
              .text c!"\n          "],
            .text c!"\n        "],
          .text c!"\n      "],
        .text c!"\n    "],
      .text c!"\n  "],
   .text c!"\n"])

/-- The text of `xsd/tests/xsd/complex_type_choice.xsd`. -/
def complex_type_choice_text : Str := c!"<?xml version=\"1.0\"?>\n<xs:schema xmlns:xs=\"http://www.w3.org/2001/XMLSchema\">\n  <xs:complexType name=\"User\">\n    <xs:annotation>\n      <xs:documentation>An user.</xs:documentation>\n    </xs:annotation>\n    <xs:attribute name=\"name\" type=\"xs:string\" use=\"required\" />\n  </xs:complexType>\n  <xs:complexType name=\"Bot\">\n    <xs:attribute name=\"handle\" type=\"xs:string\" use=\"required\" />\n  </xs:complexType>\n  <xs:complexType name=\"Author\">\n    <xs:annotation>\n      <xs:documentation>An author.</xs:documentation>\n    </xs:annotation>\n    <xs:choice>\n      <xs:element name=\"user\" type=\"User\" />\n      <xs:element name=\"bot\" type=\"Bot\" />\n    </xs:choice>\n    <xs:attribute name=\"isVerified\" type=\"xs:boolean\" use=\"required\"/>\n  </xs:complexType>\n  <xs:element name=\"article\">\n    <xs:complexType>\n      <xs:annotation>\n        <xs:documentation>An article.</xs:documentation>\n      </xs:annotation>\n      <xs:sequence>\n        <xs:element name=\"createdBy\" type=\"Author\" />\n        <xs:element name=\"postedBy\">\n          <xs:complexType>\n            <xs:choice>\n              <xs:element name=\"user\" type=\"User\" />\n              <xs:element name=\"bot\" type=\"Bot\" />\n            </xs:choice>\n            <xs:attribute name=\"isVerified\" type=\"xs:boolean\" use=\"required\"/>\n          </xs:complexType>\n        </xs:element>\n      </xs:sequence>\n    </xs:complexType>\n  </xs:element>\n</xs:schema>"

/-- The schema files. -/
def dir : Files := directory [(c!"complex_type_choice.xsd", complex_type_choice_text, complex_type_choice_xsd)]

/-- The texts of the schema files. -/
def texts : TextFiles := textDirectory [(c!"complex_type_choice.xsd", complex_type_choice_text)]

theorem texts_files : texts.files = dir := directory_texts (fs := [(c!"complex_type_choice.xsd", complex_type_choice_text, complex_type_choice_xsd)]) (by decide +kernel)

/-- `xsd/tests/xsd/complex_type_choice.xml` -/
def xml : Doc := ⟨(⟨⟨c!"article", none⟩, [], [], 39⟩,
  [.text c!"\n  ",
   .elem ⟨⟨c!"createdBy", none⟩, [⟨c!"isVerified", none, c!"true", 62⟩], [], 51⟩
     [.text c!"\n    ",
      .elem ⟨⟨c!"user", none⟩, [⟨c!"name", none, c!"Foobar", 91⟩], [], 85⟩
       [],
      .text c!"\n  "],
   .text c!"\n  ",
   .elem ⟨⟨c!"postedBy", none⟩, [⟨c!"isVerified", none, c!"false", 135⟩], [], 125⟩
     [.text c!"\n    ",
      .elem ⟨⟨c!"bot", none⟩, [⟨c!"handle", none, c!"Foobot", 164⟩], [], 159⟩
       [],
      .text c!"\n  "],
   .text c!"\n"])⟩

/-- The tags and texts that are written (`xsd/tests/complex_type_choice.rs`). -/
def written : List Ev :=
  [.start c!"article" [] [],
   .start c!"createdBy" [(c!"isVerified", c!"true")] [],
   .start c!"user" [(c!"name", c!"Foobar")] [],
   .fin,
   .fin,
   .start c!"postedBy" [(c!"isVerified", c!"false")] [],
   .start c!"bot" [(c!"handle", c!"Foobot")] [],
   .fin,
   .fin,
   .fin]

/-- The expected value (`xsd/tests/complex_type_choice.rs`). -/
def expected : Val := .struct [(c!"created_by", .struct [(c!"author_data", .variant c!"User" (.struct [(c!"name", .str c!"Foobar")])), (c!"is_verified", .bool true)]), (c!"posted_by", .struct [(c!"article_posted_by_data_data", .variant c!"Bot" (.struct [(c!"handle", .str c!"Foobot")])), (c!"is_verified", .bool false)])]

/-- The text of `xsd/tests/xsd/complex_type_choice.xml`. -/
def text : Str := c!"<?xml version=\"1.0\" encoding=\"UTF-8\"?>\n<article>\n  <createdBy isVerified=\"true\">\n    <user name=\"Foobar\" />\n  </createdBy>\n  <postedBy isVerified=\"false\">\n    <bot handle=\"Foobot\" />\n  </postedBy>\n</article>"

/-- The text that is written. -/
def writtenText : Str := text

example : passes dir c!"complex_type_choice.xsd" c!"Article" xml written expected = true := by decide +kernel

example : passesText texts.files c!"complex_type_choice.xsd" c!"Article" text writtenText expected = true := by rw [texts_files]; decide +kernel

example : Covered dir c!"complex_type_choice.xsd" true := coveredB_sound (by decide +kernel)

end complex_type_choice_test

/-! ## `complex_type_fixed.rs` -/

namespace complex_type_fixed_test

/-- `xsd/tests/xsd/complex_type_fixed.xsd` -/
def complex_type_fixed_xsd : Elem := (⟨⟨c!"schema", (some c!"http://www.w3.org/2001/XMLSchema")⟩, [], [((some c!"xs"), c!"http://www.w3.org/2001/XMLSchema")], 22⟩,
  [.text c!"\n  ",
   .elem ⟨⟨c!"element", (some c!"http://www.w3.org/2001/XMLSchema")⟩, [⟨c!"name", none, c!"meta", 92⟩], [((some c!"xs"), c!"http://www.w3.org/2001/XMLSchema")], 80⟩
     [.text c!"\n    ",
      .elem ⟨⟨c!"complexType", (some c!"http://www.w3.org/2001/XMLSchema")⟩, [], [((some c!"xs"), c!"http://www.w3.org/2001/XMLSchema")], 109⟩
       [.text c!"\n      ",
        .elem ⟨⟨c!"annotation", (some c!"http://www.w3.org/2001/XMLSchema")⟩, [], [((some c!"xs"), c!"http://www.w3.org/2001/XMLSchema")], 132⟩
         [.text c!"\n        ",
          .elem ⟨⟨c!"documentation", (some c!"http://www.w3.org/2001/XMLSchema")⟩, [], [((some c!"xs"), c!"http://www.w3.org/2001/XMLSchema")], 156⟩
           [.text c!"Service information."],
          .text c!"\n      "],
        .text c!"\n      ",
        .elem ⟨⟨c!"sequence", (some c!"http://www.w3.org/2001/XMLSchema")⟩, [], [((some c!"xs"), c!"http://www.w3.org/2001/XMLSchema")], 243⟩
         [.text c!"\n        ",
          .elem ⟨⟨c!"element", (some c!"http://www.w3.org/2001/XMLSchema")⟩, [⟨c!"name", none, c!"version", 277⟩, ⟨c!"type", none, c!"xs:int", 292⟩, ⟨c!"fixed", none, c!"2", 306⟩, ⟨c!"minOccurs", none, c!"1", 316⟩], [((some c!"xs"), c!"http://www.w3.org/2001/XMLSchema")], 265⟩
           [.text c!"\n          ",
            .elem ⟨⟨c!"annotation", (some c!"http://www.w3.org/2001/XMLSchema")⟩, [], [((some c!"xs"), c!"http://www.w3.org/2001/XMLSchema")], 341⟩
             [.text c!"\n            ",
              .elem ⟨⟨c!"documentation", (some c!"http://www.w3.org/2001/XMLSchema")⟩, [], [((some c!"xs"), c!"http://www.w3.org/2001/XMLSchema")], 369⟩
               [.text c!"The major version number."],
              .text c!"\n          "],
            .text c!"\n        "],
          .text c!"\n      "],
        .text c!"\n      ",
        .elem ⟨⟨c!"attribute", (some c!"http://www.w3.org/2001/XMLSchema")⟩, [⟨c!"name", none, c!"name", 522⟩, ⟨c!"type", none, c!"xs:string", 534⟩, ⟨c!"fixed", none, c!"foobar", 551⟩], [((some c!"xs"), c!"http://www.w3.org/2001/XMLSchema")], 508⟩
         [.text c!"\n        ",
          .elem ⟨⟨c!"annotation", (some c!"http://www.w3.org/2001/XMLSchema")⟩, [], [((some c!"xs"), c!"http://www.w3.org/2001/XMLSchema")], 575⟩
           [.text c!"\n          ",
            .elem ⟨⟨c!"documentation", (some c!"http://www.w3.org/2001/XMLSchema")⟩, [], [((some c!"xs"), c!"http://www.w3.org/2001/XMLSchema")], 601⟩
             [.text c!"The service name."],
            .text c!"\n        "],
          .text c!"\n      "],
        .text c!"\n    "],
      .text c!"\n  "],
   .text c!"\n"])

/-- The text of `xsd/tests/xsd/complex_type_fixed.xsd`. -/
def complex_type_fixed_text : Str := c!"<?xml version=\"1.0\"?>\n<xs:schema xmlns:xs=\"http://www.w3.org/2001/XMLSchema\">\n  <xs:element name=\"meta\">\n    <xs:complexType>\n      <xs:annotation>\n        <xs:documentation>Service information.</xs:documentation>\n      </xs:annotation>\n      <xs:sequence>\n        <xs:element name=\"version\" type=\"xs:int\" fixed=\"2\" minOccurs=\"1\">\n          <xs:annotation>\n            <xs:documentation>The major version number.</xs:documentation>\n          </xs:annotation>\n        </xs:element>\n      </xs:sequence>\n      <xs:attribute name=\"name\" type=\"xs:string\" fixed=\"foobar\">\n        <xs:annotation>\n          <xs:documentation>The service name.</xs:documentation>\n        </xs:annotation>\n      </xs:attribute>\n    </xs:complexType>\n  </xs:element>\n</xs:schema>"

/-- The schema files. -/
def dir : Files := directory [(c!"complex_type_fixed.xsd", complex_type_fixed_text, complex_type_fixed_xsd)]

/-- The texts of the schema files. -/
def texts : TextFiles := textDirectory [(c!"complex_type_fixed.xsd", complex_type_fixed_text)]

theorem texts_files : texts.files = dir := directory_texts (fs := [(c!"complex_type_fixed.xsd", complex_type_fixed_text, complex_type_fixed_xsd)]) (by decide +kernel)

/-- `xsd/tests/xsd/complex_type_fixed.xml` -/
def xml : Doc := ⟨(⟨⟨c!"meta", none⟩, [⟨c!"name", none, c!"foobar", 45⟩], [], 39⟩,
  [.text c!"\n  ",
   .elem ⟨⟨c!"version", none⟩, [], [], 62⟩
     [.text c!"2"],
   .text c!"\n"])⟩

/-- The tags and texts that are written (`xsd/tests/complex_type_fixed.rs`). -/
def written : List Ev :=
  [.start c!"meta" [(c!"name", c!"foobar")] [],
   .start c!"version" [] [],
   .chars c!"2",
   .fin,
   .fin]

/-- The expected value (`xsd/tests/complex_type_fixed.rs`). -/
def expected : Val := .struct [(c!"version", .unit), (c!"name", .some (.unit))]

/-- The text of `xsd/tests/xsd/complex_type_fixed.xml`. -/
def text : Str := c!"<?xml version=\"1.0\" encoding=\"UTF-8\"?>\n<meta name=\"foobar\">\n  <version>2</version>\n</meta>"

/-- The text that is written. -/
def writtenText : Str := text

example : passes dir c!"complex_type_fixed.xsd" c!"Meta" xml written expected = true := by decide +kernel

example : passesText texts.files c!"complex_type_fixed.xsd" c!"Meta" text writtenText expected = true := by rw [texts_files]; decide +kernel

example : Covered dir c!"complex_type_fixed.xsd" true := coveredB_sound (by decide +kernel)

end complex_type_fixed_test

/-! ## `element_complex_type_sequence.rs` -/

namespace element_complex_type_sequence_test

/-- `xsd/tests/xsd/element_complex_type_sequence.xsd` -/
def element_complex_type_sequence_xsd : Elem := (⟨⟨c!"schema", (some c!"http://www.w3.org/2001/XMLSchema")⟩, [], [((some c!"xs"), c!"http://www.w3.org/2001/XMLSchema")], 22⟩,
  [.text c!"\n  ",
   .elem ⟨⟨c!"element", (some c!"http://www.w3.org/2001/XMLSchema")⟩, [⟨c!"name", none, c!"article", 92⟩], [((some c!"xs"), c!"http://www.w3.org/2001/XMLSchema")], 80⟩
     [.text c!"\n    ",
      .elem ⟨⟨c!"annotation", (some c!"http://www.w3.org/2001/XMLSchema")⟩, [], [((some c!"xs"), c!"http://www.w3.org/2001/XMLSchema")], 112⟩
       [.text c!"\n      ",
        .elem ⟨⟨c!"documentation", (some c!"http://www.w3.org/2001/XMLSchema")⟩, [], [((some c!"xs"), c!"http://www.w3.org/2001/XMLSchema")], 134⟩
         [.text c!"A single article."],
        .text c!"\n    "],
      .text c!"\n    ",
      .elem ⟨⟨c!"complexType", (some c!"http://www.w3.org/2001/XMLSchema")⟩, [], [((some c!"xs"), c!"http://www.w3.org/2001/XMLSchema")], 214⟩
       [.text c!"\n      ",
        .elem ⟨⟨c!"sequence", (some c!"http://www.w3.org/2001/XMLSchema")⟩, [], [((some c!"xs"), c!"http://www.w3.org/2001/XMLSchema")], 237⟩
         [.text c!"\n        ",
          .elem ⟨⟨c!"element", (some c!"http://www.w3.org/2001/XMLSchema")⟩, [⟨c!"name", none, c!"subject", 271⟩, ⟨c!"type", none, c!"xs:string", 286⟩], [((some c!"xs"), c!"http://www.w3.org/2001/XMLSchema")], 259⟩
           [],
          .text c!"\n        ",
          .elem ⟨⟨c!"element", (some c!"http://www.w3.org/2001/XMLSchema")⟩, [⟨c!"name", none, c!"body", 326⟩, ⟨c!"type", none, c!"xs:string", 338⟩], [((some c!"xs"), c!"http://www.w3.org/2001/XMLSchema")], 314⟩
           [],
          .text c!"\n        ",
          .elem ⟨⟨c!"element", (some c!"http://www.w3.org/2001/XMLSchema")⟩, [⟨c!"name", none, c!"author", 378⟩, ⟨c!"type", none, c!"xs:string", 392⟩], [((some c!"xs"), c!"http://www.w3.org/2001/XMLSchema")], 366⟩
           [],
          .text c!"\n      "],
        .text c!"\n    "],
      .text c!"\n  "],
   .text c!"\n"])

/-- The text of `xsd/tests/xsd/element_complex_type_sequence.xsd`. -/
def element_complex_type_sequence_text : Str := c!"<?xml version=\"1.0\"?>\n<xs:schema xmlns:xs=\"http://www.w3.org/2001/XMLSchema\">\n  <xs:element name=\"article\">\n    <xs:annotation>\n      <xs:documentation>A single article.</xs:documentation>\n    </xs:annotation>\n    <xs:complexType>\n      <xs:sequence>\n        <xs:element name=\"subject\" type=\"xs:string\" />\n        <xs:element name=\"body\" type=\"xs:string\" />\n        <xs:element name=\"author\" type=\"xs:string\" />\n      </xs:sequence>\n    </xs:complexType>\n  </xs:element>\n</xs:schema>"

/-- The schema files. -/
def dir : Files := directory [(c!"element_complex_type_sequence.xsd", element_complex_type_sequence_text, element_complex_type_sequence_xsd)]

/-- The texts of the schema files. -/
def texts : TextFiles := textDirectory [(c!"element_complex_type_sequence.xsd", element_complex_type_sequence_text)]

theorem texts_files : texts.files = dir := directory_texts (fs := [(c!"element_complex_type_sequence.xsd", element_complex_type_sequence_text, element_complex_type_sequence_xsd)]) (by decide +kernel)

/-- `xsd/tests/xsd/element_complex_type_sequence.xml` -/
def xml : Doc := ⟨(⟨⟨c!"article", none⟩, [], [], 39⟩,
  [.text c!"\n  ",
   .elem ⟨⟨c!"subject", none⟩, [], [], 51⟩
     [.text c!"Lorem Ipsum"],
   .text c!"\n  ",
   .elem ⟨⟨c!"body", none⟩, [], [], 84⟩
     [.text c!"Lorem ipsum dolor sit amet."],
   .text c!"\n  ",
   .elem ⟨⟨c!"author", none⟩, [], [], 127⟩
     [.text c!"Foobar"],
   .text c!"\n"])⟩

/-- The tags and texts that are written (`xsd/tests/element_complex_type_sequence.rs`). -/
def written : List Ev :=
  [.start c!"article" [] [],
   .start c!"subject" [] [],
   .chars c!"Lorem Ipsum",
   .fin,
   .start c!"body" [] [],
   .chars c!"Lorem ipsum dolor sit amet.",
   .fin,
   .start c!"author" [] [],
   .chars c!"Foobar",
   .fin,
   .fin]

/-- The expected value (`xsd/tests/element_complex_type_sequence.rs`). -/
def expected : Val := .struct [(c!"subject", .str c!"Lorem Ipsum"), (c!"body", .str c!"Lorem ipsum dolor sit amet."), (c!"author", .str c!"Foobar")]

/-- The text of `xsd/tests/xsd/element_complex_type_sequence.xml`. -/
def text : Str := c!"<?xml version=\"1.0\" encoding=\"UTF-8\"?>\n<article>\n  <subject>Lorem Ipsum</subject>\n  <body>Lorem ipsum dolor sit amet.</body>\n  <author>Foobar</author>\n</article>"

/-- The text that is written. -/
def writtenText : Str := text

example : passes dir c!"element_complex_type_sequence.xsd" c!"Article" xml written expected = true := by decide +kernel

example : passesText texts.files c!"element_complex_type_sequence.xsd" c!"Article" text writtenText expected = true := by rw [texts_files]; decide +kernel

example : Covered dir c!"element_complex_type_sequence.xsd" true := coveredB_sound (by decide +kernel)

end element_complex_type_sequence_test

/-! ## `element_default.rs` -/

namespace element_default_test

/-- `xsd/tests/xsd/element_default.xsd` -/
def element_default_xsd : Elem := (⟨⟨c!"schema", (some c!"http://www.w3.org/2001/XMLSchema")⟩, [], [((some c!"xs"), c!"http://www.w3.org/2001/XMLSchema")], 22⟩,
  [.text c!"\n  ",
   .elem ⟨⟨c!"element", (some c!"http://www.w3.org/2001/XMLSchema")⟩, [⟨c!"name", none, c!"settings", 92⟩], [((some c!"xs"), c!"http://www.w3.org/2001/XMLSchema")], 80⟩
     [.text c!"\n    ",
      .elem ⟨⟨c!"complexType", (some c!"http://www.w3.org/2001/XMLSchema")⟩, [], [((some c!"xs"), c!"http://www.w3.org/2001/XMLSchema")], 113⟩
       [.text c!"\n      ",
        .elem ⟨⟨c!"sequence", (some c!"http://www.w3.org/2001/XMLSchema")⟩, [], [((some c!"xs"), c!"http://www.w3.org/2001/XMLSchema")], 136⟩
         [.text c!"\n        ",
          .elem ⟨⟨c!"element", (some c!"http://www.w3.org/2001/XMLSchema")⟩, [⟨c!"name", none, c!"debug", 170⟩, ⟨c!"type", none, c!"xs:boolean", 183⟩, ⟨c!"minOccurs", none, c!"0", 201⟩, ⟨c!"default", none, c!"false", 215⟩], [((some c!"xs"), c!"http://www.w3.org/2001/XMLSchema")], 158⟩
           [],
          .text c!"\n      "],
        .text c!"\n    "],
      .text c!"\n  "],
   .text c!"\n"])

/-- The text of `xsd/tests/xsd/element_default.xsd`. -/
def element_default_text : Str := c!"<?xml version=\"1.0\"?>\n<xs:schema xmlns:xs=\"http://www.w3.org/2001/XMLSchema\">\n  <xs:element name=\"settings\">\n    <xs:complexType>\n      <xs:sequence>\n        <xs:element name=\"debug\" type=\"xs:boolean\" minOccurs=\"0\" default=\"false\" />\n      </xs:sequence>\n    </xs:complexType>\n  </xs:element>\n</xs:schema>"

/-- The schema files. -/
def dir : Files := directory [(c!"element_default.xsd", element_default_text, element_default_xsd)]

/-- The texts of the schema files. -/
def texts : TextFiles := textDirectory [(c!"element_default.xsd", element_default_text)]

theorem texts_files : texts.files = dir := directory_texts (fs := [(c!"element_default.xsd", element_default_text, element_default_xsd)]) (by decide +kernel)

/-- `xsd/tests/xsd/element_default.xml` -/
def xml : Doc := ⟨(⟨⟨c!"settings", none⟩, [], [], 39⟩,
  [])⟩

/-- The tags and texts that are written (`xsd/tests/element_default.rs`). -/
def written : List Ev :=
  [.start c!"settings" [] [],
   .fin]

/-- The expected value (`xsd/tests/element_default.rs`). -/
def expected : Val := .struct [(c!"debug", .none)]

/-- The text of `xsd/tests/xsd/element_default.xml`. -/
def text : Str := c!"<?xml version=\"1.0\" encoding=\"UTF-8\"?>\n<settings />"

/-- The text that is written. -/
def writtenText : Str := text

example : passes dir c!"element_default.xsd" c!"Settings" xml written expected = true := by decide +kernel

example : passesText texts.files c!"element_default.xsd" c!"Settings" text writtenText expected = true := by rw [texts_files]; decide +kernel

example : Covered dir c!"element_default.xsd" true := coveredB_sound (by decide +kernel)

end element_default_test

/-! ## `element_fixed.rs` -/

namespace element_fixed_test

/-- `xsd/tests/xsd/element_fixed.xsd` -/
def element_fixed_xsd : Elem := (⟨⟨c!"schema", (some c!"http://www.w3.org/2001/XMLSchema")⟩, [], [((some c!"xs"), c!"http://www.w3.org/2001/XMLSchema")], 22⟩,
  [.text c!"\n  ",
   .elem ⟨⟨c!"element", (some c!"http://www.w3.org/2001/XMLSchema")⟩, [⟨c!"name", none, c!"name", 92⟩, ⟨c!"type", none, c!"xs:string", 104⟩, ⟨c!"fixed", none, c!"foobar", 121⟩], [((some c!"xs"), c!"http://www.w3.org/2001/XMLSchema")], 80⟩
     [.text c!"\n    ",
      .elem ⟨⟨c!"annotation", (some c!"http://www.w3.org/2001/XMLSchema")⟩, [], [((some c!"xs"), c!"http://www.w3.org/2001/XMLSchema")], 141⟩
       [.text c!"\n      ",
        .elem ⟨⟨c!"documentation", (some c!"http://www.w3.org/2001/XMLSchema")⟩, [], [((some c!"xs"), c!"http://www.w3.org/2001/XMLSchema")], 163⟩
         [.text c!"The service name."],
        .text c!"\n    "],
      .text c!"\n  "],
   .text c!"\n  ",
   .other,
   .text c!"\n"])

/-- The text of `xsd/tests/xsd/element_fixed.xsd`. -/
def element_fixed_text : Str := c!"<?xml version=\"1.0\"?>\n<xs:schema xmlns:xs=\"http://www.w3.org/2001/XMLSchema\">\n  <xs:element name=\"name\" type=\"xs:string\" fixed=\"foobar\">\n    <xs:annotation>\n      <xs:documentation>The service name.</xs:documentation>\n    </xs:annotation>\n  </xs:element>\n  <!-- <xs:complexType name=\"version\">\n    <xs:annotation>\n      <xs:documentation>The service version.</xs:documentation>\n    </xs:annotation>\n    <xs:sequence>\n      <xs:element name=\"major\" type=\"xs:int\" fixed=\"2\" minOccurs=\"1\">\n        <xs:annotation>\n          <xs:documentation>Majore version number.</xs:documentation>\n        </xs:annotation>\n      </xs:element>\n    </xs:sequence>\n  </xs:complexType> -->\n</xs:schema>"

/-- The schema files. -/
def dir : Files := directory [(c!"element_fixed.xsd", element_fixed_text, element_fixed_xsd)]

/-- The texts of the schema files. -/
def texts : TextFiles := textDirectory [(c!"element_fixed.xsd", element_fixed_text)]

theorem texts_files : texts.files = dir := directory_texts (fs := [(c!"element_fixed.xsd", element_fixed_text, element_fixed_xsd)]) (by decide +kernel)

/-- `xsd/tests/xsd/element_fixed.xml` -/
def xml : Doc := ⟨(⟨⟨c!"name", none⟩, [], [], 39⟩,
  [.text c!"foobar"])⟩

/-- The tags and texts that are written (`xsd/tests/element_fixed.rs`). -/
def written : List Ev :=
  [.start c!"name" [] [],
   .chars c!"foobar",
   .fin]

/-- The expected value (`xsd/tests/element_fixed.rs`). -/
def expected : Val := .newtype (.unit)

/-- The text of `xsd/tests/xsd/element_fixed.xml`. -/
def text : Str := c!"<?xml version=\"1.0\" encoding=\"UTF-8\"?>\n<name>foobar</name>"

/-- The text that is written. -/
def writtenText : Str := text

example : passes dir c!"element_fixed.xsd" c!"Name" xml written expected = true := by decide +kernel

example : passesText texts.files c!"element_fixed.xsd" c!"Name" text writtenText expected = true := by rw [texts_files]; decide +kernel

example : Covered dir c!"element_fixed.xsd" true := coveredB_sound (by decide +kernel)

end element_fixed_test

/-! ## `element_nested.rs` -/

namespace element_nested_test

/-- `xsd/tests/xsd/element_nested.xsd` -/
def element_nested_xsd : Elem := (⟨⟨c!"schema", (some c!"http://www.w3.org/2001/XMLSchema")⟩, [], [((some c!"xs"), c!"http://www.w3.org/2001/XMLSchema")], 22⟩,
  [.text c!"\n  ",
   .elem ⟨⟨c!"element", (some c!"http://www.w3.org/2001/XMLSchema")⟩, [⟨c!"name", none, c!"article", 92⟩], [((some c!"xs"), c!"http://www.w3.org/2001/XMLSchema")], 80⟩
     [.text c!"\n    ",
      .elem ⟨⟨c!"complexType", (some c!"http://www.w3.org/2001/XMLSchema")⟩, [], [((some c!"xs"), c!"http://www.w3.org/2001/XMLSchema")], 112⟩
       [.text c!"\n      ",
        .elem ⟨⟨c!"sequence", (some c!"http://www.w3.org/2001/XMLSchema")⟩, [], [((some c!"xs"), c!"http://www.w3.org/2001/XMLSchema")], 135⟩
         [.text c!"\n        ",
          .elem ⟨⟨c!"element", (some c!"http://www.w3.org/2001/XMLSchema")⟩, [⟨c!"name", none, c!"excerpt", 169⟩, ⟨c!"type", none, c!"xs:string", 184⟩], [((some c!"xs"), c!"http://www.w3.org/2001/XMLSchema")], 157⟩
           [],
          .text c!"\n        ",
          .elem ⟨⟨c!"element", (some c!"http://www.w3.org/2001/XMLSchema")⟩, [⟨c!"name", none, c!"author", 224⟩], [((some c!"xs"), c!"http://www.w3.org/2001/XMLSchema")], 212⟩
           [.text c!"\n          ",
            .elem ⟨⟨c!"complexType", (some c!"http://www.w3.org/2001/XMLSchema")⟩, [], [((some c!"xs"), c!"http://www.w3.org/2001/XMLSchema")], 249⟩
             [.text c!"\n            ",
              .elem ⟨⟨c!"sequence", (some c!"http://www.w3.org/2001/XMLSchema")⟩, [], [((some c!"xs"), c!"http://www.w3.org/2001/XMLSchema")], 278⟩
               [.text c!"\n              ",
                .elem ⟨⟨c!"element", (some c!"http://www.w3.org/2001/XMLSchema")⟩, [⟨c!"name", none, c!"name", 318⟩, ⟨c!"type", none, c!"xs:string", 330⟩], [((some c!"xs"), c!"http://www.w3.org/2001/XMLSchema")], 306⟩
                 [],
                .text c!"\n            "],
              .text c!"\n          "],
            .text c!"\n        "],
          .text c!"\n      "],
        .text c!"\n    "],
      .text c!"\n  "],
   .text c!"\n"])

/-- The text of `xsd/tests/xsd/element_nested.xsd`. -/
def element_nested_text : Str := c!"<?xml version=\"1.0\"?>\n<xs:schema xmlns:xs=\"http://www.w3.org/2001/XMLSchema\">\n  <xs:element name=\"article\">\n    <xs:complexType>\n      <xs:sequence>\n        <xs:element name=\"excerpt\" type=\"xs:string\" />\n        <xs:element name=\"author\">\n          <xs:complexType>\n            <xs:sequence>\n              <xs:element name=\"name\" type=\"xs:string\" />\n            </xs:sequence>\n          </xs:complexType>\n        </xs:element>\n      </xs:sequence>\n    </xs:complexType>\n  </xs:element>\n</xs:schema>"

/-- The schema files. -/
def dir : Files := directory [(c!"element_nested.xsd", element_nested_text, element_nested_xsd)]

/-- The texts of the schema files. -/
def texts : TextFiles := textDirectory [(c!"element_nested.xsd", element_nested_text)]

theorem texts_files : texts.files = dir := directory_texts (fs := [(c!"element_nested.xsd", element_nested_text, element_nested_xsd)]) (by decide +kernel)

/-- `xsd/tests/xsd/element_nested.xml` -/
def xml : Doc := ⟨(⟨⟨c!"article", none⟩, [], [], 39⟩,
  [.text c!"\n  ",
   .elem ⟨⟨c!"excerpt", none⟩, [], [], 51⟩
     [.text c!"Lorem Ipsum"],
   .text c!"\n  ",
   .elem ⟨⟨c!"author", none⟩, [], [], 84⟩
     [.text c!"\n    ",
      .elem ⟨⟨c!"name", none⟩, [], [], 97⟩
       [.text c!"Foobar"],
      .text c!"\n  "],
   .text c!"\n"])⟩

/-- The tags and texts that are written (`xsd/tests/element_nested.rs`). -/
def written : List Ev :=
  [.start c!"article" [] [],
   .start c!"excerpt" [] [],
   .chars c!"Lorem Ipsum",
   .fin,
   .start c!"author" [] [],
   .start c!"name" [] [],
   .chars c!"Foobar",
   .fin,
   .fin,
   .fin]

/-- The expected value (`xsd/tests/element_nested.rs`). -/
def expected : Val := .struct [(c!"excerpt", .str c!"Lorem Ipsum"), (c!"author", .struct [(c!"name", .str c!"Foobar")])]

/-- The text of `xsd/tests/xsd/element_nested.xml`. -/
def text : Str := c!"<?xml version=\"1.0\" encoding=\"UTF-8\"?>\n<article>\n  <excerpt>Lorem Ipsum</excerpt>\n  <author>\n    <name>Foobar</name>\n  </author>\n</article>"

/-- The text that is written. -/
def writtenText : Str := text

example : passes dir c!"element_nested.xsd" c!"Article" xml written expected = true := by decide +kernel

example : passesText texts.files c!"element_nested.xsd" c!"Article" text writtenText expected = true := by rw [texts_files]; decide +kernel

example : Covered dir c!"element_nested.xsd" true := coveredB_sound (by decide +kernel)

end element_nested_test

/-! ## `element_nested_attribute.rs` -/

namespace element_nested_attribute_test

/-- `xsd/tests/xsd/element_nested_attribute.xsd` -/
def element_nested_attribute_xsd : Elem := (⟨⟨c!"schema", (some c!"http://www.w3.org/2001/XMLSchema")⟩, [], [((some c!"xs"), c!"http://www.w3.org/2001/XMLSchema")], 22⟩,
  [.text c!"\n  ",
   .elem ⟨⟨c!"element", (some c!"http://www.w3.org/2001/XMLSchema")⟩, [⟨c!"name", none, c!"article", 92⟩], [((some c!"xs"), c!"http://www.w3.org/2001/XMLSchema")], 80⟩
     [.text c!"\n    ",
      .elem ⟨⟨c!"complexType", (some c!"http://www.w3.org/2001/XMLSchema")⟩, [], [((some c!"xs"), c!"http://www.w3.org/2001/XMLSchema")], 112⟩
       [.text c!"\n      ",
        .elem ⟨⟨c!"sequence", (some c!"http://www.w3.org/2001/XMLSchema")⟩, [], [((some c!"xs"), c!"http://www.w3.org/2001/XMLSchema")], 135⟩
         [.text c!"\n        ",
          .elem ⟨⟨c!"element", (some c!"http://www.w3.org/2001/XMLSchema")⟩, [⟨c!"name", none, c!"excerpt", 169⟩, ⟨c!"type", none, c!"xs:string", 184⟩], [((some c!"xs"), c!"http://www.w3.org/2001/XMLSchema")], 157⟩
           [],
          .text c!"\n        ",
          .elem ⟨⟨c!"element", (some c!"http://www.w3.org/2001/XMLSchema")⟩, [⟨c!"name", none, c!"author", 224⟩], [((some c!"xs"), c!"http://www.w3.org/2001/XMLSchema")], 212⟩
           [.text c!"\n          ",
            .elem ⟨⟨c!"complexType", (some c!"http://www.w3.org/2001/XMLSchema")⟩, [], [((some c!"xs"), c!"http://www.w3.org/2001/XMLSchema")], 249⟩
             [.text c!"\n            ",
              .elem ⟨⟨c!"sequence", (some c!"http://www.w3.org/2001/XMLSchema")⟩, [], [((some c!"xs"), c!"http://www.w3.org/2001/XMLSchema")], 278⟩
               [.text c!"\n              ",
                .elem ⟨⟨c!"element", (some c!"http://www.w3.org/2001/XMLSchema")⟩, [⟨c!"name", none, c!"name", 318⟩, ⟨c!"type", none, c!"xs:string", 330⟩], [((some c!"xs"), c!"http://www.w3.org/2001/XMLSchema")], 306⟩
                 [],
                .text c!"\n            "],
              .text c!"\n            ",
              .elem ⟨⟨c!"attribute", (some c!"http://www.w3.org/2001/XMLSchema")⟩, [⟨c!"name", none, c!"id", 403⟩, ⟨c!"type", none, c!"xs:long", 413⟩], [((some c!"xs"), c!"http://www.w3.org/2001/XMLSchema")], 389⟩
               [],
              .text c!"\n          "],
            .text c!"\n        "],
          .text c!"\n      "],
        .text c!"\n    "],
      .text c!"\n  "],
   .text c!"\n"])

/-- The text of `xsd/tests/xsd/element_nested_attribute.xsd`. -/
def element_nested_attribute_text : Str := c!"<?xml version=\"1.0\"?>\n<xs:schema xmlns:xs=\"http://www.w3.org/2001/XMLSchema\">\n  <xs:element name=\"article\">\n    <xs:complexType>\n      <xs:sequence>\n        <xs:element name=\"excerpt\" type=\"xs:string\" />\n        <xs:element name=\"author\">\n          <xs:complexType>\n            <xs:sequence>\n              <xs:element name=\"name\" type=\"xs:string\" />\n            </xs:sequence>\n            <xs:attribute name=\"id\" type=\"xs:long\" />\n          </xs:complexType>\n        </xs:element>\n      </xs:sequence>\n    </xs:complexType>\n  </xs:element>\n</xs:schema>"

/-- The schema files. -/
def dir : Files := directory [(c!"element_nested_attribute.xsd", element_nested_attribute_text, element_nested_attribute_xsd)]

/-- The texts of the schema files. -/
def texts : TextFiles := textDirectory [(c!"element_nested_attribute.xsd", element_nested_attribute_text)]

theorem texts_files : texts.files = dir := directory_texts (fs := [(c!"element_nested_attribute.xsd", element_nested_attribute_text, element_nested_attribute_xsd)]) (by decide +kernel)

/-- `xsd/tests/xsd/element_nested_attribute.xml` -/
def xml : Doc := ⟨(⟨⟨c!"article", none⟩, [], [], 39⟩,
  [.text c!"\n  ",
   .elem ⟨⟨c!"excerpt", none⟩, [], [], 51⟩
     [.text c!"Lorem Ipsum"],
   .text c!"\n  ",
   .elem ⟨⟨c!"author", none⟩, [⟨c!"id", none, c!"42", 92⟩], [], 84⟩
     [.text c!"\n    ",
      .elem ⟨⟨c!"name", none⟩, [], [], 105⟩
       [.text c!"Foobar"],
      .text c!"\n  "],
   .text c!"\n"])⟩

/-- The tags and texts that are written (`xsd/tests/element_nested_attribute.rs`). -/
def written : List Ev :=
  [.start c!"article" [] [],
   .start c!"excerpt" [] [],
   .chars c!"Lorem Ipsum",
   .fin,
   .start c!"author" [(c!"id", c!"42")] [],
   .start c!"name" [] [],
   .chars c!"Foobar",
   .fin,
   .fin,
   .fin]

/-- The expected value (`xsd/tests/element_nested_attribute.rs`). -/
def expected : Val := .struct [(c!"excerpt", .str c!"Lorem Ipsum"), (c!"author", .struct [(c!"id", .some (.int 42)), (c!"name", .str c!"Foobar")])]

/-- The text of `xsd/tests/xsd/element_nested_attribute.xml`. -/
def text : Str := c!"<?xml version=\"1.0\" encoding=\"UTF-8\"?>\n<article>\n  <excerpt>Lorem Ipsum</excerpt>\n  <author id=\"42\">\n    <name>Foobar</name>\n  </author>\n</article>"

/-- The text that is written. -/
def writtenText : Str := text

example : passes dir c!"element_nested_attribute.xsd" c!"Article" xml written expected = true := by decide +kernel

example : passesText texts.files c!"element_nested_attribute.xsd" c!"Article" text writtenText expected = true := by rw [texts_files]; decide +kernel

example : Covered dir c!"element_nested_attribute.xsd" true := coveredB_sound (by decide +kernel)

end element_nested_attribute_test

/-! ## `element_optional.rs` -/

namespace element_optional_test

/-- `xsd/tests/xsd/element_optional.xsd` -/
def element_optional_xsd : Elem := (⟨⟨c!"schema", (some c!"http://www.w3.org/2001/XMLSchema")⟩, [], [((some c!"xs"), c!"http://www.w3.org/2001/XMLSchema")], 22⟩,
  [.text c!"\n  ",
   .elem ⟨⟨c!"element", (some c!"http://www.w3.org/2001/XMLSchema")⟩, [⟨c!"name", none, c!"settings", 92⟩], [((some c!"xs"), c!"http://www.w3.org/2001/XMLSchema")], 80⟩
     [.text c!"\n    ",
      .elem ⟨⟨c!"complexType", (some c!"http://www.w3.org/2001/XMLSchema")⟩, [], [((some c!"xs"), c!"http://www.w3.org/2001/XMLSchema")], 113⟩
       [.text c!"\n      ",
        .elem ⟨⟨c!"sequence", (some c!"http://www.w3.org/2001/XMLSchema")⟩, [], [((some c!"xs"), c!"http://www.w3.org/2001/XMLSchema")], 136⟩
         [.text c!"\n        ",
          .elem ⟨⟨c!"element", (some c!"http://www.w3.org/2001/XMLSchema")⟩, [⟨c!"name", none, c!"debug", 170⟩, ⟨c!"type", none, c!"xs:boolean", 183⟩, ⟨c!"minOccurs", none, c!"0", 201⟩], [((some c!"xs"), c!"http://www.w3.org/2001/XMLSchema")], 158⟩
           [],
          .text c!"\n      "],
        .text c!"\n    "],
      .text c!"\n  "],
   .text c!"\n"])

/-- The text of `xsd/tests/xsd/element_optional.xsd`. -/
def element_optional_text : Str := c!"<?xml version=\"1.0\"?>\n<xs:schema xmlns:xs=\"http://www.w3.org/2001/XMLSchema\">\n  <xs:element name=\"settings\">\n    <xs:complexType>\n      <xs:sequence>\n        <xs:element name=\"debug\" type=\"xs:boolean\" minOccurs=\"0\" />\n      </xs:sequence>\n    </xs:complexType>\n  </xs:element>\n</xs:schema>"

/-- The schema files. -/
def dir : Files := directory [(c!"element_optional.xsd", element_optional_text, element_optional_xsd)]

/-- The texts of the schema files. -/
def texts : TextFiles := textDirectory [(c!"element_optional.xsd", element_optional_text)]

theorem texts_files : texts.files = dir := directory_texts (fs := [(c!"element_optional.xsd", element_optional_text, element_optional_xsd)]) (by decide +kernel)

/-- `xsd/tests/xsd/element_optional.xml` -/
def xml : Doc := ⟨(⟨⟨c!"settings", none⟩, [], [], 39⟩,
  [.text c!"\n  ",
   .elem ⟨⟨c!"debug", none⟩, [], [], 52⟩
     [.text c!"true"],
   .text c!"\n"])⟩

/-- The tags and texts that are written (`xsd/tests/element_optional.rs`). -/
def written : List Ev :=
  [.start c!"settings" [] [],
   .start c!"debug" [] [],
   .chars c!"true",
   .fin,
   .fin]

/-- The expected value (`xsd/tests/element_optional.rs`). -/
def expected : Val := .struct [(c!"debug", .some (.bool true))]

/-- The text of `xsd/tests/xsd/element_optional.xml`. -/
def text : Str := c!"<?xml version=\"1.0\" encoding=\"UTF-8\"?>\n<settings>\n  <debug>true</debug>\n</settings>"

/-- The text that is written. -/
def writtenText : Str := text

example : passes dir c!"element_optional.xsd" c!"Settings" xml written expected = true := by decide +kernel

example : passesText texts.files c!"element_optional.xsd" c!"Settings" text writtenText expected = true := by rw [texts_files]; decide +kernel

example : Covered dir c!"element_optional.xsd" true := coveredB_sound (by decide +kernel)

end element_optional_test

/-! ## `element_optional_vec.rs` -/

namespace element_optional_vec_test

/-- `xsd/tests/xsd/element_optional_vec.xsd` -/
def element_optional_vec_xsd : Elem := (⟨⟨c!"schema", (some c!"http://www.w3.org/2001/XMLSchema")⟩, [], [((some c!"xs"), c!"http://www.w3.org/2001/XMLSchema")], 22⟩,
  [.text c!"\n  ",
   .elem ⟨⟨c!"element", (some c!"http://www.w3.org/2001/XMLSchema")⟩, [⟨c!"name", none, c!"list", 92⟩], [((some c!"xs"), c!"http://www.w3.org/2001/XMLSchema")], 80⟩
     [.text c!"\n    ",
      .elem ⟨⟨c!"complexType", (some c!"http://www.w3.org/2001/XMLSchema")⟩, [], [((some c!"xs"), c!"http://www.w3.org/2001/XMLSchema")], 109⟩
       [.text c!"\n      ",
        .elem ⟨⟨c!"sequence", (some c!"http://www.w3.org/2001/XMLSchema")⟩, [], [((some c!"xs"), c!"http://www.w3.org/2001/XMLSchema")], 132⟩
         [.text c!"\n        ",
          .elem ⟨⟨c!"element", (some c!"http://www.w3.org/2001/XMLSchema")⟩, [⟨c!"name", none, c!"id", 166⟩, ⟨c!"type", none, c!"xs:long", 176⟩, ⟨c!"minOccurs", none, c!"0", 191⟩, ⟨c!"maxOccurs", none, c!"unbounded", 205⟩], [((some c!"xs"), c!"http://www.w3.org/2001/XMLSchema")], 154⟩
           [],
          .text c!"\n      "],
        .text c!"\n    "],
      .text c!"\n  "],
   .text c!"\n"])

/-- The text of `xsd/tests/xsd/element_optional_vec.xsd`. -/
def element_optional_vec_text : Str := c!"<?xml version=\"1.0\"?>\n<xs:schema xmlns:xs=\"http://www.w3.org/2001/XMLSchema\">\n  <xs:element name=\"list\">\n    <xs:complexType>\n      <xs:sequence>\n        <xs:element name=\"id\" type=\"xs:long\" minOccurs=\"0\" maxOccurs=\"unbounded\" />\n      </xs:sequence>\n    </xs:complexType>\n  </xs:element>\n</xs:schema>"

/-- The schema files. -/
def dir : Files := directory [(c!"element_optional_vec.xsd", element_optional_vec_text, element_optional_vec_xsd)]

/-- The texts of the schema files. -/
def texts : TextFiles := textDirectory [(c!"element_optional_vec.xsd", element_optional_vec_text)]

theorem texts_files : texts.files = dir := directory_texts (fs := [(c!"element_optional_vec.xsd", element_optional_vec_text, element_optional_vec_xsd)]) (by decide +kernel)

/-- `xsd/tests/xsd/element_optional_vec.xml` -/
def xml : Doc := ⟨(⟨⟨c!"list", none⟩, [], [], 39⟩,
  [.text c!"\n  ",
   .elem ⟨⟨c!"id", none⟩, [], [], 48⟩
     [.text c!"1"],
   .text c!"\n  ",
   .elem ⟨⟨c!"id", none⟩, [], [], 61⟩
     [.text c!"2"],
   .text c!"\n  ",
   .elem ⟨⟨c!"id", none⟩, [], [], 74⟩
     [.text c!"3"],
   .text c!"\n"])⟩

/-- The tags and texts that are written (`xsd/tests/element_optional_vec.rs`). -/
def written : List Ev :=
  [.start c!"list" [] [],
   .start c!"id" [] [],
   .chars c!"1",
   .fin,
   .start c!"id" [] [],
   .chars c!"2",
   .fin,
   .start c!"id" [] [],
   .chars c!"3",
   .fin,
   .fin]

/-- The expected value (`xsd/tests/element_optional_vec.rs`). -/
def expected : Val := .struct [(c!"id", .some (.vec [.int 1, .int 2, .int 3]))]

/-- The text of `xsd/tests/xsd/element_optional_vec.xml`. -/
def text : Str := c!"<?xml version=\"1.0\" encoding=\"UTF-8\"?>\n<list>\n  <id>1</id>\n  <id>2</id>\n  <id>3</id>\n</list>"

/-- The text that is written. -/
def writtenText : Str := text

example : passes dir c!"element_optional_vec.xsd" c!"List" xml written expected = true := by decide +kernel

example : passesText texts.files c!"element_optional_vec.xsd" c!"List" text writtenText expected = true := by rw [texts_files]; decide +kernel

example : Covered dir c!"element_optional_vec.xsd" true := coveredB_sound (by decide +kernel)

end element_optional_vec_test

/-! ## `element_ref.rs` -/

namespace element_ref_test

/-- `xsd/tests/xsd/element_ref.xsd` -/
def element_ref_xsd : Elem := (⟨⟨c!"schema", (some c!"http://www.w3.org/2001/XMLSchema")⟩, [⟨c!"elementFormDefault", none, c!"qualified", 94⟩, ⟨c!"targetNamespace", none, c!"urn:main", 125⟩], [((some c!"xs"), c!"http://www.w3.org/2001/XMLSchema"), ((some c!"main"), c!"urn:main"), ((some c!"base"), c!"urn:base")], 39⟩,
  [.text c!"\n\t",
   .elem ⟨⟨c!"import", (some c!"http://www.w3.org/2001/XMLSchema")⟩, [⟨c!"namespace", none, c!"urn:base", 209⟩, ⟨c!"schemaLocation", none, c!"./element_ref_other.xsd", 230⟩], [((some c!"xs"), c!"http://www.w3.org/2001/XMLSchema"), ((some c!"main"), c!"urn:main"), ((some c!"base"), c!"urn:base")], 198⟩
     [],
   .text c!"\n  ",
   .elem ⟨⟨c!"complexType", (some c!"http://www.w3.org/2001/XMLSchema")⟩, [⟨c!"name", none, c!"ArticleType", 291⟩], [((some c!"xs"), c!"http://www.w3.org/2001/XMLSchema"), ((some c!"main"), c!"urn:main"), ((some c!"base"), c!"urn:base")], 275⟩
     [.text c!"\n    ",
      .elem ⟨⟨c!"sequence", (some c!"http://www.w3.org/2001/XMLSchema")⟩, [], [((some c!"xs"), c!"http://www.w3.org/2001/XMLSchema"), ((some c!"main"), c!"urn:main"), ((some c!"base"), c!"urn:base")], 315⟩
       [.text c!"\n      ",
        .elem ⟨⟨c!"element", (some c!"http://www.w3.org/2001/XMLSchema")⟩, [⟨c!"ref", none, c!"base:content", 347⟩, ⟨c!"minOccurs", none, c!"0", 366⟩, ⟨c!"maxOccurs", none, c!"1", 380⟩], [((some c!"xs"), c!"http://www.w3.org/2001/XMLSchema"), ((some c!"main"), c!"urn:main"), ((some c!"base"), c!"urn:base")], 335⟩
         [],
        .text c!"\n      ",
        .elem ⟨⟨c!"element", (some c!"http://www.w3.org/2001/XMLSchema")⟩, [⟨c!"ref", none, c!"main:author", 415⟩], [((some c!"xs"), c!"http://www.w3.org/2001/XMLSchema"), ((some c!"main"), c!"urn:main"), ((some c!"base"), c!"urn:base")], 403⟩
         [],
        .text c!"\n    "],
      .text c!"\n  "],
   .text c!"\n  ",
   .elem ⟨⟨c!"element", (some c!"http://www.w3.org/2001/XMLSchema")⟩, [⟨c!"name", none, c!"article", 489⟩, ⟨c!"type", none, c!"main:ArticleType", 504⟩], [((some c!"xs"), c!"http://www.w3.org/2001/XMLSchema"), ((some c!"main"), c!"urn:main"), ((some c!"base"), c!"urn:base")], 477⟩
     [],
   .text c!"\n  ",
   .elem ⟨⟨c!"element", (some c!"http://www.w3.org/2001/XMLSchema")⟩, [⟨c!"name", none, c!"author", 545⟩, ⟨c!"type", none, c!"xs:string", 559⟩], [((some c!"xs"), c!"http://www.w3.org/2001/XMLSchema"), ((some c!"main"), c!"urn:main"), ((some c!"base"), c!"urn:base")], 533⟩
     [],
   .text c!"\n"])

/-- The text of `xsd/tests/xsd/element_ref.xsd`. -/
def element_ref_text : Str := c!"<?xml version=\"1.0\" encoding=\"UTF-8\"?>\n<xs:schema xmlns:xs=\"http://www.w3.org/2001/XMLSchema\" elementFormDefault=\"qualified\" targetNamespace=\"urn:main\" xmlns:main=\"urn:main\" xmlns:base=\"urn:base\">\n\t<xs:import namespace=\"urn:base\" schemaLocation=\"./element_ref_other.xsd\"/>\n  <xs:complexType name=\"ArticleType\">\n    <xs:sequence>\n      <xs:element ref=\"base:content\" minOccurs=\"0\" maxOccurs=\"1\" />\n      <xs:element ref=\"main:author\" />\n    </xs:sequence>\n  </xs:complexType>\n  <xs:element name=\"article\" type=\"main:ArticleType\" />\n  <xs:element name=\"author\" type=\"xs:string\" />\n</xs:schema>"

/-- `xsd/tests/xsd/element_ref_other.xsd` -/
def element_ref_other_xsd : Elem := (⟨⟨c!"schema", (some c!"http://www.w3.org/2001/XMLSchema")⟩, [⟨c!"elementFormDefault", none, c!"qualified", 77⟩, ⟨c!"targetNamespace", none, c!"urn:base", 108⟩], [((some c!"xs"), c!"http://www.w3.org/2001/XMLSchema"), ((some c!"base"), c!"urn:base")], 22⟩,
  [.text c!"\n  ",
   .elem ⟨⟨c!"element", (some c!"http://www.w3.org/2001/XMLSchema")⟩, [⟨c!"name", none, c!"content", 172⟩, ⟨c!"type", none, c!"base:ArticleContent", 187⟩], [((some c!"xs"), c!"http://www.w3.org/2001/XMLSchema"), ((some c!"base"), c!"urn:base")], 160⟩
     [],
   .text c!"\n  ",
   .elem ⟨⟨c!"complexType", (some c!"http://www.w3.org/2001/XMLSchema")⟩, [⟨c!"name", none, c!"ArticleContent", 235⟩], [((some c!"xs"), c!"http://www.w3.org/2001/XMLSchema"), ((some c!"base"), c!"urn:base")], 219⟩
     [.text c!"\n    ",
      .elem ⟨⟨c!"sequence", (some c!"http://www.w3.org/2001/XMLSchema")⟩, [], [((some c!"xs"), c!"http://www.w3.org/2001/XMLSchema"), ((some c!"base"), c!"urn:base")], 262⟩
       [.text c!"\n      ",
        .elem ⟨⟨c!"element", (some c!"http://www.w3.org/2001/XMLSchema")⟩, [⟨c!"name", none, c!"excerpt", 294⟩, ⟨c!"type", none, c!"xs:string", 309⟩], [((some c!"xs"), c!"http://www.w3.org/2001/XMLSchema"), ((some c!"base"), c!"urn:base")], 282⟩
         [],
        .text c!"\n    "],
      .text c!"\n  "],
   .text c!"\n"])

/-- The text of `xsd/tests/xsd/element_ref_other.xsd`. -/
def element_ref_other_text : Str := c!"<?xml version=\"1.0\"?>\n<xs:schema xmlns:xs=\"http://www.w3.org/2001/XMLSchema\" elementFormDefault=\"qualified\" targetNamespace=\"urn:base\" xmlns:base=\"urn:base\">\n  <xs:element name=\"content\" type=\"base:ArticleContent\" />\n  <xs:complexType name=\"ArticleContent\">\n    <xs:sequence>\n      <xs:element name=\"excerpt\" type=\"xs:string\" />\n    </xs:sequence>\n  </xs:complexType>\n</xs:schema>"

/-- The schema files. -/
def dir : Files := directory [(c!"element_ref.xsd", element_ref_text, element_ref_xsd), (c!"element_ref_other.xsd", element_ref_other_text, element_ref_other_xsd)]

/-- The texts of the schema files. -/
def texts : TextFiles := textDirectory [(c!"element_ref.xsd", element_ref_text), (c!"element_ref_other.xsd", element_ref_other_text)]

theorem texts_files : texts.files = dir := directory_texts (fs := [(c!"element_ref.xsd", element_ref_text, element_ref_xsd), (c!"element_ref_other.xsd", element_ref_other_text, element_ref_other_xsd)]) (by decide +kernel)

/-- `xsd/tests/xsd/element_ref.xml` -/
def xml : Doc := ⟨(⟨⟨c!"article", (some c!"urn:main")⟩, [], [(none, c!"urn:main"), ((some c!"ns2"), c!"urn:base")], 39⟩,
  [.text c!"\n  ",
   .elem ⟨⟨c!"content", (some c!"urn:base")⟩, [], [(none, c!"urn:main"), ((some c!"ns2"), c!"urn:base")], 89⟩
     [.text c!"\n    ",
      .elem ⟨⟨c!"excerpt", (some c!"urn:base")⟩, [], [(none, c!"urn:main"), ((some c!"ns2"), c!"urn:base")], 107⟩
       [.text c!"Lorem Ipsum"],
      .text c!"\n  "],
   .text c!"\n  ",
   .elem ⟨⟨c!"author", (some c!"urn:main")⟩, [], [(none, c!"urn:main"), ((some c!"ns2"), c!"urn:base")], 165⟩
     [.text c!"Foobar"],
   .text c!"\n"])⟩

/-- The tags and texts that are written (`xsd/tests/element_ref.rs`). -/
def written : List Ev :=
  [.start c!"article" [] [(c!"", c!"urn:main"), (c!"ns2", c!"urn:base")],
   .start c!"ns2:content" [] [],
   .start c!"ns2:excerpt" [] [],
   .chars c!"Lorem Ipsum",
   .fin,
   .fin,
   .start c!"author" [] [],
   .chars c!"Foobar",
   .fin,
   .fin]

/-- The expected value (`xsd/tests/element_ref.rs`). -/
def expected : Val := .newtype (.struct [(c!"content", .some (.struct [(c!"excerpt", .str c!"Lorem Ipsum")])), (c!"author", .str c!"Foobar")])

/-- The text of `xsd/tests/xsd/element_ref.xml`. -/
def text : Str := c!"<?xml version=\"1.0\" encoding=\"UTF-8\"?>\n<article xmlns=\"urn:main\" xmlns:ns2=\"urn:base\">\n  <ns2:content>\n    <ns2:excerpt>Lorem Ipsum</ns2:excerpt>\n  </ns2:content>\n  <author>Foobar</author>\n</article>"

/-- The text that is written. -/
def writtenText : Str := text

example : passes dir c!"element_ref.xsd" c!"Article" xml written expected = true := by decide +kernel

example : passesText texts.files c!"element_ref.xsd" c!"Article" text writtenText expected = true := by rw [texts_files]; decide +kernel

example : Covered dir c!"element_ref.xsd" true := coveredB_sound (by decide +kernel)

end element_ref_test

/-! ## `element_ref_element.rs` -/

namespace element_ref_element_test

/-- `xsd/tests/xsd/element_ref_element.xsd` -/
def element_ref_element_xsd : Elem := (⟨⟨c!"schema", (some c!"http://www.w3.org/2001/XMLSchema")⟩, [⟨c!"elementFormDefault", none, c!"qualified", 94⟩, ⟨c!"targetNamespace", none, c!"urn:main", 125⟩], [((some c!"xs"), c!"http://www.w3.org/2001/XMLSchema"), ((some c!"main"), c!"urn:main")], 39⟩,
  [.text c!"\n  ",
   .elem ⟨⟨c!"element", (some c!"http://www.w3.org/2001/XMLSchema")⟩, [⟨c!"name", none, c!"service", 189⟩], [((some c!"xs"), c!"http://www.w3.org/2001/XMLSchema"), ((some c!"main"), c!"urn:main")], 177⟩
     [.text c!"\n    ",
      .elem ⟨⟨c!"complexType", (some c!"http://www.w3.org/2001/XMLSchema")⟩, [], [((some c!"xs"), c!"http://www.w3.org/2001/XMLSchema"), ((some c!"main"), c!"urn:main")], 209⟩
       [.text c!"\n      ",
        .elem ⟨⟨c!"sequence", (some c!"http://www.w3.org/2001/XMLSchema")⟩, [], [((some c!"xs"), c!"http://www.w3.org/2001/XMLSchema"), ((some c!"main"), c!"urn:main")], 232⟩
         [.text c!"\n        ",
          .elem ⟨⟨c!"element", (some c!"http://www.w3.org/2001/XMLSchema")⟩, [⟨c!"ref", none, c!"main:versionNumber", 266⟩], [((some c!"xs"), c!"http://www.w3.org/2001/XMLSchema"), ((some c!"main"), c!"urn:main")], 254⟩
           [],
          .text c!"\n      "],
        .text c!"\n    "],
      .text c!"\n  "],
   .text c!"\n  ",
   .elem ⟨⟨c!"element", (some c!"http://www.w3.org/2001/XMLSchema")⟩, [⟨c!"name", none, c!"versionNumber", 367⟩], [((some c!"xs"), c!"http://www.w3.org/2001/XMLSchema"), ((some c!"main"), c!"urn:main")], 355⟩
     [.text c!"\n\t\t",
      .elem ⟨⟨c!"complexType", (some c!"http://www.w3.org/2001/XMLSchema")⟩, [], [((some c!"xs"), c!"http://www.w3.org/2001/XMLSchema"), ((some c!"main"), c!"urn:main")], 391⟩
       [.text c!"\n\t\t\t",
        .elem ⟨⟨c!"sequence", (some c!"http://www.w3.org/2001/XMLSchema")⟩, [], [((some c!"xs"), c!"http://www.w3.org/2001/XMLSchema"), ((some c!"main"), c!"urn:main")], 411⟩
         [.text c!"\n\t\t\t\t",
          .elem ⟨⟨c!"element", (some c!"http://www.w3.org/2001/XMLSchema")⟩, [⟨c!"name", none, c!"major", 441⟩, ⟨c!"type", none, c!"xs:int", 454⟩], [((some c!"xs"), c!"http://www.w3.org/2001/XMLSchema"), ((some c!"main"), c!"urn:main")], 429⟩
           [],
          .text c!"\n\t\t\t\t",
          .elem ⟨⟨c!"element", (some c!"http://www.w3.org/2001/XMLSchema")⟩, [⟨c!"name", none, c!"minor", 487⟩, ⟨c!"type", none, c!"xs:int", 500⟩], [((some c!"xs"), c!"http://www.w3.org/2001/XMLSchema"), ((some c!"main"), c!"urn:main")], 475⟩
           [],
          .text c!"\n\t\t\t\t",
          .elem ⟨⟨c!"element", (some c!"http://www.w3.org/2001/XMLSchema")⟩, [⟨c!"name", none, c!"bug", 533⟩, ⟨c!"type", none, c!"xs:int", 544⟩], [((some c!"xs"), c!"http://www.w3.org/2001/XMLSchema"), ((some c!"main"), c!"urn:main")], 521⟩
           [],
          .text c!"\n\t\t\t"],
        .text c!"\n\t\t"],
      .text c!"\n\t"],
   .text c!"\n"])

/-- The text of `xsd/tests/xsd/element_ref_element.xsd`. -/
def element_ref_element_text : Str := c!"<?xml version=\"1.0\" encoding=\"UTF-8\"?>\n<xs:schema xmlns:xs=\"http://www.w3.org/2001/XMLSchema\" elementFormDefault=\"qualified\" targetNamespace=\"urn:main\" xmlns:main=\"urn:main\">\n  <xs:element name=\"service\">\n    <xs:complexType>\n      <xs:sequence>\n        <xs:element ref=\"main:versionNumber\" />\n      </xs:sequence>\n    </xs:complexType>\n  </xs:element>\n  <xs:element name=\"versionNumber\">\n\t\t<xs:complexType>\n\t\t\t<xs:sequence>\n\t\t\t\t<xs:element name=\"major\" type=\"xs:int\" />\n\t\t\t\t<xs:element name=\"minor\" type=\"xs:int\" />\n\t\t\t\t<xs:element name=\"bug\" type=\"xs:int\" />\n\t\t\t</xs:sequence>\n\t\t</xs:complexType>\n\t</xs:element>\n</xs:schema>"

/-- The schema files. -/
def dir : Files := directory [(c!"element_ref_element.xsd", element_ref_element_text, element_ref_element_xsd)]

/-- The texts of the schema files. -/
def texts : TextFiles := textDirectory [(c!"element_ref_element.xsd", element_ref_element_text)]

theorem texts_files : texts.files = dir := directory_texts (fs := [(c!"element_ref_element.xsd", element_ref_element_text, element_ref_element_xsd)]) (by decide +kernel)

/-- `xsd/tests/xsd/element_ref_element.xml` -/
def xml : Doc := ⟨(⟨⟨c!"service", (some c!"urn:main")⟩, [], [(none, c!"urn:main")], 39⟩,
  [.text c!"\n  ",
   .elem ⟨⟨c!"versionNumber", (some c!"urn:main")⟩, [], [(none, c!"urn:main")], 68⟩
     [.text c!"\n    ",
      .elem ⟨⟨c!"major", (some c!"urn:main")⟩, [], [(none, c!"urn:main")], 88⟩
       [.text c!"1"],
      .text c!"\n    ",
      .elem ⟨⟨c!"minor", (some c!"urn:main")⟩, [], [(none, c!"urn:main")], 109⟩
       [.text c!"10"],
      .text c!"\n    ",
      .elem ⟨⟨c!"bug", (some c!"urn:main")⟩, [], [(none, c!"urn:main")], 131⟩
       [.text c!"3"],
      .text c!"\n  "],
   .text c!"\n"])⟩

/-- The tags and texts that are written (`xsd/tests/element_ref_element.rs`). -/
def written : List Ev :=
  [.start c!"service" [] [(c!"", c!"urn:main")],
   .start c!"versionNumber" [] [],
   .start c!"major" [] [],
   .chars c!"1",
   .fin,
   .start c!"minor" [] [],
   .chars c!"10",
   .fin,
   .start c!"bug" [] [],
   .chars c!"3",
   .fin,
   .fin,
   .fin]

/-- The expected value (`xsd/tests/element_ref_element.rs`). -/
def expected : Val := .struct [(c!"version_number", .struct [(c!"major", .int 1), (c!"minor", .int 10), (c!"bug", .int 3)])]

/-- The text of `xsd/tests/xsd/element_ref_element.xml`. -/
def text : Str := c!"<?xml version=\"1.0\" encoding=\"UTF-8\"?>\n<service xmlns=\"urn:main\">\n  <versionNumber>\n    <major>1</major>\n    <minor>10</minor>\n    <bug>3</bug>\n  </versionNumber>\n</service>"

/-- The text that is written. -/
def writtenText : Str := text

example : passes dir c!"element_ref_element.xsd" c!"Service" xml written expected = true := by decide +kernel

example : passesText texts.files c!"element_ref_element.xsd" c!"Service" text writtenText expected = true := by rw [texts_files]; decide +kernel

example : Covered dir c!"element_ref_element.xsd" true := coveredB_sound (by decide +kernel)

end element_ref_element_test

/-! ## `element_ref_type.rs` -/

namespace element_ref_type_test

/-- `xsd/tests/xsd/element_ref_type.xsd` -/
def element_ref_type_xsd : Elem := (⟨⟨c!"schema", (some c!"http://www.w3.org/2001/XMLSchema")⟩, [], [((some c!"xs"), c!"http://www.w3.org/2001/XMLSchema"), ((some c!"main"), c!"urn:main")], 22⟩,
  [.text c!"\n\t",
   .elem ⟨⟨c!"simpleType", (some c!"http://www.w3.org/2001/XMLSchema")⟩, [⟨c!"name", none, c!"ZipType", 116⟩], [((some c!"xs"), c!"http://www.w3.org/2001/XMLSchema"), ((some c!"main"), c!"urn:main")], 101⟩
     [.text c!"\n\t\t",
      .elem ⟨⟨c!"restriction", (some c!"http://www.w3.org/2001/XMLSchema")⟩, [⟨c!"base", none, c!"xs:string", 150⟩], [((some c!"xs"), c!"http://www.w3.org/2001/XMLSchema"), ((some c!"main"), c!"urn:main")], 134⟩
       [.text c!"\n      ",
        .elem ⟨⟨c!"minLength", (some c!"http://www.w3.org/2001/XMLSchema")⟩, [⟨c!"value", none, c!"5", 188⟩], [((some c!"xs"), c!"http://www.w3.org/2001/XMLSchema"), ((some c!"main"), c!"urn:main")], 174⟩
         [],
        .text c!"\n      ",
        .elem ⟨⟨c!"maxLength", (some c!"http://www.w3.org/2001/XMLSchema")⟩, [⟨c!"value", none, c!"5", 220⟩], [((some c!"xs"), c!"http://www.w3.org/2001/XMLSchema"), ((some c!"main"), c!"urn:main")], 206⟩
         [],
        .text c!"\n      ",
        .elem ⟨⟨c!"pattern", (some c!"http://www.w3.org/2001/XMLSchema")⟩, [⟨c!"value", none, c!"[0-9]{5}", 250⟩], [((some c!"xs"), c!"http://www.w3.org/2001/XMLSchema"), ((some c!"main"), c!"urn:main")], 238⟩
         [],
        .text c!"\n\t\t"],
      .text c!"\n\t"],
   .text c!"\n\t",
   .elem ⟨⟨c!"element", (some c!"http://www.w3.org/2001/XMLSchema")⟩, [⟨c!"name", none, c!"zip", 320⟩, ⟨c!"type", none, c!"ZipType", 331⟩], [((some c!"xs"), c!"http://www.w3.org/2001/XMLSchema"), ((some c!"main"), c!"urn:main")], 308⟩
     [],
   .text c!"\n  ",
   .elem ⟨⟨c!"element", (some c!"http://www.w3.org/2001/XMLSchema")⟩, [⟨c!"name", none, c!"address", 362⟩], [((some c!"xs"), c!"http://www.w3.org/2001/XMLSchema"), ((some c!"main"), c!"urn:main")], 350⟩
     [.text c!"\n    ",
      .elem ⟨⟨c!"complexType", (some c!"http://www.w3.org/2001/XMLSchema")⟩, [], [((some c!"xs"), c!"http://www.w3.org/2001/XMLSchema"), ((some c!"main"), c!"urn:main")], 382⟩
       [.text c!"\n      ",
        .elem ⟨⟨c!"sequence", (some c!"http://www.w3.org/2001/XMLSchema")⟩, [], [((some c!"xs"), c!"http://www.w3.org/2001/XMLSchema"), ((some c!"main"), c!"urn:main")], 405⟩
         [.text c!"\n        ",
          .elem ⟨⟨c!"element", (some c!"http://www.w3.org/2001/XMLSchema")⟩, [⟨c!"ref", none, c!"zip", 439⟩], [((some c!"xs"), c!"http://www.w3.org/2001/XMLSchema"), ((some c!"main"), c!"urn:main")], 427⟩
           [],
          .text c!"\n      "],
        .text c!"\n    "],
      .text c!"\n  "],
   .text c!"\n"])

/-- The text of `xsd/tests/xsd/element_ref_type.xsd`. -/
def element_ref_type_text : Str := c!"<?xml version=\"1.0\"?>\n<xs:schema xmlns:xs=\"http://www.w3.org/2001/XMLSchema\" xmlns:main=\"urn:main\">\n\t<xs:simpleType name=\"ZipType\">\n\t\t<xs:restriction base=\"xs:string\">\n      <xs:minLength value=\"5\"/>\n      <xs:maxLength value=\"5\"/>\n      <xs:pattern value=\"[0-9]{5}\"/>\n\t\t</xs:restriction>\n\t</xs:simpleType>\n\t<xs:element name=\"zip\" type=\"ZipType\"/>\n  <xs:element name=\"address\">\n    <xs:complexType>\n      <xs:sequence>\n        <xs:element ref=\"zip\" />\n      </xs:sequence>\n    </xs:complexType>\n  </xs:element>\n</xs:schema>"

/-- The schema files. -/
def dir : Files := directory [(c!"element_ref_type.xsd", element_ref_type_text, element_ref_type_xsd)]

/-- The texts of the schema files. -/
def texts : TextFiles := textDirectory [(c!"element_ref_type.xsd", element_ref_type_text)]

theorem texts_files : texts.files = dir := directory_texts (fs := [(c!"element_ref_type.xsd", element_ref_type_text, element_ref_type_xsd)]) (by decide +kernel)

/-- `xsd/tests/xsd/element_ref_type.xml` -/
def xml : Doc := ⟨(⟨⟨c!"address", none⟩, [], [], 39⟩,
  [.text c!"\n  ",
   .elem ⟨⟨c!"zip", none⟩, [], [], 51⟩
     [.text c!"12345"],
   .text c!"\n"])⟩

/-- The tags and texts that are written (`xsd/tests/element_ref_type.rs`). -/
def written : List Ev :=
  [.start c!"address" [] [],
   .start c!"zip" [] [],
   .chars c!"12345",
   .fin,
   .fin]

/-- The expected value (`xsd/tests/element_ref_type.rs`). -/
def expected : Val := .struct [(c!"zip", .str c!"12345")]

/-- The text of `xsd/tests/xsd/element_ref_type.xml`. -/
def text : Str := c!"<?xml version=\"1.0\" encoding=\"UTF-8\"?>\n<address>\n  <zip>12345</zip>\n</address>"

/-- The text that is written. -/
def writtenText : Str := text

example : passes dir c!"element_ref_type.xsd" c!"Address" xml written expected = true := by decide +kernel

example : passesText texts.files c!"element_ref_type.xsd" c!"Address" text writtenText expected = true := by rw [texts_files]; decide +kernel

example : Covered dir c!"element_ref_type.xsd" false := coveredB_sound (by decide +kernel)

end element_ref_type_test

end Xsd.Conformance
