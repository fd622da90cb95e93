import Verif.Conformance.Covered
/-!
# Tests of the repository, evaluated in the model

Made by `tools/conformance.py`.
-/
namespace Xsd.Conformance

/-! ## `sequence_choice.rs` -/

namespace sequence_choice_test

/-- `xsd/tests/xsd/sequence_choice.xsd` -/
def sequence_choice_xsd : Elem := (⟨⟨c!"schema", (some c!"http://www.w3.org/2001/XMLSchema")⟩, [], [((some c!"xs"), c!"http://www.w3.org/2001/XMLSchema")], 22⟩,
  [.text c!"\n  ",
   .elem ⟨⟨c!"complexType", (some c!"http://www.w3.org/2001/XMLSchema")⟩, [⟨c!"name", none, c!"User", 96⟩], [((some c!"xs"), c!"http://www.w3.org/2001/XMLSchema")], 80⟩
     [.text c!"\n    ",
      .elem ⟨⟨c!"sequence", (some c!"http://www.w3.org/2001/XMLSchema")⟩, [], [((some c!"xs"), c!"http://www.w3.org/2001/XMLSchema")], 113⟩
       [.text c!"\n      ",
        .elem ⟨⟨c!"element", (some c!"http://www.w3.org/2001/XMLSchema")⟩, [⟨c!"name", none, c!"name", 145⟩, ⟨c!"type", none, c!"xs:string", 157⟩], [((some c!"xs"), c!"http://www.w3.org/2001/XMLSchema")], 133⟩
         [],
        .text c!"\n    "],
      .text c!"\n  "],
   .text c!"\n  ",
   .elem ⟨⟨c!"complexType", (some c!"http://www.w3.org/2001/XMLSchema")⟩, [⟨c!"name", none, c!"Bot", 234⟩], [((some c!"xs"), c!"http://www.w3.org/2001/XMLSchema")], 218⟩
     [.text c!"\n    ",
      .elem ⟨⟨c!"sequence", (some c!"http://www.w3.org/2001/XMLSchema")⟩, [], [((some c!"xs"), c!"http://www.w3.org/2001/XMLSchema")], 250⟩
       [.text c!"\n      ",
        .elem ⟨⟨c!"element", (some c!"http://www.w3.org/2001/XMLSchema")⟩, [⟨c!"name", none, c!"handle", 282⟩, ⟨c!"type", none, c!"xs:string", 296⟩], [((some c!"xs"), c!"http://www.w3.org/2001/XMLSchema")], 270⟩
         [],
        .text c!"\n    "],
      .text c!"\n  "],
   .text c!"\n  ",
   .elem ⟨⟨c!"element", (some c!"http://www.w3.org/2001/XMLSchema")⟩, [⟨c!"name", none, c!"article", 369⟩], [((some c!"xs"), c!"http://www.w3.org/2001/XMLSchema")], 357⟩
     [.text c!"\n    ",
      .elem ⟨⟨c!"complexType", (some c!"http://www.w3.org/2001/XMLSchema")⟩, [], [((some c!"xs"), c!"http://www.w3.org/2001/XMLSchema")], 389⟩
       [.text c!"\n      ",
        .elem ⟨⟨c!"sequence", (some c!"http://www.w3.org/2001/XMLSchema")⟩, [], [((some c!"xs"), c!"http://www.w3.org/2001/XMLSchema")], 412⟩
         [.text c!"\n        ",
          .elem ⟨⟨c!"element", (some c!"http://www.w3.org/2001/XMLSchema")⟩, [⟨c!"name", none, c!"body", 446⟩, ⟨c!"type", none, c!"xs:string", 458⟩], [((some c!"xs"), c!"http://www.w3.org/2001/XMLSchema")], 434⟩
           [],
          .text c!"\n        ",
          .elem ⟨⟨c!"choice", (some c!"http://www.w3.org/2001/XMLSchema")⟩, [], [((some c!"xs"), c!"http://www.w3.org/2001/XMLSchema")], 486⟩
           [.text c!"\n          ",
            .elem ⟨⟨c!"element", (some c!"http://www.w3.org/2001/XMLSchema")⟩, [⟨c!"name", none, c!"user", 520⟩, ⟨c!"type", none, c!"User", 532⟩], [((some c!"xs"), c!"http://www.w3.org/2001/XMLSchema")], 508⟩
             [],
            .text c!"\n          ",
            .elem ⟨⟨c!"element", (some c!"http://www.w3.org/2001/XMLSchema")⟩, [⟨c!"name", none, c!"bot", 569⟩, ⟨c!"type", none, c!"Bot", 580⟩], [((some c!"xs"), c!"http://www.w3.org/2001/XMLSchema")], 557⟩
             [],
            .text c!"\n        "],
          .text c!"\n      "],
        .text c!"\n    "],
      .text c!"\n  "],
   .text c!"\n"])

/-- The text of `xsd/tests/xsd/sequence_choice.xsd`. -/
def sequence_choice_text : Str := c!"<?xml version=\"1.0\"?>\n<xs:schema xmlns:xs=\"http://www.w3.org/2001/XMLSchema\">\n  <xs:complexType name=\"User\">\n    <xs:sequence>\n      <xs:element name=\"name\" type=\"xs:string\" />\n    </xs:sequence>\n  </xs:complexType>\n  <xs:complexType name=\"Bot\">\n    <xs:sequence>\n      <xs:element name=\"handle\" type=\"xs:string\" />\n    </xs:sequence>\n  </xs:complexType>\n  <xs:element name=\"article\">\n    <xs:complexType>\n      <xs:sequence>\n        <xs:element name=\"body\" type=\"xs:string\" />\n        <xs:choice>\n          <xs:element name=\"user\" type=\"User\" />\n          <xs:element name=\"bot\" type=\"Bot\" />\n        </xs:choice>\n      </xs:sequence>\n    </xs:complexType>\n  </xs:element>\n</xs:schema>"

/-- The schema files. -/
def dir : Files := directory [(c!"sequence_choice.xsd", sequence_choice_text, sequence_choice_xsd)]

/-- The texts of the schema files. -/
def texts : TextFiles := textDirectory [(c!"sequence_choice.xsd", sequence_choice_text)]

theorem texts_files : texts.files = dir := directory_texts (fs := [(c!"sequence_choice.xsd", sequence_choice_text, sequence_choice_xsd)]) (by decide +kernel)

/-- `xsd/tests/xsd/sequence_choice.xml` -/
def xml : Doc := ⟨(⟨⟨c!"article", none⟩, [], [], 39⟩,
  [.text c!"\n  ",
   .elem ⟨⟨c!"body", none⟩, [], [], 51⟩
     [.text c!"Lorem Ipsum"],
   .text c!"\n  ",
   .elem ⟨⟨c!"bot", none⟩, [], [], 78⟩
     [.text c!"\n    ",
      .elem ⟨⟨c!"handle", none⟩, [], [], 88⟩
       [.text c!"foobot"],
      .text c!"\n  "],
   .text c!"\n"])⟩

/-- The tags and texts that are written (`xsd/tests/sequence_choice.rs`). -/
def written : List Ev :=
  [.start c!"article" [] [],
   .start c!"body" [] [],
   .chars c!"Lorem Ipsum",
   .fin,
   .start c!"bot" [] [],
   .start c!"handle" [] [],
   .chars c!"foobot",
   .fin,
   .fin,
   .fin]

/-- The expected value (`xsd/tests/sequence_choice.rs`). -/
def expected : Val := .struct [(c!"body", .str c!"Lorem Ipsum"), (c!"user_bot", .variant c!"Bot" (.struct [(c!"handle", .str c!"foobot")]))]

/-- The text of `xsd/tests/xsd/sequence_choice.xml`. -/
def text : Str := c!"<?xml version=\"1.0\" encoding=\"UTF-8\"?>\n<article>\n  <body>Lorem Ipsum</body>\n  <bot>\n    <handle>foobot</handle>\n  </bot>\n</article>"

/-- The text that is written. -/
def writtenText : Str := text

example : passes dir c!"sequence_choice.xsd" c!"Article" xml written expected = true := by decide +kernel

example : passesText texts.files c!"sequence_choice.xsd" c!"Article" text writtenText expected = true := by rw [texts_files]; decide +kernel

example : Covered dir c!"sequence_choice.xsd" true := coveredB_sound (by decide +kernel)

end sequence_choice_test

/-! ## `sequence_optional.rs` -/

namespace sequence_optional_test

/-- `xsd/tests/xsd/sequence_optional.xsd` -/
def sequence_optional_xsd : Elem := (⟨⟨c!"schema", (some c!"http://www.w3.org/2001/XMLSchema")⟩, [], [((some c!"xs"), c!"http://www.w3.org/2001/XMLSchema")], 22⟩,
  [.text c!"\n  ",
   .elem ⟨⟨c!"element", (some c!"http://www.w3.org/2001/XMLSchema")⟩, [⟨c!"name", none, c!"settings", 92⟩], [((some c!"xs"), c!"http://www.w3.org/2001/XMLSchema")], 80⟩
     [.text c!"\n    ",
      .elem ⟨⟨c!"complexType", (some c!"http://www.w3.org/2001/XMLSchema")⟩, [], [((some c!"xs"), c!"http://www.w3.org/2001/XMLSchema")], 113⟩
       [.text c!"\n      ",
        .elem ⟨⟨c!"sequence", (some c!"http://www.w3.org/2001/XMLSchema")⟩, [], [((some c!"xs"), c!"http://www.w3.org/2001/XMLSchema")], 136⟩
         [.text c!"\n        ",
          .elem ⟨⟨c!"element", (some c!"http://www.w3.org/2001/XMLSchema")⟩, [⟨c!"name", none, c!"scope", 170⟩, ⟨c!"type", none, c!"xs:string", 183⟩], [((some c!"xs"), c!"http://www.w3.org/2001/XMLSchema")], 158⟩
           [],
          .text c!"\n        ",
          .elem ⟨⟨c!"sequence", (some c!"http://www.w3.org/2001/XMLSchema")⟩, [⟨c!"minOccurs", none, c!"0", 224⟩], [((some c!"xs"), c!"http://www.w3.org/2001/XMLSchema")], 211⟩
           [.text c!"\n          ",
            .elem ⟨⟨c!"element", (some c!"http://www.w3.org/2001/XMLSchema")⟩, [⟨c!"name", none, c!"key", 261⟩, ⟨c!"type", none, c!"xs:string", 272⟩], [((some c!"xs"), c!"http://www.w3.org/2001/XMLSchema")], 249⟩
             [],
            .text c!"\n          ",
            .elem ⟨⟨c!"element", (some c!"http://www.w3.org/2001/XMLSchema")⟩, [⟨c!"name", none, c!"value", 314⟩, ⟨c!"type", none, c!"xs:int", 327⟩], [((some c!"xs"), c!"http://www.w3.org/2001/XMLSchema")], 302⟩
             [],
            .text c!"\n        "],
          .text c!"\n      "],
        .text c!"\n    "],
      .text c!"\n  "],
   .text c!"\n"])

/-- The text of `xsd/tests/xsd/sequence_optional.xsd`. -/
def sequence_optional_text : Str := c!"<?xml version=\"1.0\"?>\n<xs:schema xmlns:xs=\"http://www.w3.org/2001/XMLSchema\">\n  <xs:element name=\"settings\">\n    <xs:complexType>\n      <xs:sequence>\n        <xs:element name=\"scope\" type=\"xs:string\" />\n        <xs:sequence minOccurs=\"0\">\n          <xs:element name=\"key\" type=\"xs:string\" />\n          <xs:element name=\"value\" type=\"xs:int\" />\n        </xs:sequence>\n      </xs:sequence>\n    </xs:complexType>\n  </xs:element>\n</xs:schema>"

/-- The schema files. -/
def dir : Files := directory [(c!"sequence_optional.xsd", sequence_optional_text, sequence_optional_xsd)]

/-- The texts of the schema files. -/
def texts : TextFiles := textDirectory [(c!"sequence_optional.xsd", sequence_optional_text)]

theorem texts_files : texts.files = dir := directory_texts (fs := [(c!"sequence_optional.xsd", sequence_optional_text, sequence_optional_xsd)]) (by decide +kernel)

/-- `xsd/tests/xsd/sequence_optional.xml` -/
def xml : Doc := ⟨(⟨⟨c!"settings", none⟩, [], [], 39⟩,
  [.text c!"\n  ",
   .elem ⟨⟨c!"scope", none⟩, [], [], 52⟩
     [.text c!"all"],
   .text c!"\n  ",
   .elem ⟨⟨c!"key", none⟩, [], [], 73⟩
     [.text c!"alpha"],
   .text c!"\n  ",
   .elem ⟨⟨c!"value", none⟩, [], [], 92⟩
     [.text c!"1"],
   .text c!"\n"])⟩

/-- The tags and texts that are written (`xsd/tests/sequence_optional.rs`). -/
def written : List Ev :=
  [.start c!"settings" [] [],
   .start c!"scope" [] [],
   .chars c!"all",
   .fin,
   .start c!"key" [] [],
   .chars c!"alpha",
   .fin,
   .start c!"value" [] [],
   .chars c!"1",
   .fin,
   .fin]

/-- The expected value (`xsd/tests/sequence_optional.rs`). -/
def expected : Val := .struct [(c!"scope", .str c!"all"), (c!"key_value", .some (.struct [(c!"key", .str c!"alpha"), (c!"value", .int 1)]))]

/-- The text of `xsd/tests/xsd/sequence_optional.xml`. -/
def text : Str := c!"<?xml version=\"1.0\" encoding=\"UTF-8\"?>\n<settings>\n  <scope>all</scope>\n  <key>alpha</key>\n  <value>1</value>\n</settings>"

/-- The text that is written. -/
def writtenText : Str := text

example : passes dir c!"sequence_optional.xsd" c!"Settings" xml written expected = true := by decide +kernel

example : passesText texts.files c!"sequence_optional.xsd" c!"Settings" text writtenText expected = true := by rw [texts_files]; decide +kernel

example : Covered dir c!"sequence_optional.xsd" true := coveredB_sound (by decide +kernel)

end sequence_optional_test

/-! ## `sequence_optional_with_optionals.rs` -/

namespace sequence_optional_with_optionals_test

/-- `xsd/tests/xsd/sequence_optional_with_optionals.xsd` -/
def sequence_optional_with_optionals_xsd : Elem := (⟨⟨c!"schema", (some c!"http://www.w3.org/2001/XMLSchema")⟩, [], [((some c!"xs"), c!"http://www.w3.org/2001/XMLSchema")], 22⟩,
  [.text c!"\n  ",
   .elem ⟨⟨c!"complexType", (some c!"http://www.w3.org/2001/XMLSchema")⟩, [⟨c!"name", none, c!"Account", 96⟩], [((some c!"xs"), c!"http://www.w3.org/2001/XMLSchema")], 80⟩
     [.text c!"\n    ",
      .elem ⟨⟨c!"sequence", (some c!"http://www.w3.org/2001/XMLSchema")⟩, [], [((some c!"xs"), c!"http://www.w3.org/2001/XMLSchema")], 116⟩
       [.text c!"\n      ",
        .elem ⟨⟨c!"element", (some c!"http://www.w3.org/2001/XMLSchema")⟩, [⟨c!"name", none, c!"id", 148⟩, ⟨c!"type", none, c!"xs:long", 158⟩], [((some c!"xs"), c!"http://www.w3.org/2001/XMLSchema")], 136⟩
         [],
        .text c!"\n    "],
      .text c!"\n  "],
   .text c!"\n  ",
   .elem ⟨⟨c!"complexType", (some c!"http://www.w3.org/2001/XMLSchema")⟩, [⟨c!"name", none, c!"Patient", 233⟩], [((some c!"xs"), c!"http://www.w3.org/2001/XMLSchema")], 217⟩
     [.text c!"\n    ",
      .elem ⟨⟨c!"complexContent", (some c!"http://www.w3.org/2001/XMLSchema")⟩, [], [((some c!"xs"), c!"http://www.w3.org/2001/XMLSchema")], 253⟩
       [.text c!"\n\t\t\t",
        .elem ⟨⟨c!"extension", (some c!"http://www.w3.org/2001/XMLSchema")⟩, [⟨c!"base", none, c!"Account", 290⟩], [((some c!"xs"), c!"http://www.w3.org/2001/XMLSchema")], 276⟩
         [.text c!"\n\t\t\t\t",
          .elem ⟨⟨c!"sequence", (some c!"http://www.w3.org/2001/XMLSchema")⟩, [⟨c!"minOccurs", none, c!"0", 323⟩], [((some c!"xs"), c!"http://www.w3.org/2001/XMLSchema")], 310⟩
           [.text c!"\n          ",
            .elem ⟨⟨c!"element", (some c!"http://www.w3.org/2001/XMLSchema")⟩, [⟨c!"name", none, c!"fullName", 360⟩, ⟨c!"type", none, c!"xs:string", 376⟩, ⟨c!"minOccurs", none, c!"0", 393⟩], [((some c!"xs"), c!"http://www.w3.org/2001/XMLSchema")], 348⟩
             [],
            .text c!"\n          ",
            .elem ⟨⟨c!"sequence", (some c!"http://www.w3.org/2001/XMLSchema")⟩, [⟨c!"minOccurs", none, c!"0", 433⟩], [((some c!"xs"), c!"http://www.w3.org/2001/XMLSchema")], 420⟩
             [.text c!"\n            ",
              .elem ⟨⟨c!"element", (some c!"http://www.w3.org/2001/XMLSchema")⟩, [⟨c!"name", none, c!"firstName", 472⟩, ⟨c!"type", none, c!"xs:string", 489⟩, ⟨c!"minOccurs", none, c!"0", 506⟩], [((some c!"xs"), c!"http://www.w3.org/2001/XMLSchema")], 460⟩
               [],
              .text c!"\n            ",
              .elem ⟨⟨c!"element", (some c!"http://www.w3.org/2001/XMLSchema")⟩, [⟨c!"name", none, c!"lastName", 547⟩, ⟨c!"type", none, c!"xs:string", 563⟩, ⟨c!"minOccurs", none, c!"0", 580⟩], [((some c!"xs"), c!"http://www.w3.org/2001/XMLSchema")], 535⟩
               [],
              .text c!"\n          "],
            .text c!"\n        "],
          .text c!"\n      "],
        .text c!"\n    "],
      .text c!"\n  "],
   .text c!"\n  ",
   .elem ⟨⟨c!"element", (some c!"http://www.w3.org/2001/XMLSchema")⟩, [⟨c!"name", none, c!"record", 726⟩], [((some c!"xs"), c!"http://www.w3.org/2001/XMLSchema")], 714⟩
     [.text c!"\n    ",
      .elem ⟨⟨c!"complexType", (some c!"http://www.w3.org/2001/XMLSchema")⟩, [], [((some c!"xs"), c!"http://www.w3.org/2001/XMLSchema")], 745⟩
       [.text c!"\n      ",
        .elem ⟨⟨c!"sequence", (some c!"http://www.w3.org/2001/XMLSchema")⟩, [], [((some c!"xs"), c!"http://www.w3.org/2001/XMLSchema")], 768⟩
         [.text c!"\n        ",
          .elem ⟨⟨c!"element", (some c!"http://www.w3.org/2001/XMLSchema")⟩, [⟨c!"name", none, c!"patient", 802⟩, ⟨c!"type", none, c!"Patient", 817⟩, ⟨c!"minOccurs", none, c!"0", 833⟩], [((some c!"xs"), c!"http://www.w3.org/2001/XMLSchema")], 790⟩
           [],
          .text c!"\n      "],
        .text c!"\n    "],
      .text c!"\n  "],
   .text c!"\n"])

/-- The text of `xsd/tests/xsd/sequence_optional_with_optionals.xsd`. -/
def sequence_optional_with_optionals_text : Str := c!"<?xml version=\"1.0\"?>\n<xs:schema xmlns:xs=\"http://www.w3.org/2001/XMLSchema\">\n  <xs:complexType name=\"Account\">\n    <xs:sequence>\n      <xs:element name=\"id\" type=\"xs:long\" />\n    </xs:sequence>\n  </xs:complexType>\n  <xs:complexType name=\"Patient\">\n    <xs:complexContent>\n\t\t\t<xs:extension base=\"Account\">\n\t\t\t\t<xs:sequence minOccurs=\"0\">\n          <xs:element name=\"fullName\" type=\"xs:string\" minOccurs=\"0\" />\n          <xs:sequence minOccurs=\"0\">\n            <xs:element name=\"firstName\" type=\"xs:string\" minOccurs=\"0\" />\n            <xs:element name=\"lastName\" type=\"xs:string\" minOccurs=\"0\" />\n          </xs:sequence>\n        </xs:sequence>\n      </xs:extension>\n    </xs:complexContent>\n  </xs:complexType>\n  <xs:element name=\"record\">\n    <xs:complexType>\n      <xs:sequence>\n        <xs:element name=\"patient\" type=\"Patient\"  minOccurs=\"0\" />\n      </xs:sequence>\n    </xs:complexType>\n  </xs:element>\n</xs:schema>"

/-- The schema files. -/
def dir : Files := directory [(c!"sequence_optional_with_optionals.xsd", sequence_optional_with_optionals_text, sequence_optional_with_optionals_xsd)]

/-- The texts of the schema files. -/
def texts : TextFiles := textDirectory [(c!"sequence_optional_with_optionals.xsd", sequence_optional_with_optionals_text)]

theorem texts_files : texts.files = dir := directory_texts (fs := [(c!"sequence_optional_with_optionals.xsd", sequence_optional_with_optionals_text, sequence_optional_with_optionals_xsd)]) (by decide +kernel)

/-- `xsd/tests/xsd/sequence_optional_with_optionals.xml` -/
def xml : Doc := ⟨(⟨⟨c!"record", none⟩, [], [], 39⟩,
  [.text c!"\n  ",
   .elem ⟨⟨c!"patient", none⟩, [], [], 50⟩
     [.text c!"\n    ",
      .elem ⟨⟨c!"id", none⟩, [], [], 64⟩
       [.text c!"42"],
      .text c!"\n    ",
      .elem ⟨⟨c!"lastName", none⟩, [], [], 80⟩
       [.text c!"Foobar"],
      .text c!"\n  "],
   .text c!"\n"])⟩

/-- The tags and texts that are written (`xsd/tests/sequence_optional_with_optionals.rs`). -/
def written : List Ev :=
  [.start c!"record" [] [],
   .start c!"patient" [] [],
   .start c!"id" [] [],
   .chars c!"42",
   .fin,
   .start c!"lastName" [] [],
   .chars c!"Foobar",
   .fin,
   .fin,
   .fin]

/-- The expected value (`xsd/tests/sequence_optional_with_optionals.rs`). -/
def expected : Val := .struct [(c!"patient", .some (.struct [(c!"base", .struct [(c!"id", .int 42)]), (c!"account", .some (.struct [(c!"full_name", .none), (c!"name", .some (.struct [(c!"first_name", .none), (c!"last_name", .some (.str c!"Foobar"))]))]))]))]

/-- The text of `xsd/tests/xsd/sequence_optional_with_optionals.xml`. -/
def text : Str := c!"<?xml version=\"1.0\" encoding=\"UTF-8\"?>\n<record>\n  <patient>\n    <id>42</id>\n    <lastName>Foobar</lastName>\n  </patient>\n</record>"

/-- The text that is written. -/
def writtenText : Str := text

example : passes dir c!"sequence_optional_with_optionals.xsd" c!"Record" xml written expected = true := by decide +kernel

example : passesText texts.files c!"sequence_optional_with_optionals.xsd" c!"Record" text writtenText expected = true := by rw [texts_files]; decide +kernel

example : Covered dir c!"sequence_optional_with_optionals.xsd" true := coveredB_sound (by decide +kernel)

end sequence_optional_with_optionals_test

/-! ## `sequence_sequence.rs` -/

namespace sequence_sequence_test

/-- `xsd/tests/xsd/sequence_sequence.xsd` -/
def sequence_sequence_xsd : Elem := (⟨⟨c!"schema", (some c!"http://www.w3.org/2001/XMLSchema")⟩, [], [((some c!"xs"), c!"http://www.w3.org/2001/XMLSchema")], 22⟩,
  [.text c!"\n  ",
   .elem ⟨⟨c!"element", (some c!"http://www.w3.org/2001/XMLSchema")⟩, [⟨c!"name", none, c!"settings", 92⟩], [((some c!"xs"), c!"http://www.w3.org/2001/XMLSchema")], 80⟩
     [.text c!"\n    ",
      .elem ⟨⟨c!"complexType", (some c!"http://www.w3.org/2001/XMLSchema")⟩, [], [((some c!"xs"), c!"http://www.w3.org/2001/XMLSchema")], 113⟩
       [.text c!"\n      ",
        .elem ⟨⟨c!"sequence", (some c!"http://www.w3.org/2001/XMLSchema")⟩, [], [((some c!"xs"), c!"http://www.w3.org/2001/XMLSchema")], 136⟩
         [.text c!"\n        ",
          .elem ⟨⟨c!"annotation", (some c!"http://www.w3.org/2001/XMLSchema")⟩, [], [((some c!"xs"), c!"http://www.w3.org/2001/XMLSchema")], 158⟩
           [.text c!"\n          ",
            .elem ⟨⟨c!"documentation", (some c!"http://www.w3.org/2001/XMLSchema")⟩, [], [((some c!"xs"), c!"http://www.w3.org/2001/XMLSchema")], 184⟩
             [.text c!"includes"],
            .text c!"\n        "],
          .text c!"\n        ",
          .elem ⟨⟨c!"element", (some c!"http://www.w3.org/2001/XMLSchema")⟩, [⟨c!"name", none, c!"scope", 275⟩, ⟨c!"type", none, c!"xs:string", 288⟩], [((some c!"xs"), c!"http://www.w3.org/2001/XMLSchema")], 263⟩
           [],
          .text c!"\n        ",
          .elem ⟨⟨c!"sequence", (some c!"http://www.w3.org/2001/XMLSchema")⟩, [], [((some c!"xs"), c!"http://www.w3.org/2001/XMLSchema")], 316⟩
           [.text c!"\n          ",
            .elem ⟨⟨c!"element", (some c!"http://www.w3.org/2001/XMLSchema")⟩, [⟨c!"name", none, c!"key", 352⟩, ⟨c!"type", none, c!"xs:string", 363⟩], [((some c!"xs"), c!"http://www.w3.org/2001/XMLSchema")], 340⟩
             [],
            .text c!"\n          ",
            .elem ⟨⟨c!"element", (some c!"http://www.w3.org/2001/XMLSchema")⟩, [⟨c!"name", none, c!"value", 405⟩, ⟨c!"type", none, c!"xs:int", 418⟩], [((some c!"xs"), c!"http://www.w3.org/2001/XMLSchema")], 393⟩
             [],
            .text c!"\n        "],
          .text c!"\n      "],
        .text c!"\n    "],
      .text c!"\n  "],
   .text c!"\n"])

/-- The text of `xsd/tests/xsd/sequence_sequence.xsd`. -/
def sequence_sequence_text : Str := c!"<?xml version=\"1.0\"?>\n<xs:schema xmlns:xs=\"http://www.w3.org/2001/XMLSchema\">\n  <xs:element name=\"settings\">\n    <xs:complexType>\n      <xs:sequence>\n        <xs:annotation>\n          <xs:documentation>includes</xs:documentation>\n        </xs:annotation>\n        <xs:element name=\"scope\" type=\"xs:string\" />\n        <xs:sequence>\n          <xs:element name=\"key\" type=\"xs:string\" />\n          <xs:element name=\"value\" type=\"xs:int\" />\n        </xs:sequence>\n      </xs:sequence>\n    </xs:complexType>\n  </xs:element>\n</xs:schema>"

/-- The schema files. -/
def dir : Files := directory [(c!"sequence_sequence.xsd", sequence_sequence_text, sequence_sequence_xsd)]

/-- The texts of the schema files. -/
def texts : TextFiles := textDirectory [(c!"sequence_sequence.xsd", sequence_sequence_text)]

theorem texts_files : texts.files = dir := directory_texts (fs := [(c!"sequence_sequence.xsd", sequence_sequence_text, sequence_sequence_xsd)]) (by decide +kernel)

/-- `xsd/tests/xsd/sequence_sequence.xml` -/
def xml : Doc := ⟨(⟨⟨c!"settings", none⟩, [], [], 39⟩,
  [.text c!"\n  ",
   .elem ⟨⟨c!"scope", none⟩, [], [], 52⟩
     [.text c!"all"],
   .text c!"\n  ",
   .elem ⟨⟨c!"key", none⟩, [], [], 73⟩
     [.text c!"alpha"],
   .text c!"\n  ",
   .elem ⟨⟨c!"value", none⟩, [], [], 92⟩
     [.text c!"1"],
   .text c!"\n"])⟩

/-- The tags and texts that are written (`xsd/tests/sequence_sequence.rs`). -/
def written : List Ev :=
  [.start c!"settings" [] [],
   .start c!"scope" [] [],
   .chars c!"all",
   .fin,
   .start c!"key" [] [],
   .chars c!"alpha",
   .fin,
   .start c!"value" [] [],
   .chars c!"1",
   .fin,
   .fin]

/-- The expected value (`xsd/tests/sequence_sequence.rs`). -/
def expected : Val := .struct [(c!"scope", .str c!"all"), (c!"key_value", .struct [(c!"key", .str c!"alpha"), (c!"value", .int 1)])]

/-- The text of `xsd/tests/xsd/sequence_sequence.xml`. -/
def text : Str := c!"<?xml version=\"1.0\" encoding=\"UTF-8\"?>\n<settings>\n  <scope>all</scope>\n  <key>alpha</key>\n  <value>1</value>\n</settings>"

/-- The text that is written. -/
def writtenText : Str := text

example : passes dir c!"sequence_sequence.xsd" c!"Settings" xml written expected = true := by decide +kernel

example : passesText texts.files c!"sequence_sequence.xsd" c!"Settings" text writtenText expected = true := by rw [texts_files]; decide +kernel

example : Covered dir c!"sequence_sequence.xsd" true := coveredB_sound (by decide +kernel)

end sequence_sequence_test

/-! ## `sequence_vec.rs` -/

namespace sequence_vec_test

/-- `xsd/tests/xsd/sequence_vec.xsd` -/
def sequence_vec_xsd : Elem := (⟨⟨c!"schema", (some c!"http://www.w3.org/2001/XMLSchema")⟩, [], [((some c!"xs"), c!"http://www.w3.org/2001/XMLSchema")], 22⟩,
  [.text c!"\n  ",
   .elem ⟨⟨c!"element", (some c!"http://www.w3.org/2001/XMLSchema")⟩, [⟨c!"name", none, c!"settings", 92⟩], [((some c!"xs"), c!"http://www.w3.org/2001/XMLSchema")], 80⟩
     [.text c!"\n    ",
      .elem ⟨⟨c!"complexType", (some c!"http://www.w3.org/2001/XMLSchema")⟩, [], [((some c!"xs"), c!"http://www.w3.org/2001/XMLSchema")], 113⟩
       [.text c!"\n      ",
        .elem ⟨⟨c!"sequence", (some c!"http://www.w3.org/2001/XMLSchema")⟩, [⟨c!"maxOccurs", none, c!"unbounded", 149⟩], [((some c!"xs"), c!"http://www.w3.org/2001/XMLSchema")], 136⟩
         [.text c!"\n        ",
          .elem ⟨⟨c!"element", (some c!"http://www.w3.org/2001/XMLSchema")⟩, [⟨c!"name", none, c!"key", 192⟩, ⟨c!"type", none, c!"xs:string", 203⟩], [((some c!"xs"), c!"http://www.w3.org/2001/XMLSchema")], 180⟩
           [],
          .text c!"\n        ",
          .elem ⟨⟨c!"element", (some c!"http://www.w3.org/2001/XMLSchema")⟩, [⟨c!"name", none, c!"value", 243⟩, ⟨c!"type", none, c!"xs:int", 256⟩], [((some c!"xs"), c!"http://www.w3.org/2001/XMLSchema")], 231⟩
           [],
          .text c!"\n      "],
        .text c!"\n    "],
      .text c!"\n  "],
   .text c!"\n"])

/-- The text of `xsd/tests/xsd/sequence_vec.xsd`. -/
def sequence_vec_text : Str := c!"<?xml version=\"1.0\"?>\n<xs:schema xmlns:xs=\"http://www.w3.org/2001/XMLSchema\">\n  <xs:element name=\"settings\">\n    <xs:complexType>\n      <xs:sequence maxOccurs=\"unbounded\">\n        <xs:element name=\"key\" type=\"xs:string\" />\n        <xs:element name=\"value\" type=\"xs:int\" />\n      </xs:sequence>\n    </xs:complexType>\n  </xs:element>\n</xs:schema>"

/-- The schema files. -/
def dir : Files := directory [(c!"sequence_vec.xsd", sequence_vec_text, sequence_vec_xsd)]

/-- The texts of the schema files. -/
def texts : TextFiles := textDirectory [(c!"sequence_vec.xsd", sequence_vec_text)]

theorem texts_files : texts.files = dir := directory_texts (fs := [(c!"sequence_vec.xsd", sequence_vec_text, sequence_vec_xsd)]) (by decide +kernel)

/-- `xsd/tests/xsd/sequence_vec.xml` -/
def xml : Doc := ⟨(⟨⟨c!"settings", none⟩, [], [], 39⟩,
  [.text c!"\n  ",
   .elem ⟨⟨c!"key", none⟩, [], [], 52⟩
     [.text c!"alpha"],
   .text c!"\n  ",
   .elem ⟨⟨c!"value", none⟩, [], [], 71⟩
     [.text c!"1"],
   .text c!"\n  ",
   .elem ⟨⟨c!"key", none⟩, [], [], 90⟩
     [.text c!"bravo"],
   .text c!"\n  ",
   .elem ⟨⟨c!"value", none⟩, [], [], 109⟩
     [.text c!"2"],
   .text c!"\n  ",
   .elem ⟨⟨c!"key", none⟩, [], [], 128⟩
     [.text c!"charlie"],
   .text c!"\n  ",
   .elem ⟨⟨c!"value", none⟩, [], [], 149⟩
     [.text c!"3"],
   .text c!"\n"])⟩

/-- The tags and texts that are written (`xsd/tests/sequence_vec.rs`). -/
def written : List Ev :=
  [.start c!"settings" [] [],
   .start c!"key" [] [],
   .chars c!"alpha",
   .fin,
   .start c!"value" [] [],
   .chars c!"1",
   .fin,
   .start c!"key" [] [],
   .chars c!"bravo",
   .fin,
   .start c!"value" [] [],
   .chars c!"2",
   .fin,
   .start c!"key" [] [],
   .chars c!"charlie",
   .fin,
   .start c!"value" [] [],
   .chars c!"3",
   .fin,
   .fin]

/-- The expected value (`xsd/tests/sequence_vec.rs`). -/
def expected : Val := .struct [(c!"key_value", .vec [.struct [(c!"key", .str c!"alpha"), (c!"value", .int 1)], .struct [(c!"key", .str c!"bravo"), (c!"value", .int 2)], .struct [(c!"key", .str c!"charlie"), (c!"value", .int 3)]])]

/-- The text of `xsd/tests/xsd/sequence_vec.xml`. -/
def text : Str := c!"<?xml version=\"1.0\" encoding=\"UTF-8\"?>\n<settings>\n  <key>alpha</key>\n  <value>1</value>\n  <key>bravo</key>\n  <value>2</value>\n  <key>charlie</key>\n  <value>3</value>\n</settings>"

/-- The text that is written. -/
def writtenText : Str := text

example : passes dir c!"sequence_vec.xsd" c!"Settings" xml written expected = true := by decide +kernel

example : passesText texts.files c!"sequence_vec.xsd" c!"Settings" text writtenText expected = true := by rw [texts_files]; decide +kernel

example : Covered dir c!"sequence_vec.xsd" true := coveredB_sound (by decide +kernel)

end sequence_vec_test

/-! ## `simple_content.rs` -/

namespace simple_content_test

/-- `xsd/tests/xsd/simple_content.xsd` -/
def simple_content_xsd : Elem := (⟨⟨c!"schema", (some c!"http://www.w3.org/2001/XMLSchema")⟩, [], [((some c!"xs"), c!"http://www.w3.org/2001/XMLSchema")], 22⟩,
  [.text c!"\n  ",
   .elem ⟨⟨c!"element", (some c!"http://www.w3.org/2001/XMLSchema")⟩, [⟨c!"name", none, c!"text", 92⟩], [((some c!"xs"), c!"http://www.w3.org/2001/XMLSchema")], 80⟩
     [.text c!"\n    ",
      .elem ⟨⟨c!"complexType", (some c!"http://www.w3.org/2001/XMLSchema")⟩, [], [((some c!"xs"), c!"http://www.w3.org/2001/XMLSchema")], 109⟩
       [.text c!"\n      ",
        .elem ⟨⟨c!"annotation", (some c!"http://www.w3.org/2001/XMLSchema")⟩, [], [((some c!"xs"), c!"http://www.w3.org/2001/XMLSchema")], 132⟩
         [.text c!"\n        ",
          .elem ⟨⟨c!"documentation", (some c!"http://www.w3.org/2001/XMLSchema")⟩, [], [((some c!"xs"), c!"http://www.w3.org/2001/XMLSchema")], 156⟩
           [.text c!"A text snippet."],
          .text c!"\n      "],
        .text c!"\n      ",
        .elem ⟨⟨c!"simpleContent", (some c!"http://www.w3.org/2001/XMLSchema")⟩, [], [((some c!"xs"), c!"http://www.w3.org/2001/XMLSchema")], 238⟩
         [.text c!"\n        ",
          .elem ⟨⟨c!"extension", (some c!"http://www.w3.org/2001/XMLSchema")⟩, [⟨c!"base", none, c!"xs:string", 279⟩], [((some c!"xs"), c!"http://www.w3.org/2001/XMLSchema")], 265⟩
           [.text c!"\n          ",
            .elem ⟨⟨c!"attribute", (some c!"http://www.w3.org/2001/XMLSchema")⟩, [⟨c!"name", none, c!"lang", 321⟩, ⟨c!"type", none, c!"xs:string", 333⟩], [((some c!"xs"), c!"http://www.w3.org/2001/XMLSchema")], 307⟩
             [],
            .text c!"\n        "],
          .text c!"\n      "],
        .text c!"\n    "],
      .text c!"\n  "],
   .text c!"\n"])

/-- The text of `xsd/tests/xsd/simple_content.xsd`. -/
def simple_content_text : Str := c!"<?xml version=\"1.0\"?>\n<xs:schema xmlns:xs=\"http://www.w3.org/2001/XMLSchema\">\n  <xs:element name=\"text\">\n    <xs:complexType>\n      <xs:annotation>\n        <xs:documentation>A text snippet.</xs:documentation>\n      </xs:annotation>\n      <xs:simpleContent>\n        <xs:extension base=\"xs:string\">\n          <xs:attribute name=\"lang\" type=\"xs:string\" />\n        </xs:extension>\n      </xs:simpleContent>\n    </xs:complexType>\n  </xs:element>\n</xs:schema>"

/-- The schema files. -/
def dir : Files := directory [(c!"simple_content.xsd", simple_content_text, simple_content_xsd)]

/-- The texts of the schema files. -/
def texts : TextFiles := textDirectory [(c!"simple_content.xsd", simple_content_text)]

theorem texts_files : texts.files = dir := directory_texts (fs := [(c!"simple_content.xsd", simple_content_text, simple_content_xsd)]) (by decide +kernel)

/-- `xsd/tests/xsd/simple_content.xml` -/
def xml : Doc := ⟨(⟨⟨c!"text", none⟩, [⟨c!"lang", none, c!"en", 45⟩], [], 39⟩,
  [.text c!"Something in English"])⟩

/-- The tags and texts that are written (`xsd/tests/simple_content.rs`). -/
def written : List Ev :=
  [.start c!"text" [(c!"lang", c!"en")] [],
   .chars c!"Something in English",
   .fin]

/-- The expected value (`xsd/tests/simple_content.rs`). -/
def expected : Val := .struct [(c!"text", .str c!"Something in English"), (c!"lang", .some (.str c!"en"))]

/-- The text of `xsd/tests/xsd/simple_content.xml`. -/
def text : Str := c!"<?xml version=\"1.0\" encoding=\"UTF-8\"?>\n<text lang=\"en\">Something in English</text>"

/-- The text that is written. -/
def writtenText : Str := text

example : passes dir c!"simple_content.xsd" c!"Text" xml written expected = true := by decide +kernel

example : passesText texts.files c!"simple_content.xsd" c!"Text" text writtenText expected = true := by rw [texts_files]; decide +kernel

example : Covered dir c!"simple_content.xsd" true := coveredB_sound (by decide +kernel)

end simple_content_test

/-! ## `simple_content_custom_base.rs` -/

namespace simple_content_custom_base_test

/-- `xsd/tests/xsd/simple_content_custom_base.xsd` -/
def simple_content_custom_base_xsd : Elem := (⟨⟨c!"schema", (some c!"http://www.w3.org/2001/XMLSchema")⟩, [], [((some c!"xs"), c!"http://www.w3.org/2001/XMLSchema")], 22⟩,
  [.text c!"\n  ",
   .elem ⟨⟨c!"simpleType", (some c!"http://www.w3.org/2001/XMLSchema")⟩, [⟨c!"name", none, c!"Role", 95⟩], [((some c!"xs"), c!"http://www.w3.org/2001/XMLSchema")], 80⟩
     [.text c!"\n    ",
      .elem ⟨⟨c!"restriction", (some c!"http://www.w3.org/2001/XMLSchema")⟩, [⟨c!"base", none, c!"xs:string", 128⟩], [((some c!"xs"), c!"http://www.w3.org/2001/XMLSchema")], 112⟩
       [.text c!"\n      ",
        .elem ⟨⟨c!"enumeration", (some c!"http://www.w3.org/2001/XMLSchema")⟩, [⟨c!"value", none, c!"User", 168⟩], [((some c!"xs"), c!"http://www.w3.org/2001/XMLSchema")], 152⟩
         [],
        .text c!"\n      ",
        .elem ⟨⟨c!"enumeration", (some c!"http://www.w3.org/2001/XMLSchema")⟩, [⟨c!"value", none, c!"Admin", 205⟩], [((some c!"xs"), c!"http://www.w3.org/2001/XMLSchema")], 189⟩
         [],
        .text c!"\n    "],
      .text c!"\n  "],
   .text c!"\n  ",
   .elem ⟨⟨c!"element", (some c!"http://www.w3.org/2001/XMLSchema")⟩, [⟨c!"name", none, c!"user", 276⟩], [((some c!"xs"), c!"http://www.w3.org/2001/XMLSchema")], 264⟩
     [.text c!"\n    ",
      .elem ⟨⟨c!"complexType", (some c!"http://www.w3.org/2001/XMLSchema")⟩, [], [((some c!"xs"), c!"http://www.w3.org/2001/XMLSchema")], 293⟩
       [.text c!"\n      ",
        .elem ⟨⟨c!"sequence", (some c!"http://www.w3.org/2001/XMLSchema")⟩, [], [((some c!"xs"), c!"http://www.w3.org/2001/XMLSchema")], 316⟩
         [.text c!"\n        ",
          .elem ⟨⟨c!"element", (some c!"http://www.w3.org/2001/XMLSchema")⟩, [⟨c!"name", none, c!"role", 350⟩], [((some c!"xs"), c!"http://www.w3.org/2001/XMLSchema")], 338⟩
           [.text c!"\n          ",
            .elem ⟨⟨c!"complexType", (some c!"http://www.w3.org/2001/XMLSchema")⟩, [], [((some c!"xs"), c!"http://www.w3.org/2001/XMLSchema")], 373⟩
             [.text c!"\n            ",
              .elem ⟨⟨c!"simpleContent", (some c!"http://www.w3.org/2001/XMLSchema")⟩, [], [((some c!"xs"), c!"http://www.w3.org/2001/XMLSchema")], 402⟩
               [.text c!"\n              ",
                .elem ⟨⟨c!"extension", (some c!"http://www.w3.org/2001/XMLSchema")⟩, [⟨c!"base", none, c!"Role", 449⟩], [((some c!"xs"), c!"http://www.w3.org/2001/XMLSchema")], 435⟩
                 [.text c!"\n                ",
                  .elem ⟨⟨c!"attribute", (some c!"http://www.w3.org/2001/XMLSchema")⟩, [⟨c!"name", none, c!"inherited", 492⟩, ⟨c!"type", none, c!"xs:boolean", 509⟩, ⟨c!"use", none, c!"required", 527⟩], [((some c!"xs"), c!"http://www.w3.org/2001/XMLSchema")], 478⟩
                   [],
                  .text c!"\n              "],
                .text c!"\n            "],
              .text c!"\n          "],
            .text c!"\n        "],
          .text c!"\n      "],
        .text c!"\n    "],
      .text c!"\n  "],
   .text c!"\n"])

/-- The text of `xsd/tests/xsd/simple_content_custom_base.xsd`. -/
def simple_content_custom_base_text : Str := c!"<?xml version=\"1.0\"?>\n<xs:schema xmlns:xs=\"http://www.w3.org/2001/XMLSchema\">\n  <xs:simpleType name=\"Role\">\n    <xs:restriction base=\"xs:string\">\n      <xs:enumeration value=\"User\"/>\n      <xs:enumeration value=\"Admin\"/>\n    </xs:restriction>\n  </xs:simpleType>\n  <xs:element name=\"user\">\n    <xs:complexType>\n      <xs:sequence>\n        <xs:element name=\"role\">\n          <xs:complexType>\n            <xs:simpleContent>\n              <xs:extension base=\"Role\">\n                <xs:attribute name=\"inherited\" type=\"xs:boolean\" use=\"required\" />\n              </xs:extension>\n            </xs:simpleContent>\n          </xs:complexType>\n        </xs:element>\n      </xs:sequence>\n    </xs:complexType>\n  </xs:element>\n</xs:schema>"

/-- The schema files. -/
def dir : Files := directory [(c!"simple_content_custom_base.xsd", simple_content_custom_base_text, simple_content_custom_base_xsd)]

/-- The texts of the schema files. -/
def texts : TextFiles := textDirectory [(c!"simple_content_custom_base.xsd", simple_content_custom_base_text)]

theorem texts_files : texts.files = dir := directory_texts (fs := [(c!"simple_content_custom_base.xsd", simple_content_custom_base_text, simple_content_custom_base_xsd)]) (by decide +kernel)

/-- `xsd/tests/xsd/simple_content_custom_base.xml` -/
def xml : Doc := ⟨(⟨⟨c!"user", none⟩, [], [], 39⟩,
  [.text c!"\n  ",
   .elem ⟨⟨c!"role", none⟩, [⟨c!"inherited", none, c!"true", 54⟩], [], 48⟩
     [.text c!"User"],
   .text c!"\n"])⟩

/-- The tags and texts that are written (`xsd/tests/simple_content_custom_base.rs`). -/
def written : List Ev :=
  [.start c!"user" [] [],
   .start c!"role" [(c!"inherited", c!"true")] [],
   .chars c!"User",
   .fin,
   .fin]

/-- The expected value (`xsd/tests/simple_content_custom_base.rs`). -/
def expected : Val := .struct [(c!"role", .struct [(c!"role", .enumv c!"User"), (c!"inherited", .bool true)])]

/-- The text of `xsd/tests/xsd/simple_content_custom_base.xml`. -/
def text : Str := c!"<?xml version=\"1.0\" encoding=\"UTF-8\"?>\n<user>\n  <role inherited=\"true\">User</role>\n</user>"

/-- The text that is written. -/
def writtenText : Str := text

example : passes dir c!"simple_content_custom_base.xsd" c!"User" xml written expected = true := by decide +kernel

example : passesText texts.files c!"simple_content_custom_base.xsd" c!"User" text writtenText expected = true := by rw [texts_files]; decide +kernel

example : Covered dir c!"simple_content_custom_base.xsd" true := coveredB_sound (by decide +kernel)

end simple_content_custom_base_test

/-! ## `simple_type_empty.rs` -/

namespace simple_type_empty_test

/-- `xsd/tests/xsd/simple_type_empty.xsd` -/
def simple_type_empty_xsd : Elem := (⟨⟨c!"schema", (some c!"http://www.w3.org/2001/XMLSchema")⟩, [], [((some c!"xs"), c!"http://www.w3.org/2001/XMLSchema")], 22⟩,
  [.text c!"\n  ",
   .elem ⟨⟨c!"element", (some c!"http://www.w3.org/2001/XMLSchema")⟩, [⟨c!"name", none, c!"text", 92⟩, ⟨c!"type", none, c!"xs:string", 104⟩], [((some c!"xs"), c!"http://www.w3.org/2001/XMLSchema")], 80⟩
     [],
   .text c!"\n"])

/-- The text of `xsd/tests/xsd/simple_type_empty.xsd`. -/
def simple_type_empty_text : Str := c!"<?xml version=\"1.0\"?>\n<xs:schema xmlns:xs=\"http://www.w3.org/2001/XMLSchema\">\n  <xs:element name=\"text\" type=\"xs:string\" />\n</xs:schema>"

/-- The schema files. -/
def dir : Files := directory [(c!"simple_type_empty.xsd", simple_type_empty_text, simple_type_empty_xsd)]

/-- The texts of the schema files. -/
def texts : TextFiles := textDirectory [(c!"simple_type_empty.xsd", simple_type_empty_text)]

theorem texts_files : texts.files = dir := directory_texts (fs := [(c!"simple_type_empty.xsd", simple_type_empty_text, simple_type_empty_xsd)]) (by decide +kernel)

/-- `xsd/tests/xsd/simple_type_empty.xml` -/
def xml : Doc := ⟨(⟨⟨c!"text", none⟩, [], [], 39⟩,
  [])⟩

/-- The tags and texts that are written (`xsd/tests/simple_type_empty.rs`). -/
def written : List Ev :=
  [.start c!"text" [] [],
   .fin]

/-- The expected value (`xsd/tests/simple_type_empty.rs`). -/
def expected : Val := .newtype (.str [])

/-- The text of `xsd/tests/xsd/simple_type_empty.xml`. -/
def text : Str := c!"<?xml version=\"1.0\" encoding=\"UTF-8\"?>\n<text />"

/-- The text that is written. -/
def writtenText : Str := text

example : passes dir c!"simple_type_empty.xsd" c!"Text" xml written expected = true := by decide +kernel

example : passesText texts.files c!"simple_type_empty.xsd" c!"Text" text writtenText expected = true := by rw [texts_files]; decide +kernel

example : Covered dir c!"simple_type_empty.xsd" true := coveredB_sound (by decide +kernel)

end simple_type_empty_test

/-! ## `simple_type_restriction.rs` -/

namespace simple_type_restriction_test

/-- `xsd/tests/xsd/simple_type_restriction.xsd` -/
def simple_type_restriction_xsd : Elem := (⟨⟨c!"schema", (some c!"http://www.w3.org/2001/XMLSchema")⟩, [], [((some c!"xs"), c!"http://www.w3.org/2001/XMLSchema")], 22⟩,
  [.text c!"\n  ",
   .elem ⟨⟨c!"simpleType", (some c!"http://www.w3.org/2001/XMLSchema")⟩, [⟨c!"name", none, c!"SideEnum", 95⟩], [((some c!"xs"), c!"http://www.w3.org/2001/XMLSchema")], 80⟩
     [.text c!"\n    ",
      .elem ⟨⟨c!"annotation", (some c!"http://www.w3.org/2001/XMLSchema")⟩, [], [((some c!"xs"), c!"http://www.w3.org/2001/XMLSchema")], 116⟩
       [.text c!"\n      ",
        .elem ⟨⟨c!"documentation", (some c!"http://www.w3.org/2001/XMLSchema")⟩, [], [((some c!"xs"), c!"http://www.w3.org/2001/XMLSchema")], 138⟩
         [.text c!"The side."],
        .text c!"\n    "],
      .text c!"\n    ",
      .elem ⟨⟨c!"restriction", (some c!"http://www.w3.org/2001/XMLSchema")⟩, [⟨c!"base", none, c!"xs:string", 226⟩], [((some c!"xs"), c!"http://www.w3.org/2001/XMLSchema")], 210⟩
       [.text c!"\n      ",
        .elem ⟨⟨c!"enumeration", (some c!"http://www.w3.org/2001/XMLSchema")⟩, [⟨c!"value", none, c!"RIGHT", 266⟩], [((some c!"xs"), c!"http://www.w3.org/2001/XMLSchema")], 250⟩
         [],
        .text c!"\n      ",
        .elem ⟨⟨c!"enumeration", (some c!"http://www.w3.org/2001/XMLSchema")⟩, [⟨c!"value", none, c!"LEFT", 304⟩], [((some c!"xs"), c!"http://www.w3.org/2001/XMLSchema")], 288⟩
         [],
        .text c!"\n    "],
      .text c!"\n  "],
   .text c!"\n  ",
   .elem ⟨⟨c!"element", (some c!"http://www.w3.org/2001/XMLSchema")⟩, [⟨c!"name", none, c!"Side", 374⟩, ⟨c!"type", none, c!"SideEnum", 386⟩], [((some c!"xs"), c!"http://www.w3.org/2001/XMLSchema")], 362⟩
     [.text c!"\n  "],
   .text c!"\n"])

/-- The text of `xsd/tests/xsd/simple_type_restriction.xsd`. -/
def simple_type_restriction_text : Str := c!"<?xml version=\"1.0\"?>\n<xs:schema xmlns:xs=\"http://www.w3.org/2001/XMLSchema\">\n  <xs:simpleType name=\"SideEnum\">\n    <xs:annotation>\n      <xs:documentation>The side.</xs:documentation>\n    </xs:annotation>\n    <xs:restriction base=\"xs:string\">\n      <xs:enumeration value=\"RIGHT\"/>\n      <xs:enumeration value=\"LEFT\"/>\n    </xs:restriction>\n  </xs:simpleType>\n  <xs:element name=\"Side\" type=\"SideEnum\">\n  </xs:element>\n</xs:schema>"

/-- The schema files. -/
def dir : Files := directory [(c!"simple_type_restriction.xsd", simple_type_restriction_text, simple_type_restriction_xsd)]

/-- The texts of the schema files. -/
def texts : TextFiles := textDirectory [(c!"simple_type_restriction.xsd", simple_type_restriction_text)]

theorem texts_files : texts.files = dir := directory_texts (fs := [(c!"simple_type_restriction.xsd", simple_type_restriction_text, simple_type_restriction_xsd)]) (by decide +kernel)

/-- `xsd/tests/xsd/simple_type_restriction.xml` -/
def xml : Doc := ⟨(⟨⟨c!"Side", none⟩, [], [], 39⟩,
  [.text c!"LEFT"])⟩

/-- The tags and texts that are written (`xsd/tests/simple_type_restriction.rs`). -/
def written : List Ev :=
  [.start c!"Side" [] [],
   .chars c!"LEFT",
   .fin]

/-- The expected value (`xsd/tests/simple_type_restriction.rs`). -/
def expected : Val := .newtype (.enumv c!"Left")

/-- The text of `xsd/tests/xsd/simple_type_restriction.xml`. -/
def text : Str := c!"<?xml version=\"1.0\" encoding=\"UTF-8\"?>\n<Side>LEFT</Side>"

/-- The text that is written. -/
def writtenText : Str := text

example : passes dir c!"simple_type_restriction.xsd" c!"Side" xml written expected = true := by decide +kernel

example : passesText texts.files c!"simple_type_restriction.xsd" c!"Side" text writtenText expected = true := by rw [texts_files]; decide +kernel

example : Covered dir c!"simple_type_restriction.xsd" true := coveredB_sound (by decide +kernel)

end simple_type_restriction_test

/-! ## `virtual_type_collision.rs` -/

namespace virtual_type_collision_test

/-- `xsd/tests/xsd/virtual_type_collision.xsd` -/
def virtual_type_collision_xsd : Elem := (⟨⟨c!"schema", (some c!"http://www.w3.org/2001/XMLSchema")⟩, [], [((some c!"xs"), c!"http://www.w3.org/2001/XMLSchema")], 22⟩,
  [.text c!"\n  ",
   .elem ⟨⟨c!"complexType", (some c!"http://www.w3.org/2001/XMLSchema")⟩, [⟨c!"name", none, c!"path", 96⟩], [((some c!"xs"), c!"http://www.w3.org/2001/XMLSchema")], 80⟩
     [.text c!"\n\t\t",
      .elem ⟨⟨c!"sequence", (some c!"http://www.w3.org/2001/XMLSchema")⟩, [⟨c!"maxOccurs", none, c!"unbounded", 124⟩], [((some c!"xs"), c!"http://www.w3.org/2001/XMLSchema")], 111⟩
       [.text c!"\n\t\t\t",
        .elem ⟨⟨c!"element", (some c!"http://www.w3.org/2001/XMLSchema")⟩, [⟨c!"name", none, c!"point", 162⟩], [((some c!"xs"), c!"http://www.w3.org/2001/XMLSchema")], 150⟩
         [.text c!"\n\t\t\t\t",
          .elem ⟨⟨c!"complexType", (some c!"http://www.w3.org/2001/XMLSchema")⟩, [], [((some c!"xs"), c!"http://www.w3.org/2001/XMLSchema")], 180⟩
           [.text c!"\n\t\t\t\t\t",
            .elem ⟨⟨c!"sequence", (some c!"http://www.w3.org/2001/XMLSchema")⟩, [], [((some c!"xs"), c!"http://www.w3.org/2001/XMLSchema")], 202⟩
             [.text c!"\n\t\t\t\t\t\t",
              .elem ⟨⟨c!"element", (some c!"http://www.w3.org/2001/XMLSchema")⟩, [⟨c!"name", none, c!"x", 234⟩, ⟨c!"type", none, c!"xs:float", 243⟩], [((some c!"xs"), c!"http://www.w3.org/2001/XMLSchema")], 222⟩
               [],
              .text c!"\n\t\t\t\t\t\t",
              .elem ⟨⟨c!"element", (some c!"http://www.w3.org/2001/XMLSchema")⟩, [⟨c!"name", none, c!"y", 279⟩, ⟨c!"type", none, c!"xs:float", 288⟩], [((some c!"xs"), c!"http://www.w3.org/2001/XMLSchema")], 267⟩
               [],
              .text c!"\n\t\t\t\t\t"],
            .text c!"\n\t\t\t\t"],
          .text c!"\n\t\t\t"],
        .text c!"\n\t\t"],
      .text c!"\n\t"],
   .text c!"\n  ",
   .elem ⟨⟨c!"element", (some c!"http://www.w3.org/2001/XMLSchema")⟩, [⟨c!"name", none, c!"trace", 415⟩, ⟨c!"type", none, c!"path", 428⟩], [((some c!"xs"), c!"http://www.w3.org/2001/XMLSchema")], 403⟩
     [],
   .text c!"\n"])

/-- The text of `xsd/tests/xsd/virtual_type_collision.xsd`. -/
def virtual_type_collision_text : Str := c!"<?xml version=\"1.0\"?>\n<xs:schema xmlns:xs=\"http://www.w3.org/2001/XMLSchema\">\n  <xs:complexType name=\"path\">\n\t\t<xs:sequence maxOccurs=\"unbounded\">\n\t\t\t<xs:element name=\"point\">\n\t\t\t\t<xs:complexType>\n\t\t\t\t\t<xs:sequence>\n\t\t\t\t\t\t<xs:element name=\"x\" type=\"xs:float\"/>\n\t\t\t\t\t\t<xs:element name=\"y\" type=\"xs:float\"/>\n\t\t\t\t\t</xs:sequence>\n\t\t\t\t</xs:complexType>\n\t\t\t</xs:element>\n\t\t</xs:sequence>\n\t</xs:complexType>\n  <xs:element name=\"trace\" type=\"path\" />\n</xs:schema>"

/-- The schema files. -/
def dir : Files := directory [(c!"virtual_type_collision.xsd", virtual_type_collision_text, virtual_type_collision_xsd)]

/-- The texts of the schema files. -/
def texts : TextFiles := textDirectory [(c!"virtual_type_collision.xsd", virtual_type_collision_text)]

theorem texts_files : texts.files = dir := directory_texts (fs := [(c!"virtual_type_collision.xsd", virtual_type_collision_text, virtual_type_collision_xsd)]) (by decide +kernel)

/-- `xsd/tests/xsd/virtual_type_collision.xml` -/
def xml : Doc := ⟨(⟨⟨c!"trace", none⟩, [], [], 39⟩,
  [.text c!"\n  ",
   .elem ⟨⟨c!"point", none⟩, [], [], 49⟩
     [.text c!"\n    ",
      .elem ⟨⟨c!"x", none⟩, [], [], 61⟩
       [.text c!"1"],
      .text c!"\n    ",
      .elem ⟨⟨c!"y", none⟩, [], [], 74⟩
       [.text c!"2"],
      .text c!"\n  "],
   .text c!"\n  ",
   .elem ⟨⟨c!"point", none⟩, [], [], 96⟩
     [.text c!"\n    ",
      .elem ⟨⟨c!"x", none⟩, [], [], 108⟩
       [.text c!"3"],
      .text c!"\n    ",
      .elem ⟨⟨c!"y", none⟩, [], [], 121⟩
       [.text c!"4"],
      .text c!"\n  "],
   .text c!"\n"])⟩

/-- The tags and texts that are written (`xsd/tests/virtual_type_collision.rs`). -/
def written : List Ev :=
  [.start c!"trace" [] [],
   .start c!"point" [] [],
   .start c!"x" [] [],
   .chars c!"1",
   .fin,
   .start c!"y" [] [],
   .chars c!"2",
   .fin,
   .fin,
   .start c!"point" [] [],
   .start c!"x" [] [],
   .chars c!"3",
   .fin,
   .start c!"y" [] [],
   .chars c!"4",
   .fin,
   .fin,
   .fin]

/-- The expected value (`xsd/tests/virtual_type_collision.rs`). -/
def expected : Val := .newtype (.struct [(c!"point", .vec [.struct [(c!"point", .struct [(c!"x", .flt 10), (c!"y", .flt 20)])], .struct [(c!"point", .struct [(c!"x", .flt 30), (c!"y", .flt 40)])]])])

/-- The text of `xsd/tests/xsd/virtual_type_collision.xml`. -/
def text : Str := c!"<?xml version=\"1.0\" encoding=\"UTF-8\"?>\n<trace>\n  <point>\n    <x>1</x>\n    <y>2</y>\n  </point>\n  <point>\n    <x>3</x>\n    <y>4</y>\n  </point>\n</trace>"

/-- The text that is written. -/
def writtenText : Str := text

example : passes dir c!"virtual_type_collision.xsd" c!"Trace" xml written expected = true := by decide +kernel

example : passesText texts.files c!"virtual_type_collision.xsd" c!"Trace" text writtenText expected = true := by rw [texts_files]; decide +kernel

example : Covered dir c!"virtual_type_collision.xsd" true := coveredB_sound (by decide +kernel)

end virtual_type_collision_test

end Xsd.Conformance
