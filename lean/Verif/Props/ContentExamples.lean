import Verif.Props.Choice
import Verif.Props.Fixed
import Verif.Props.Unenforced
/-!
# Non-vacuity of C19-C24, and documents on which C21, C22, C24, C29 and C30 fail
-/
namespace Xsd

namespace Sample2
open Sample (nm leaf nss q el at')

def all' (s : Str) (c : LeafContent) (mn : Nat) : Leaf := { leaf s c mn (.number 1) with isUnordered := true }
def elem (ls : List Leaf) (as : List Attribute := []) (virt : Bool := false) : Root := .element ⟨as, some (.leaves ls), virt, none⟩
def attr (s : Str) (c : LeafContent) (opt : Bool) (dflt : Option Str := none) : Attribute := ⟨⟨s, .none⟩, c, dflt, opt, none⟩

def pairLeaves : List Leaf := [leaf c!"a" (.literal .string) 1 (.number 1), leaf c!"b" (.literal .int32) 1 (.number 1)]
def allLeaves : List Leaf := [all' c!"a" (.literal .string) 1, all' c!"b" (.literal .int32) 1]
def allOptLeaves : List Leaf := [all' c!"a" (.literal .string) 0, all' c!"b" (.literal .int32) 1]
def pickVariants : List Leaf := [leaf c!"one" (.literal .string) 1 (.number 1), leaf c!"grp" (.named (nm c!"Grp")) 1 (.number 1) true,
  leaf c!"many" (.literal .int32) 1 .unbounded]
def fxLeaves : List Leaf := [leaf c!"a" (.literal .string) 1 (.number 1), leaf c!"v" (.fixed c!"1") 1 (.number 1)]

def sch : SchemaContext where
  elements :=
    [(nm c!"Pair", elem pairLeaves [attr c!"k" (.literal .string) false]),
     (nm c!"All", elem allLeaves),
     (nm c!"AllOpt", elem allOptLeaves),
     (nm c!"Bounded", elem [leaf c!"item" (.literal .int32) 2 (.number 3)]),
     (nm c!"Pick", .choice pickVariants false none),
     (nm c!"Grp", elem [leaf c!"x" (.literal .string) 0 (.number 1), leaf c!"y" (.literal .string) 1 (.number 1)] [] true),
     (nm c!"Fx", elem fxLeaves [attr c!"w" (.fixed c!"2") false]),
     (nm c!"Top", .leaf ⟨.fixed c!"t", [], none⟩),
     (nm c!"Short", .leaf ⟨.literal .string, [.maxLength 1], none⟩),
     (nm c!"Dflt", elem [] [attr c!"d" (.literal .string) true (some c!"dv")])]
  target := .id 1
  isQualified := true
  namespaces := nss

def pgm : List TypeDef := moduleOf sampleExt sch
theorem generated : Generated sampleExt sch pgm := generatesB_sound (by decide +kernel)

def root (s : Str) (cs : List XNode) (as : List XAttr := []) : Elem := (⟨q s, as, [], 0⟩, cs)
def kid (s t : Str) : XNode := el s [.text t]
def kidE (s t : Str) : Elem := (⟨q s, [], [], 0⟩, [.text t])

theorem single (s : Str) (c : LeafContent) : (leaf s c 1 (.number 1)).Plain := ⟨⟨rfl, rfl, rfl⟩, rfl⟩

/-- C20: a document with two elements in order, and one more that is left over. -/
theorem pair_decodes : FromXml sampleExt pgm c!"Pair" ⟨root c!"Pair" [kid c!"a" c!"s", kid c!"b" c!"4", kid c!"c" []] [at' c!"k" c!"z"]⟩
    (.ok (.struct [(c!"a", .str c!"s"), (c!"b", .int 4), (c!"k", .str c!"z")])) := ⟨by simp, 9, by rfl⟩

theorem pair_isElement : IsElement sch (nm c!"Pair") pairLeaves [attr c!"k" (.literal .string) false] := ⟨_, rfl, rfl, rfl⟩
theorem pair_plain : ∀ l ∈ pairLeaves, l.Plain := by
  intro l hl
  simp only [pairLeaves, List.mem_cons, List.not_mem_nil, or_false] at hl
  rcases hl with rfl | rfl <;> exact single _ _

example := C20_root_children generated (n := nm c!"Pair") (i := c!"Pair") (by rfl) pair_isElement pair_plain pair_decodes

/-- C19: `b` is missing; its place is taken by `c`. -/
theorem pair_prefix : ReadsSeq sampleExt sch pgm [leaf c!"a" (.literal .string) 1 (.number 1)] [kidE c!"a" c!"s"] [(c!"a", .str c!"s")] :=
  .cons rfl rfl ⟨_, .literal _, rfl⟩ .nil

example : FromNode sampleExt pgm c!"Pair" ⟨root c!"Pair" [], [kidE c!"a" c!"s"] ++ [kidE c!"c" c!"4", kidE c!"b" c!"4"]⟩
    (.err (.missingElement c!"b" (some c!"urn:a"))) :=
  C19_first_missing_element generated (n := nm c!"Pair") (by rfl) (pre := [leaf c!"a" (.literal .string) 1 (.number 1)])
    (l := leaf c!"b" (.literal .int32) 1 (.number 1)) (post := []) pair_isElement
    (by intro l hl; rw [List.mem_singleton] at hl; subst hl; exact single _ _) (single _ _) pair_prefix rfl
    (by intro ch rest h; cases h; decide)

/-- C19: the attribute `k` is missing. -/
example : FromNode sampleExt pgm c!"Pair" ⟨root c!"Pair" [] [at' c!"kk" c!"z"], [kidE c!"a" c!"s", kidE c!"b" c!"4"] ++ []⟩
    (.err (.missingAttribute c!"k")) :=
  C19_first_missing_attribute generated (n := nm c!"Pair") (by rfl) (pre := []) (post := [])
    (a := attr c!"k" (.literal .string) false) pair_isElement pair_plain
    (.cons rfl rfl ⟨_, .literal _, rfl⟩ (.cons rfl rfl ⟨_, .literal _, rfl⟩ .nil)) (by simp) rfl rfl

/-- C21: two required members in the other order. -/
theorem all_reordered : FromXml sampleExt pgm c!"All" ⟨root c!"All" [kid c!"b" c!"4", kid c!"a" c!"s"]⟩
    (.ok (.struct [(c!"a", .str c!"s"), (c!"b", .int 4)])) := by
  refine (C21_any_order_partial generated (n := nm c!"All") (by rfl) (ls := allLeaves) (as := []) ⟨_, rfl, rfl, rfl⟩ ?_
    (cs := [kid c!"a" c!"s", kid c!"b" c!"4"]) (cs' := [kid c!"b" c!"4", kid c!"a" c!"s"]) ?_ _).1 ⟨by simp, 9, by rfl⟩
  · intro l hl
    simp only [allLeaves, List.mem_cons, List.not_mem_nil, or_false] at hl
    rcases hl with rfl | rfl <;> exact ⟨⟨rfl, rfl, rfl⟩, rfl⟩
  · exact SameByName.of_perm (List.Perm.swap _ _ _) (by decide)

/-- C22: three items are the maximal run. -/
example := C22_maximal_run_partial generated (n := nm c!"Bounded") (i := c!"Bounded") (by rfl) (pre := []) (post := [])
  (l := leaf c!"item" (.literal .int32) 2 (.number 3)) (as := []) ⟨_, rfl, rfl, rfl⟩ rfl rfl
  (e := root c!"Bounded" []) (p := [kidE c!"item" c!"1", kidE c!"item" c!"2", kidE c!"z" c!"3"])
  (v := .struct [(c!"item", .vec [.int 1, .int 2])]) (s' := ⟨root c!"Bounded" [], [kidE c!"z" c!"3"]⟩) (FromNode.queue.2 ⟨by simp, 9, by rfl⟩)

theorem pick_groups : GroupsEnd sampleExt sch pickVariants := by
  intro l hl hv
  simp only [pickVariants, List.mem_cons, List.not_mem_nil, or_false] at hl
  rcases hl with rfl | rfl | rfl
  · cases hv
  · exact ⟨nm c!"Grp", rfl, by decide +kernel⟩
  · cases hv

theorem grp_leads : Leads sch (nm c!"Grp") (q c!"y") :=
  .field (pre := [leaf c!"x" (.literal .string) 0 (.number 1)]) (post := []) (l := leaf c!"y" (.literal .string) 1 (.number 1))
    rfl rfl (by simp [leaf, Leaf.mayMiss]) rfl rfl

theorem one_leads {p : QName} (h : LeafLeads sch (leaf c!"one" (.literal .string) 1 (.number 1)) p) : p = q c!"one" := by
  rcases h with ⟨_, h⟩ | ⟨h, _⟩
  · cases h; rfl
  · cases h

/-- C23: the child `y` starts the group, the second alternative. -/
example : FromNode sampleExt pgm c!"Pick" ⟨root c!"Pick" [], [kidE c!"y" c!"s"]⟩
    (.ok (.variant c!"Grp" (.struct [(c!"x", .none), (c!"y", .str c!"s")]), ⟨root c!"Pick" [], []⟩)) :=
  (C23_first_match generated (n := nm c!"Pick") (by rfl) (pre := [leaf c!"one" (.literal .string) 1 (.number 1)])
    (l := leaf c!"grp" (.named (nm c!"Grp")) 1 (.number 1) true) (post := [leaf c!"many" (.literal .int32) 1 .unbounded])
    (by rfl) pick_groups (by
      intro l hl h; rw [List.mem_singleton] at hl; subst hl
      exact absurd (one_leads h) (by decide))
    (.inr ⟨rfl, _, rfl, grp_leads⟩) _).2
    ⟨c!"Grp", rfl, nm c!"Grp", c!"Grp",
      .ok (.struct [(c!"x", .none), (c!"y", .str c!"s")], ⟨root c!"Pick" [], []⟩), rfl, rfl, (FromNode.queue.2 ⟨by simp, 9, by rfl⟩), rfl⟩

/-- C23: no alternative starts with `z`. -/
example : FromNode sampleExt pgm c!"Pick" ⟨root c!"Pick" [], [kidE c!"z" c!"s"]⟩ (.err (.missingVariant c!"Pick")) :=
  C23_missing_variant generated (n := nm c!"Pick") (by rfl) (vs := pickVariants) (by rfl) pick_groups (by
    intro ch rest h l hl hll
    cases h
    simp only [pickVariants, List.mem_cons, List.not_mem_nil, or_false] at hl
    rcases hl with rfl | rfl | rfl
    · exact absurd (one_leads hll) (by decide)
    · rcases hll with ⟨h, _⟩ | ⟨_, m, hm, hll⟩
      · cases h
      · cases hm
        have hL : lookSet sampleExt sch 2 (nm c!"Grp") = some [q c!"x", q c!"y"] := by decide +kernel
        have := (lookSet_iff 2 _ _ hL _).2 hll
        revert this; decide
    · rcases hll with ⟨_, h⟩ | ⟨h, _⟩
      · revert h; decide
      · cases h)

/-- C24: the text of `v` is not `1`. -/
example : FromNode sampleExt pgm c!"Fx" ⟨root c!"Fx" [] [at' c!"w" c!"2"], [kidE c!"a" c!"s"] ++ kidE c!"v" c!"3" :: []⟩
    (.err (.fixedMismatch c!"1" c!"3")) :=
  C24_mismatch_partial generated (n := nm c!"Fx") (by rfl) (pre := [leaf c!"a" (.literal .string) 1 (.number 1)])
    (l := leaf c!"v" (.fixed c!"1") 1 (.number 1)) (post := []) (as := [attr c!"w" (.fixed c!"2") false]) ⟨_, rfl, rfl, rfl⟩
    (by intro l hl; rw [List.mem_singleton] at hl; subst hl; exact single _ _) (single _ _) (.fixed _) pair_prefix rfl
    (.inr ⟨[], rfl⟩) (by decide)

/-- The value of `Fx`. -/
def fxVal : Val := .struct [(c!"a", .str c!"s"), (c!"v", .unit), (c!"w", .unit)]

theorem fx_decodes : FromNode sampleExt pgm c!"Fx" ⟨root c!"Fx" [] [at' c!"w" c!"2"], [kidE c!"a" c!"s", kidE c!"v" c!"1"]⟩
    (.ok (fxVal, ⟨root c!"Fx" [] [at' c!"w" c!"2"], []⟩)) := (FromNode.queue.2 ⟨by simp, 9, by rfl⟩)

example := C24_accepted_partial generated (n := nm c!"Fx") (i := c!"Fx") (by rfl) (ls := fxLeaves)
  (as := [attr c!"w" (.fixed c!"2") false]) ⟨_, rfl, rfl, rfl⟩ (l := leaf c!"v" (.fixed c!"1") 1 (.number 1))
  (by simp [fxLeaves]) rfl (.fixed _) fx_decodes

example : FromXml sampleExt pgm c!"Top" ⟨root c!"Top" [.text c!"u"]⟩ (.err (.fixedMismatch c!"t" c!"u")) :=
  (C24_root_partial generated (n := nm c!"Top") (by rfl) (d := ⟨.fixed c!"t", [], none⟩) (by rfl) (.fixed _) (by rfl)
    (.inr ⟨[], rfl⟩) _).2 (by rw [if_neg (by decide)])

theorem fx_written : ToXml sampleExt pgm c!"Fx" fxVal (.ok [.start c!"Fx" [(c!"w", c!"2")] [([], c!"urn:a")],
    .start c!"a" [] [], .chars c!"s", .fin, .start c!"v" [] [], .chars c!"1", .fin, .fin]) := ⟨by simp, 9, by rfl⟩

example := C24_written_partial generated (n := nm c!"Fx") (i := c!"Fx") (by rfl) (ls := fxLeaves)
  (as := [attr c!"w" (.fixed c!"2") false]) ⟨_, rfl, rfl, rfl⟩ (l := leaf c!"v" (.fixed c!"1") 1 (.number 1))
  (by simp [fxLeaves]) (single _ _).toSingle (f := c!"1") rfl fx_written

example := C24_attribute_written_partial generated (n := nm c!"Fx") (i := c!"Fx") (by rfl) (ls := fxLeaves) (by rfl) (by rfl) (by rfl)
  (a := attr c!"w" (.fixed c!"2") false) (by simp) rfl (f := c!"2") rfl fx_written

end Sample2

open Sample (nm leaf q el at')
open Sample2 (root kid kidE generated pgm sch)

/-- **C21 is false with optional members.** All members of the `xs:all` group are single elements; the same children in
another order give another value: the optional member is lost. -/
theorem C21_optional_false : ∃ (x : Ext) (S : SchemaContext) (P : List TypeDef) (n : Name) (i : Str) (ls : List Leaf)
    (as : List Attribute) (info : ElemInfo) (cs cs' : List XNode) (v v' : Val),
    Generated x S P ∧ typeIdent x n = .ok i ∧ IsElement S n ls as ∧
      (∀ l ∈ ls, l.isUnordered = true ∧ l.isVirtual = false ∧ l.repeats = false) ∧ SameByName (elemKids cs) (elemKids cs') ∧
      FromXml x P i ⟨(info, cs)⟩ (.ok v) ∧ FromXml x P i ⟨(info, cs')⟩ (.ok v') ∧ v ≠ v' := by
  refine ⟨sampleExt, sch, pgm, nm c!"AllOpt", c!"AllOpt", Sample2.allOptLeaves, [], (root c!"AllOpt" []).1,
    [kid c!"a" c!"s", kid c!"b" c!"4"], [kid c!"b" c!"4", kid c!"a" c!"s"], .struct [(c!"a", .some (.str c!"s")), (c!"b", .int 4)],
    .struct [(c!"a", .none), (c!"b", .int 4)], generated, by rfl, ⟨_, rfl, rfl, rfl⟩, ?_, ?_, ⟨by simp, 9, by rfl⟩,
    ⟨by simp, 9, by rfl⟩, by simp⟩
  · intro l hl
    simp only [Sample2.allOptLeaves, List.mem_cons, List.not_mem_nil, or_false] at hl
    rcases hl with rfl | rfl <;> exact ⟨rfl, rfl, rfl⟩
  · exact SameByName.of_perm (List.Perm.swap _ _ _) (by decide)

/-- **C22 is false for occurrence bounds.** With `minOccurs="2" maxOccurs="3"`, one and four items are accepted. -/
theorem C22_bounds_false : ∃ (x : Ext) (S : SchemaContext) (P : List TypeDef) (n : Name) (i : Str) (l : Leaf),
    Generated x S P ∧ typeIdent x n = .ok i ∧ IsElement S n [l] [] ∧ l.minOccurs = 2 ∧ l.maxOccurs = .number 3 ∧
      (∃ d v f, FromXml x P i d (.ok (.struct [(f, .vec [v])]))) ∧
      (∃ d v f, FromXml x P i d (.ok (.struct [(f, .vec [v, v, v, v])]))) :=
  ⟨sampleExt, sch, pgm, nm c!"Bounded", c!"Bounded", leaf c!"item" (.literal .int32) 2 (.number 3), generated, by rfl,
    ⟨_, rfl, rfl, rfl⟩, rfl, rfl,
    ⟨⟨root c!"Bounded" [kid c!"item" c!"1"]⟩, .int 1, c!"item", by simp, 9, by rfl⟩,
    ⟨⟨root c!"Bounded" [kid c!"item" c!"1", kid c!"item" c!"1", kid c!"item" c!"1", kid c!"item" c!"1"]⟩, .int 1, c!"item",
      by simp, 9, by rfl⟩⟩

/-- **C24 is false for attributes.** An attribute with a fixed value is accepted with another value. -/
theorem C24_attribute_not_checked : ∃ (x : Ext) (S : SchemaContext) (P : List TypeDef) (n : Name) (i : Str) (ls : List Leaf)
    (a : Attribute) (f : Str) (d : Doc) (v : Val), Generated x S P ∧ typeIdent x n = .ok i ∧ IsElement S n ls [a] ∧
      a.content = .fixed f ∧ attrOf d.root.1 a.name.name ≠ some f ∧ FromXml x P i d (.ok v) :=
  ⟨sampleExt, sch, pgm, nm c!"Fx", c!"Fx", Sample2.fxLeaves, Sample2.attr c!"w" (.fixed c!"2") false, c!"2",
    ⟨root c!"Fx" [kid c!"a" c!"s", kid c!"v" c!"1"] [at' c!"w" c!"9"]⟩, Sample2.fxVal, generated, by rfl, ⟨_, rfl, rfl, rfl⟩,
    rfl, by decide, by simp, 9, by rfl⟩

/-- **C29 is false.** A string longer than its `maxLength` is accepted. -/
theorem C29_facets_false : ∃ (x : Ext) (S : SchemaContext) (P : List TypeDef) (n : Name) (i : Str) (ld : LeafDef) (k : Nat)
    (d : Doc) (s : Str), Generated x S P ∧ typeIdent x n = .ok i ∧ S.get n = some (.leaf ld) ∧
      Restriction.maxLength k ∈ ld.restrictions ∧ FromXml x P i d (.ok (.newtype (.str s))) ∧ k < s.length :=
  ⟨sampleExt, sch, pgm, nm c!"Short", c!"Short", ⟨.literal .string, [.maxLength 1], none⟩, 1,
    ⟨root c!"Short" [.text c!"long"]⟩, c!"long", generated, by rfl, by rfl, by simp, ⟨by simp, 9, by rfl⟩, by decide⟩

/-- **C30 is false.** An absent attribute with a default is read as `None`. -/
theorem C30_default_false : ∃ (x : Ext) (S : SchemaContext) (P : List TypeDef) (n : Name) (i f : Str) (a : Attribute) (dv : Str)
    (d : Doc), Generated x S P ∧ typeIdent x n = .ok i ∧ IsElement S n [] [a] ∧ a.default = some dv ∧
      attrOf d.root.1 a.name.name = none ∧ FromXml x P i d (.ok (.struct [(f, .none)])) :=
  ⟨sampleExt, sch, pgm, nm c!"Dflt", c!"Dflt", c!"d", Sample2.attr c!"d" (.literal .string) true (some c!"dv"), c!"dv",
    ⟨root c!"Dflt" []⟩, generated, by rfl, ⟨_, rfl, rfl, rfl⟩, rfl, rfl, by simp, 9, by rfl⟩

end Xsd
