import Verif.Props.TableOrigin
import Verif.Props.Definitions
import Verif.Props.Docs
/-!
# What the parser makes of extensions (C54)
-/
namespace Xsd

/-- The content of a type that extends the type `base` by the declarations in the node `ext`. Without a sequence, it is a value
of the base type. With a sequence, it is a value of the base type, exactly once, followed by a group whose members are the
particles of the sequence, as often as the sequence declares. The group is found among the types `roots` (which, for all that
the parser does, could have been replaced by an anonymous type of an attribute with the same name). -/
inductive ExtensionContent (x : Ext) (roots : List (Name × Root)) (parent base : Name) (ext : Nd) : ElementContent → Prop where
  | plain (hs : ∀ c ∈ ext.xsdKids, c.name ≠ c!"sequence") :
      ExtensionContent x roots parent base ext (.leaf base ⟨.named base, [], none⟩)
  | sequence (seq b l g ls) (hs : seq ∈ ext.xsdKids) (hn : seq.name = c!"sequence")
      (hb : b.definition = ⟨.named base, [], none⟩) (hbv : b.isVirtual = true) (hbo : b.isUnordered = false) (hb1 : b.minOccurs = 1)
      (hb2 : b.maxOccurs = .number 1) (hl : l.definition = ⟨.named g, [], none⟩) (hlv : l.isVirtual = true)
      (hlo : l.isUnordered = false) (hl1 : MinOf seq l.minOccurs) (hl2 : l.maxOccurs = .number 1)
      (hls : Each (ParticleOf x parent) seq.particles ls)
      (hg : (∀ a ∈ ext.xsdKids, a.name = c!"attribute" → ∀ c, ¬ AnonymousWithin .attribute a c) →
        alookup roots g = some (.element ⟨[], some (.leaves ls), true, none⟩)) :
      ExtensionContent x roots parent base ext (.leaves [b, l])

theorem withDocs_content (d : ElementDef) (docs : Option Str) : (d.withDocs docs).content = d.content := by
  unfold ElementDef.withDocs; split <;> rfl

/-- **C54**, the parser: the type made of a complex type with an extension contains a value of the type that the extension
names as its base, and, if the extension has a sequence, a group for the particles of that sequence. -/
theorem C54_content (x : Ext) (k : Nat) (nd cc : Nd) (parent : Name) (s s' : PCtx) (r : Root)
    (h : parseComplexType x k nd parent s = .ok (r, s')) (hs : s.nss.Reachable) (hdecls : (s.docNss.map Prod.fst).Nodup)
    (hd : s.defaultNs = none ∨ s.defaultNs = some nsXsd) (hcc : cc ∈ nd.xsdKids) (hn : cc.name = c!"complexContent") :
    ∃ d ext v base u c, r = .element d ∧ ext ∈ cc.xsdKids ∧ ext.name = c!"extension" ∧ ext.value c!"base" = some v ∧
      Denotes s.defaultNs s.docNss v base.name u ∧ u ≠ some nsXsd ∧ Stands s'.nss base.ns u ∧
      d.content = some c ∧ ExtensionContent x s'.roots parent base ext c := by
  cases k with
  | zero => cases h
  | succ k =>
    have hrun := parseComplexType_run x h
    clear h
    cases hrun with
    | simpleContent docs child e s' hm hp hdo hk h =>
      obtain ⟨h1, h2, h3⟩ := only_kid hk
      rcases h3 _ hcc with rfl | h
      · rw [hn] at h2; cases h2
      · rw [hn] at h; cases h
    | particle docs content rest s1 attributes s' hm hp hdo hn1 hn2 h ha hk =>
      exact absurd (kid_info hcc hn) ((rk_none hn2).2 _ (rk_keep hcc (by rw [hn]; decide)))
    | complexContent docs child e s' hm hp hdo hn1 hk h =>
      obtain ⟨h1, h2, h3⟩ := only_kid hk
      rcases h3 _ hcc with rfl | h'
      · cases k with
        | zero => cases h
        | succ k =>
          have hrun := parseComplexContent_run x h
          clear h
          cases hrun with
          | mk ext base n s1 vl s2 attributes s' hp hr hb ht h ha hk =>
            obtain ⟨u, hu1, hu2, hu3⟩ := (C33_partial base s hdecls (fun _ => hd)).2.1 n s1 ht
            have hl1 : Later s (s1.discoverType n parent) := (getTypeName_later ht).discover
            have hl2 := ((logAll x k).extension h (fun d hd => name_of_info (rk_name hd).1)).toLater
            have hl3 := attributes_log ha
            have hst : Stands s'.nss n.ns u := Stands.mono (t := (s1.discoverType n parent).nss)
              (((hl2.trans hl3.toLater).nss (hl1.nss hs).2).1) hu3
            have hx := rk_name (n := c!"extension") (by rw [hr])
            refine ⟨_, ext, base.value, n, u, _, rfl, hx.2, name_of_info hx.1, by unfold Nd.value; rw [hb]; rfl, hu1, hu2, hst,
              withDocs_content _ _, ?_⟩
            cases k with
            | zero => unfold parseExtension at h; cases h
            | succ k =>
              have hrun := parseExtension_run x h
              clear h
              generalize hseq : (removeKid c!"sequence" ext.xsdKids).1 = child at hrun
              cases hrun with
              | none =>
                rw [if_pos rfl]
                exact .plain fun c hc hcn => (rk_none hseq).2 _ hc (kid_info hc hcn)
              | some child mn leaves s3 v hmn h hv =>
                have h1 := rk_name hseq
                rw [if_neg (by nofun)]
                refine .sequence child _ _ (s3.nodeName v false) leaves h1.2 (name_of_info h1.1) rfl rfl rfl rfl rfl rfl rfl rfl
                  (parseMinOccurs_minOf hmn) rfl (C37_sequence x k (child.see c!"minOccurs") parent _ _ _ h) fun hno => ?_
                obtain ⟨log, e1, e2, _⟩ := hl3.log
                have hlog : log = [] := by
                  cases log with
                  | nil => rfl
                  | cons b log =>
                    obtain ⟨c, hc, hw⟩ := (e2 b.node).2 ⟨b, .head _, rfl⟩
                    have := List.mem_filter.1 hc
                    exact absurd hw (hno c (rk_rest this.1) (name_of_info (by simpa using this.2)) _)
                rw [e1, hlog]
                show alookup (ainsert s3.roots _ _) _ = _
                rw [alookup_ainsert, if_pos rfl]
                rfl
      · rw [hn] at h'; cases h'

namespace SchemaSample

/-- An extension with a sequence and an attribute. -/
def employee : Nd := xn c!"complexType" []
  [xe c!"complexContent" []
     [xe c!"extension" [(c!"base", c!"t:Person")]
        [xe c!"sequence" [(c!"minOccurs", c!"0")] [xe c!"element" [(c!"name", c!"job"), (c!"type", c!"xs:string")] []],
         xe c!"attribute" [(c!"name", c!"id"), (c!"type", c!"xs:int")] []]]]

/-- An extension without a sequence. -/
def guest : Nd := xn c!"complexType" [] [xe c!"complexContent" [] [xe c!"extension" [(c!"base", c!"t:Person")] []]]

theorem ctx_reachable : ctx.nss.Reachable := ⟨[c!"urn:t"], by rfl⟩

/-- The hypotheses of `C54_content` are met, and the result has the base and the group. -/
example : ∃ d s', parseComplexType sampleExt 9 employee ⟨c!"Employee", .id 1⟩ ctx = .ok (.element d, s') ∧
    (∃ ext v base u c, ext.name = c!"extension" ∧ ext.value c!"base" = some v ∧ Denotes none ctx.docNss v base.name u ∧
      Stands s'.nss base.ns u ∧ d.content = some c ∧ ExtensionContent sampleExt s'.roots ⟨c!"Employee", .id 1⟩ base ext c) ∧
    d.attributes.length = 1 ∧ s'.roots.length = 1 := by
  have hp : (match parseComplexType sampleExt 9 employee ⟨c!"Employee", .id 1⟩ ctx with
      | .ok (.element d, s') => decide (d.attributes.length = 1 ∧ s'.roots.length = 1)
      | _ => false) = true := by decide +kernel
  cases h : parseComplexType sampleExt 9 employee ⟨c!"Employee", .id 1⟩ ctx with
  | err e => rw [h] at hp; cases hp
  | panic => rw [h] at hp; cases hp
  | diverge => rw [h] at hp; cases hp
  | ok p =>
    obtain ⟨r, s'⟩ := p
    rw [h] at hp
    obtain ⟨d, ext, v, base, u, c, rfl, _, h2, h3, h4, _, h6, h7, h8⟩ := C54_content sampleExt 9 employee _ _ ctx s' r h
      ctx_reachable (by decide) (.inl rfl) (.head _) rfl
    exact ⟨d, s', rfl, ⟨ext, v, base, u, c, h2, h3, h4, h6, h7, h8⟩, of_decide_eq_true hp⟩

example : ∃ s', parseComplexType sampleExt 9 guest ⟨c!"Guest", .id 1⟩ ctx =
    .ok (.element ⟨[], some (.leaf ⟨c!"Person", .id 1⟩ ⟨.named ⟨c!"Person", .id 1⟩, [], none⟩), false, none⟩, s') :=
  ⟨_, by rfl⟩

end SchemaSample

end Xsd
