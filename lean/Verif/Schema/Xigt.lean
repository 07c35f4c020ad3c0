import Verif.Schema.Structure
/-
The schemata /repo/schema/xigt.rnc, xigt-{corpus,igt,tier,item,metadata,meta}.rnc, default-xigt.rnc and
extensions/odin-xigt.rnc.

The files xigt-*.rnc are included as nested grammars.  Each takes over nearly everything from the grammar
around it (`X = parent X`, "keep these in scope"): this is `Names`, which is passed on.  What an including
file overrides is either a name (a changed `Names`) or an argument of the function that stands for the file.
`Id`, `IdRef`, `IdRefs` and `AlgnExpr` are nowhere overridden.  The definitions are not recursive but for
`AnyElement`, so that they are written out.
-/

namespace Xigt.Rng
section
variable [Uni] [Xsd]

/-- words: strings without white space -/
def wsWords : Str → List Str
  | [] => []
  | c :: s =>
    if xmlSpace c then [] :: wsWords s
    else match wsWords s with
      | [] => [[c]]
      | w :: ws => (c :: w) :: ws

/-- white space removed at the ends and collapsed within (the datatype `token`, in which values are compared) -/
def tokens (s : Str) : List Str := (wsWords s).filter (· ≠ [])

/-- a value `"v"` -/
def value (v : Str) : Pat := .data fun s => tokens s = tokens v

/-- xigt.rnc:14 `IdRefs` -/
def IdRefs : Pat := .data (Rx.seq idRx (.star (.seq (.plus (.cls xmlSpace)) idRx))).Mem

/-- a name in the namespace of XML -/
def xmlName (n : Str) : Str := qual (lit! "http://www.w3.org/XML/1998/namespace") n

/-- xigt.rnc:22-24 -/
def BaseAttrs : Pat :=
  .group (.opt (.attr (.name (xmlName (lit! "lang"))) .text))
    (.opt (.attr (.name (xmlName (lit! "space"))) (.choice (value (lit! "default")) (value (lit! "preserve")))))

/-- what the nested grammars take over from the one around them -/
structure Names where
  baseAttrs : Pat
  itemId : Pat
  itemType : Pat
  itemAln : Pat
  itemCnt : Pat
  itemSeg : Pat
  itemAttrs : Pat
  item : Pat
  tierId : Pat
  tierAln : Pat
  tierCnt : Pat
  tierSeg : Pat
  tierAttrs : Pat
  tierMetadata : Pat
  tier : Pat
  metaId : Pat
  metaType : Pat
  metaAttrs : Pat
  metaP : Pat
  metadataId : Pat
  metadataType : Pat
  metadataAttrs : Pat
  metadata : Pat
  igtId : Pat
  igtType : Pat
  igtAttrs : Pat
  igtMetadata : Pat
  igt : Pat
  corpusId : Pat
  corpusType : Pat
  corpusAttrs : Pat
  corpusMetadata : Pat

/-- `attribute n { p }` -/
def att (n : Str) (p : Pat) : Pat := .attr (.name n) p

/-- xigt-tier.rnc:12-14, xigt-item.rnc:12-14 -/
def refsPat (aln cnt seg : Pat) : Pat :=
  .choice (.group (.opt (att (lit! "alignment") aln)) (.opt (att (lit! "content") cnt)))
    (.opt (att (lit! "segmentation") seg))

/-- xigt-item.rnc; `Item.refs` (12-17) may be overridden -/
def itemFile (p : Names) (refs : Pat := refsPat p.itemAln p.itemCnt p.itemSeg) : Pat :=
  .elem (.name (lit! "item")) (.group (att (lit! "id") p.itemId) (.group p.baseAttrs (.group refs
    (.group (.opt (att (lit! "type") p.itemType)) (.group p.itemAttrs .text)))))

/-- xigt-meta.rnc:16 `mixed { AnyElement }*` -/
def anyContent : Pat := .star (.mixed (.ref ANY))

/-- xigt-meta.rnc; `Meta.content` (16) may be overridden -/
def metaFile (p : Names) (content : Pat := anyContent) : Pat :=
  .elem (.name (lit! "meta")) (.group (.opt (att (lit! "id") p.metaId)) (.group p.baseAttrs
    (.group (.opt (att (lit! "type") p.metaType)) (.group p.metaAttrs content))))

/-- xigt-metadata.rnc; `Metadata.metas` (16) may be overridden -/
def metadataFile (p : Names) (metas : Pat := .star (.choice p.metaP (metaFile p))) : Pat :=
  .elem (.name (lit! "metadata")) (.group (.opt (att (lit! "id") p.metadataId)) (.group p.baseAttrs
    (.group (.opt (att (lit! "type") p.metadataType)) (.group p.metadataAttrs metas))))

/-- xigt-tier.rnc; `Tier.type` (26, `notAllowed`) and `Tier.refs` (12-17) may be overridden; so may names,
in `p`. -/
def tierFile (p : Names) (type : Pat := .notAllowed) (refs : Pat := refsPat p.tierAln p.tierCnt p.tierSeg) : Pat :=
  .elem (.name (lit! "tier")) (.group (att (lit! "id") p.tierId) (.group p.baseAttrs (.group refs
    (.group (.opt (att (lit! "type") type)) (.group p.tierAttrs
      (.group (.star (.choice p.tierMetadata (.choice p.metadata (metadataFile p)))) (.star (.choice p.item (itemFile p)))))))))

/-- xigt-igt.rnc -/
def igtFile (p : Names) : Pat :=
  .elem (.name (lit! "igt")) (.group (att (lit! "id") p.igtId) (.group p.baseAttrs
    (.group (.opt (att (lit! "type") p.igtType)) (.group p.igtAttrs
      (.group (.star (.choice p.igtMetadata (.choice p.metadata (metadataFile p)))) (.star (.choice p.tier (tierFile p))))))))

/-- xigt-corpus.rnc -/
def corpusFile (p : Names) : Pat :=
  .elem (.name (lit! "xigt-corpus")) (.group (.opt (att (lit! "id") p.corpusId)) (.group p.baseAttrs
    (.group (.opt (att (lit! "type") p.corpusType)) (.group p.corpusAttrs
      (.group (.star (.choice p.corpusMetadata (.choice p.metadata (metadataFile p)))) (.star (.choice p.igt (igtFile p))))))))

/-- xigt.rnc:34-71 -/
def xigtNames : Names where
  baseAttrs := BaseAttrs
  itemId := Id
  itemType := .empty
  itemAln := AlgnExpr
  itemCnt := AlgnExpr
  itemSeg := AlgnExpr
  itemAttrs := .empty
  item := .notAllowed
  tierId := Id
  tierAln := Id
  tierCnt := Id
  tierSeg := Id
  tierAttrs := .empty
  tierMetadata := .star .notAllowed
  tier := .notAllowed
  metaId := Id
  metaType := .empty
  metaAttrs := .empty
  metaP := .notAllowed
  metadataId := Id
  metadataType := .empty
  metadataAttrs := .empty
  metadata := .notAllowed
  igtId := Id
  igtType := .empty
  igtAttrs := .empty
  igtMetadata := .star .notAllowed
  igt := .notAllowed
  corpusId := Id
  corpusType := .empty
  corpusAttrs := .empty
  corpusMetadata := .star .notAllowed

/-- the grammar with these names -/
def grammar (p : Names) : Grammar where
  start := corpusFile p
  defs n := if n = ANY then AnyElement else .notAllowed

/-- xigt.rnc -/
def xigt_rnc : Grammar := grammar xigtNames

/-! ### default-xigt.rnc -/

/-- default-xigt.rnc:2-5 -/
def defaultNames₁ : Names := { xigtNames with metadataType := .choice (value (lit! "xigt-meta")) .empty }

/-- default-xigt.rnc:29-64 -/
def defaultMeta : Pat :=
  let p := defaultNames₁
  .choice .notAllowed
    (.choice (metaFile { p with
        metaType := value (lit! "language")
        metaAttrs := .group (.plus (.choice (att (lit! "name") .text) (att (lit! "iso-639-3") .text))) (att (lit! "tiers") IdRefs) })
    (.choice (metaFile { p with metaType := value (lit! "date") } .text)
    (.choice (metaFile { p with metaType := value (lit! "author") } .text)
    (.choice (metaFile { p with metaType := value (lit! "source") } .text)
    (.choice (metaFile { p with
        metaType := value (lit! "source")
        metaAttrs := .group (att (lit! "ref") Id) (.opt (att (lit! "page") .text)) })
      (metaFile { p with metaType := value (lit! "comment") } .text))))))

/-- default-xigt.rnc: with its metas -/
def defaultNames₂ : Names := { defaultNames₁ with metaP := defaultMeta }

/-- default-xigt.rnc:7-27 -/
def defaultTier : Pat :=
  let p := defaultNames₂
  .choice .notAllowed
    (.choice (tierFile { p with itemType := .choice (value (lit! "original")) (value (lit! "transliteration")) } (value (lit! "phrases")))
    (.choice (tierFile p (value (lit! "words")))
    (.choice (tierFile { p with itemType := .choice (value (lit! "affix")) (value (lit! "clitic")) } (value (lit! "morphemes")))
    (.choice (tierFile { p with itemType := .choice (value (lit! "leipzig")) (value (lit! "lexeme")) } (value (lit! "glosses")))
      (tierFile p (value (lit! "translations")))))))

/-- default-xigt.rnc: with its tiers -/
def defaultNames : Names := { defaultNames₂ with tier := defaultTier }

/-- default-xigt.rnc -/
def default_rnc : Grammar := grammar defaultNames

/-! ### odin-xigt.rnc -/

/-- odin-xigt.rnc: names of Dublin Core -/
def dcName (n : Str) : Str := qual (lit! "http://purl.org/dc/elements/1.1/") n
/-- odin-xigt.rnc: names of OLAC -/
def olacName (n : Str) : Str := qual (lit! "http://www.language-archives.org/OLAC/1.1/") n
/-- odin-xigt.rnc: names of XML Schema instances -/
def xsiName (n : Str) : Str := qual (lit! "http://www.w3.org/2001/XMLSchema-instance") n

/-- `string` -/
def string : Pat := .data fun _ => True

/-- odin-xigt.rnc:11-21 -/
def languageElem (n : Str) : Pat :=
  .elem (.name (dcName n)) (.group (att (olacName (lit! "code")) string)
    (.group (att (xsiName (lit! "type")) (value (lit! "olac:language"))) .text))

/-- odin-xigt.rnc:6-49; `dateTime` is `xsd:dateTime` -/
def odinNames₁ (dateTime : Str → Prop) : Names :=
  let p := xigtNames
  { p with
    igtMetadata := metadataFile p (metaFile p (.choice (languageElem (lit! "subject")) (languageElem (lit! "language"))))
    igtAttrs := .group (att (lit! "doc-id") string) (.group (att (lit! "line-range") string)
      (.group (att (lit! "tag-types") string) (.opt (att (lit! "judgment") string))))
    tierMetadata := .choice
      (metadataFile { p with
        metadataType := value (lit! "xigt-meta")
        metaType := value (lit! "data-provenance")
        metaAttrs := .group (att (lit! "date") (.data dateTime)) (.group (att (lit! "method") string)
          (.group (att (lit! "source") string) (.opt (att (lit! "projected-from") string)))) })
      (metadataFile { p with
        metadataType := value (lit! "intent-meta")
        metaType := value (lit! "extended-data")
        metaAttrs := .group (att (lit! "date") (.data dateTime)) (att (lit! "token-type") string) })
    itemAttrs := .opt (att (lit! "judgment") string) }

/-- odin-xigt.rnc:46-53 -/
def odinTier (p : Names) : Pat :=
  tierFile { p with
    tierAttrs := att (lit! "state") (.choice (value (lit! "raw")) (.choice (value (lit! "cleaned")) (value (lit! "normalized"))))
    itemAttrs := .group p.itemAttrs (.group (att (lit! "line") string) (att (lit! "tag") string)) }
    (value (lit! "odin"))

/-- odin-xigt.rnc:66-75 -/
def bilingualTier (p : Names) : Pat :=
  tierFile { p with
    item := itemFile p (.group (att (lit! "source") AlgnExpr) (.opt (att (lit! "target") AlgnExpr))) }
    (value (lit! "bilingual-alignments")) (.group (att (lit! "source") Id) (att (lit! "target") Id))

/-- odin-xigt.rnc:77-91; `list { IdRef* }` -/
def phraseTier (p : Names) : Pat :=
  tierFile { p with
    item := itemFile p (.group (.choice (att (lit! "alignment") AlgnExpr)
      (att (lit! "children") (.data fun s => ∀ w ∈ tokens s, idRx.Mem w))) (.opt (att (lit! "content") AlgnExpr))) }
    (value (lit! "phrase-structure"))
    (.group (att (lit! "alignment") Id) (.group (att (lit! "children") Id) (.opt (att (lit! "content") Id))))

/-- odin-xigt.rnc:93-105 -/
def dependencyTier (p : Names) : Pat :=
  tierFile { p with
    item := itemFile p (.group (att (lit! "dep") AlgnExpr) (.group (.opt (att (lit! "head") AlgnExpr))
      (.opt (att (lit! "content") AlgnExpr)))) }
    (value (lit! "dependencies"))
    (.group (att (lit! "dep") Id) (.group (att (lit! "head") Id) (.opt (att (lit! "content") Id))))

/-- odin-xigt.rnc:46-105 -/
def odinTiers (p : Names) : Pat :=
  .choice .notAllowed (.choice (odinTier p) (.choice (tierFile p (value (lit! "phrases"))) (.choice (tierFile p (value (lit! "words")))
    (.choice (tierFile p (value (lit! "morphemes"))) (.choice (tierFile p (value (lit! "glosses")))
      (.choice (tierFile p (value (lit! "translations"))) (.choice (tierFile p (value (lit! "pos")))
        (.choice (bilingualTier p) (.choice (phraseTier p) (dependencyTier p))))))))))

/-- odin-xigt.rnc: with its tiers -/
def odinNames (dateTime : Str → Prop) : Names := { odinNames₁ dateTime with tier := odinTiers (odinNames₁ dateTime) }

/-- odin-xigt.rnc -/
def odin_rnc (dateTime : Str → Prop) : Grammar := grammar (odinNames dateTime)

end
end Xigt.Rng
