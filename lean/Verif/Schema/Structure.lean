import Verif.Schema.Relax
/-
The schema /repo/schema/xigt-structure.rnc, definition by definition.
-/

namespace Xigt.Rng
section
variable [Uni] [Xsd]

/-- `[\-_.\w]` -/
def idCh (c : Char) : Bool := c == '-' || c == '_' || c == '.' || Xsd.word c

/-- `[a-zA-Z]` -/
def letter (c : Char) : Bool := ('a' ≤ c && c ≤ 'z') || ('A' ≤ c && c ≤ 'Z')

/-- `[a-zA-Z][\-_.\w]*` -/
def idRx : Rx := .seq (.cls letter) (.star (.cls idCh))

/-- `[,+]` -/
def delimRx : Rx := .cls fun c => c == ',' || c == '+'

/-- `\d+:\d+` -/
def spanRx : Rx := .seq (.plus (.cls Xsd.digit)) (.seq (.chr ':') (.plus (.cls Xsd.digit)))

/-- `[a-zA-Z][\-_.\w]*(\[\d+:\d+([,+]\d+:\d+)*\])?` -/
def selRx : Rx := .seq idRx (.opt (.seq (.chr '[') (.seq spanRx (.seq (.star (.seq delimRx spanRx)) (.chr ']')))))

/-- xigt-structure.rnc:6-8, the pattern -/
def algnRx : Rx := .seq selRx (.star (.seq delimRx selRx))

/-- xigt-structure.rnc:4 `Id` -/
def Id : Pat := .data idRx.Mem

/-- xigt-structure.rnc:6-8 `AlgnExpr` -/
def AlgnExpr : Pat := .data algnRx.Mem

/-- xigt-structure.rnc:13 -/
def IdAttr : Pat := .attr (.name (lit! "id")) Id

/-- xigt-structure.rnc:14 -/
def TypeAttr : Pat := .attr (.name (lit! "type")) .text

/-- xigt-structure.rnc:15-17 -/
def RefAttrs : Pat :=
  .choice (.group (.opt (.attr (.name (lit! "alignment")) AlgnExpr)) (.opt (.attr (.name (lit! "content")) AlgnExpr)))
    (.opt (.attr (.name (lit! "segmentation")) AlgnExpr))

def reserved : List Str := [lit! "id", lit! "type", lit! "alignment", lit! "content", lit! "segmentation"]

/-- xigt-structure.rnc:18 -/
def AnyAttr : Pat := .attr (.except reserved) .text

def ANY : Str := lit! "AnyElement"

/-- xigt-structure.rnc:45-49 -/
def AnyElement : Pat := .elem .any (.star (.choice (.attr .any .text) (.choice .text (.ref ANY))))

/-- xigt-structure.rnc:44 -/
def MetaContent : Pat := .choice .text (.star (.ref ANY))

/-- xigt-structure.rnc:38-43 -/
def Meta : Pat := .elem (.name (lit! "meta")) (.group (.opt IdAttr) (.group (.opt TypeAttr) (.group (.star AnyAttr) MetaContent)))

/-- xigt-structure.rnc:31-36 -/
def Metadata : Pat :=
  .elem (.name (lit! "metadata")) (.group (.opt IdAttr) (.group (.opt TypeAttr) (.group (.star AnyAttr) (.star Meta))))

/-- xigt-structure.rnc:68-74 -/
def Item : Pat :=
  .elem (.name (lit! "item")) (.group IdAttr (.group (.opt TypeAttr) (.group RefAttrs (.group (.star AnyAttr) .text))))

/-- xigt-structure.rnc:59-66 -/
def Tier : Pat :=
  .elem (.name (lit! "tier")) (.group IdAttr (.group TypeAttr (.group RefAttrs (.group (.star AnyAttr) (.group (.star Metadata) (.star Item))))))

/-- xigt-structure.rnc:51-57 -/
def Igt : Pat :=
  .elem (.name (lit! "igt")) (.group IdAttr (.group (.opt TypeAttr) (.group (.star AnyAttr) (.group (.star Metadata) (.star Tier)))))

/-- xigt-structure.rnc:24-29 -/
def XigtCorpus : Pat :=
  .elem (.name (lit! "xigt-corpus")) (.group (.opt IdAttr) (.group (.opt TypeAttr) (.group (.star Metadata) (.star Igt))))

/-- the grammar; only `AnyElement` is recursive -/
def structure_rnc : Grammar where
  start := XigtCorpus
  defs n := if n = ANY then AnyElement else .notAllowed

end
end Xigt.Rng
