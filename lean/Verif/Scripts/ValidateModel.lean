import Verif.Ref.Model
import Verif.Igt.Model
import Verif.Xml.Stream
import Verif.Scripts.QueryModel
/-
Model of /repo/xigt/scripts/xigt_validate.py.

Corpora are trees (lookups are searches, as in `Verif.Igt.Model`); tiers are in igts and items in tiers.
A record is the level with the kind of message and the texts put into it; the message itself is built
only to see whether formatting it fails.

A corpus that was opened (`Opened`) gives its igts one after the other, possibly an exception (the
script reads files in transient mode, xigt_validate.py:396; model.py:95-107).

Simplification: in format strings (`fmtCheck`) only plain field names are known.  What is printed is
modelled in Scripts/ValidatePrint.lean.
-/

namespace Xigt.Vld

/-- logging.ERROR, WARNING, INFO -/
def ERROR : Nat := 40
/-- logging.WARNING -/
def WARNING : Nat := 30
/-- logging.INFO -/
def INFO : Nat := 20

/-- the messages, with the texts inserted (xigt_validate.py:210-315) -/
inductive Msg where
  | noId                                             -- 212
  | notUnique                                        -- 216
  | noType                                           -- 220
  | tierRef (ra : Str)                               -- 225
  | refattrs (l : List Str)                          -- 235
  | idsMissing (ra tier : Str) (l : List Str)        -- 250
  | spansOut (l : List Str)                          -- 280
  | overlap (l : List Str)                           -- 312
  deriving DecidableEq

/-- records (xigt_validate.py:172-182) -/
structure Rec where
  level : Nat
  msg : Msg
  deriving DecidableEq

/-- reports (xigt_validate.py:52-53, 329): `{}` or a dict with records and children -/
inductive Report where
  | empty
  | node (records : List Rec) (children : List Report)

/-- `sep.join(l)` -/
def joinWith (sep : Str) : List Str → Str
  | [] => []
  | [x] => x
  | x :: y :: l => x ++ sep ++ joinWith sep (y :: l)

/-- the format strings, after inserting texts with the first `format` -/
def Msg.template : Msg → Str
  | .noId => lit! "Each {name} {modal} specify an id."
  | .notUnique => lit! "The given id for each {name} {modal} be unique within its {scope}."
  | .noType => lit! "Each {name} {modal} specify a type."
  | .tierRef ra => lit! "The reference attribute \"" ++ ra ++ lit! "\" {modal} select an available <tier> id."
  | .refattrs l => lit! "Reference attributes on <item> elements {modal} be specified on their <tier> as well. The following are not: " ++ joinWith (lit! ", ") l
  | .idsMissing ra tier l => lit! "The \"" ++ ra ++ lit! "\" alignment expression {modal} select available <item> ids from the aligned <tier> (\"" ++ tier ++ lit! "\"). The following are unavailable: " ++ joinWith (lit! ", ") l
  | .spansOut l => lit! "Alignment expressions {modal} select spans within the aligned <item> elements. The following spans are not valid: " ++ joinWith (lit! ", ") l
  | .overlap l => lit! "Alignment expression spans {modal} NOT overlap. Spans for the following <item> elements overlap: " ++ joinWith (lit! ", ") l

/-- the keyword arguments of `format` (xigt_validate.py:21-30, 42; the corpus also has `ids`) -/
def fmtKeys : List Str := [lit! "modal", lit! "id", lit! "index", lit! "name", lit! "scope"]

/-- `s.format(**kwargs)`, whether it fails; `n` bounds the length -/
def fmtCheckN : Nat → Str → Py Unit
  | 0, _ => .ok ()
  | _, [] => .ok ()
  | n + 1, '{' :: '{' :: cs => fmtCheckN n cs
  | n + 1, '}' :: '}' :: cs => fmtCheckN n cs
  | _ + 1, '}' :: _ => .error .valueError
  | n + 1, '{' :: cs =>
    if '}' ∈ cs then
      if cs.takeWhile (· ≠ '}') ∈ fmtKeys then fmtCheckN n ((cs.dropWhile (· ≠ '}')).drop 1)
      else .error .keyError
    else .error .valueError
  | n + 1, _ :: cs => fmtCheckN n cs

/-- `s.format(**kwargs)`, whether it fails -/
def fmtCheck (s : Str) : Py Unit := fmtCheckN s.length s

/-- xigt_validate.py:32-44 `validate_condition`; every condition gives None or a string -/
def cond (level : Nat) (r : Py (Option Msg)) : Py (List Rec) := do
  match ← r with
  | none => .ok []
  | some m =>
    let _ ← fmtCheck m.template
    .ok [⟨level, m⟩]

/-- xigt_validate.py:50-51: the records for the conditions, in order -/
def conds : List (Py (List Rec)) → Py (List Rec)
  | [] => .ok []
  | r :: rs => do
    let a ← r
    let b ← conds rs
    .ok (a ++ b)

/-- xigt_validate.py:15 -/
def refAttrs : List Str := [ALIGNMENT, SEGMENTATION, CONTENT]

/-! ### Conditions -/

/-- `bool(getattr(obj, 'id', None))` -/
def truthy : Option Str → Bool
  | some (_ :: _) => true
  | _ => false

/-- xigt_validate.py:210-212 `has_id` -/
def hasId (x : Obj) : Option Msg := if truthy x.data.id then none else some .noId

/-- xigt_validate.py:214-216 `id_is_unique` -/
def idIsUnique (seen : List Str) (x : Obj) : Option Msg :=
  match x.data.id with
  | some s => if s ≠ [] ∧ s ∈ seen then some .notUnique else none
  | none => none

/-- xigt_validate.py:184-186 `add_id` -/
def addId (seen : List Str) (x : Obj) : List Str :=
  match x.data.id with
  | some s => seen ++ [s]
  | none => seen

/-- xigt_validate.py:218-220 `has_type` -/
def hasType (x : Obj) : Option Msg := if truthy x.data.type then none else some .noType

section
variable [Uni]

/-- xigt_validate.py:222-226 `reference_id_in_igt` -/
def refIdInIgt (igt tier : Obj) (ra : Str) : Option Msg :=
  match Dict.get? tier.data.attrs ra with
  | some s => if s ≠ [] ∧ (contGet igt.kids s).isNone then some (.tierRef ra) else none
  | none => none

/-- xigt_validate.py:228-237 `item_refattrs_specified_on_tier`; sorted -/
def itemRefattrs (tier : Obj) : Option Msg :=
  let missing := [ALIGNMENT, CONTENT, SEGMENTATION].filter fun ra =>
    tier.kids.any (fun i => Dict.has i.data.attrs ra) && !Dict.has tier.data.attrs ra
  if missing ≠ [] then some (.refattrs missing) else none

/-- xigt_validate.py:188-192 `get_referred_tier`, or none if that is false (242: an empty tier is) -/
def referredTier (igt tier : Obj) (ra : Str) : Option Obj :=
  match Dict.get? tier.data.attrs ra with
  | some s => if s = [] then none else
      match contGet igt.kids s with
      | some u => if u.kids = [] then none else some u
      | none => none
  | none => none

/-- the reference of an item and the referred tier, unless one of them is false
(xigt_validate.py:240-243, 257-260, 286-289) -/
def itemRef (igt tier item : Obj) (ra : Str) : Option (Str × Obj) :=
  match Dict.get? item.data.attrs ra, referredTier igt tier ra with
  | some e, some u => if e = [] then none else some (e, u)
  | _, _ => none

/-- `str(reftier.id)` -/
def strId : Option Str → Str
  | some s => s
  | none => lit! "None"

/-- xigt_validate.py:239-254 `algnexpr_ids_in_referred_tier` -/
def idsInTier (igt tier item : Obj) (ra : Str) : Option Msg :=
  match itemRef igt tier item ra with
  | none => none
  | some (e, u) =>
    let missing := (ids e).filter fun i => (contGet u.kids i).isNone
    if missing ≠ [] then some (.idsMissing ra (strId u.data.id) missing) else none

/-- xigt_validate.py:16 -/
def isDelim (s : Str) : Bool := s == lit! "+" || s == lit! ","

/-- xigt_validate.py:262-277: the loop over the spans -/
def spansOutLoop (depth : Nat) (igt u : Obj) : List Str → Py (List Str)
  | [] => .ok []
  | s :: ss =>
    if isDelim s then spansOutLoop depth igt u ss
    else match selectionRe.match? s with
      | none => .error .attributeError
      | some m =>
        if m.2.group 3 = [] then spansOutLoop depth igt u ss
        else match spanRe.match? (m.2.group 3) with
          | none => .error .attributeError
          | some r => do
            let a ← pyInt (r.2.group 2)
            let b ← pyInt (r.2.group 3)
            match contGet u.kids (m.2.group 2) with
            | none => spansOutLoop depth igt u ss
            | some t =>
              match ← value depth (some igt) (some u) t with
              | none => .error .typeError
              | some v =>
                let l ← spansOutLoop depth igt u ss
                .ok (if a > v.length ∨ b > v.length then s :: l else l)

/-- xigt_validate.py:256-283 `algnexpr_spans_in_aligned_item` -/
def spansInItem (depth : Nat) (igt tier item : Obj) (ra : Str) : Py (Option Msg) :=
  match itemRef igt tier item ra with
  | none => .ok none
  | some (e, u) => do
    let l ← spansOutLoop depth igt u (spans e)
    .ok (if l ≠ [] then some (.spansOut l) else none)

/-- `counts.update(range(0, n))` -/
def addRange (d : Dict Nat Nat) (n : Nat) : Dict Nat Nat := (List.range n).foldl Qry.bump d

/-- xigt_validate.py:291-302: the loop over the spans (which are strings, so 304-305 are never reached) -/
def overlapLoop (depth : Nat) (igt u : Obj) :
    List Str → Dict Str (Dict Nat Nat) → Py (Dict Str (Dict Nat Nat))
  | [], d => .ok d
  | s :: ss, d =>
    if isDelim s then overlapLoop depth igt u ss d
    else match contGet u.kids s with
      | none => overlapLoop depth igt u ss d
      | some t => do
        match ← value depth (some igt) (some u) t with
        | none => overlapLoop depth igt u ss d
        | some v => overlapLoop depth igt u ss (Dict.set d s (addRange ((Dict.get? d s).getD []) v.length))

/-- xigt_validate.py:285-315 `algnexpr_spans_do_not_overlap` -/
def spansOverlap (depth : Nat) (igt tier item : Obj) (ra : Str) : Py (Option Msg) :=
  match itemRef igt tier item ra with
  | none => .ok none
  | some (e, u) => do
    let d ← overlapLoop depth igt u (spans e) []
    let l := (d.filter fun p => p.2.any fun c => decide (c.2 > 1)).map Prod.fst
    .ok (if l ≠ [] then some (.overlap l) else none)

/-! ### Validators -/

/-- xigt_validate.py:154-167 `validate_item` -/
def validateItem (depth : Nat) (igt tier item : Obj) : Py (List Rec) :=
  conds (cond WARNING (.ok (hasId item)) :: refAttrs.flatMap fun ra =>
    [cond ERROR (.ok (idsInTier igt tier item ra)), cond WARNING (spansInItem depth igt tier item ra),
     cond WARNING (spansOverlap depth igt tier item ra)])

/-- xigt_validate.py:136-149: the items of a tier -/
def validateItems (depth : Nat) (igt tier : Obj) : List Obj → List Str → Py (List Report)
  | [], _ => .ok []
  | x :: xs, seen => do
    let rs ← validateItem depth igt tier x
    let us ← cond ERROR (.ok (idIsUnique seen x))
    let l ← validateItems depth igt tier xs (addId seen x)
    .ok (.node (rs ++ us) [] :: l)

/-- xigt_validate.py:123-151 `validate_tier` -/
def validateTier (depth : Nat) (igt tier : Obj) : Py Report := do
  let rs ← conds ([cond WARNING (.ok (hasId tier)), cond WARNING (.ok (hasType tier)),
    cond ERROR (.ok (itemRefattrs tier))] ++ refAttrs.map fun ra => cond ERROR (.ok (refIdInIgt igt tier ra)))
  let cs ← validateItems depth igt tier tier.kids []
  .ok (.node rs cs)

/-- `report['records'].extend(rs)` -/
def extend (rs : List Rec) : Report → Report
  | .empty => .empty
  | .node records children => .node (records ++ rs) children

/-- xigt_validate.py:109-116: item IDs within the igt; the IDs seen so far are passed on -/
def igtItems : List (Obj × Report) → List Str → Py (List Report × List Str)
  | [], seen => .ok ([], seen)
  | (x, r) :: xs, seen => do
    let us ← cond ERROR (.ok (idIsUnique seen x))
    let p ← igtItems xs (addId seen x)
    .ok (extend us r :: p.1, p.2)

/-- the children of a report -/
def Report.children : Report → List Report
  | .empty => []
  | .node _ cs => cs
/-- `report.get('records', [])` (xigt_validate.py:338) -/
def Report.records : Report → List Rec
  | .empty => []
  | .node rs _ => rs

/-- xigt_validate.py:95-119: the tiers of an igt -/
def validateTiers (depth : Nat) (igt : Obj) : List Obj → List Str → List Str → Py (List Report)
  | [], _, _ => .ok []
  | t :: ts, tseen, iseen => do
    let r ← validateTier depth igt t
    let us ← cond ERROR (.ok (idIsUnique tseen t))
    let p ← igtItems (t.kids.zip r.children) iseen
    let l ← validateTiers depth igt ts (addId tseen t) p.2
    .ok (.node (r.records ++ us) p.1 :: l)

/-- xigt_validate.py:86-121 `validate_igt` -/
def validateIgt (depth : Nat) (igt : Obj) : Py Report := do
  let rs ← conds [cond WARNING (.ok (hasId igt))]
  let cs ← validateTiers depth igt igt.kids [] []
  .ok (.node rs cs)

/-- xigt_validate.py:68-81: the igts of a corpus -/
def validateIgts (depth : Nat) : List (Py Obj) → List Str → Py (List Report)
  | [], _ => .ok []
  | x :: xs, seen => do
    let x ← x
    let r ← validateIgt depth x
    let us ← cond ERROR (.ok (idIsUnique seen x))
    let l ← validateIgts depth xs (addId seen x)
    .ok (extend us r :: l)

/-- xigt_validate.py:58-83 `validate_corpus` -/
def validateCorpus (depth : Nat) (seen : List Str) (xc : Opened) : Py Report := do
  let rs ← conds [cond INFO (.ok (hasId xc.corpus)), cond ERROR (.ok (idIsUnique seen xc.corpus))]
  let cs ← validateIgts depth xc.igts []
  .ok (.node rs cs)

end

/-! ### Filtering -/

/-- `bool(report)` -/
def Report.isTrue : Report → Bool
  | .empty => false
  | .node _ _ => true

/-- xigt_validate.py:320-323 `report_is_empty` -/
def isEmpty (minlevel : Option Nat) (r : Report) : Bool :=
  !((r.records.any fun x => match minlevel with
      | none => true
      | some l => decide (x.level ≥ l)) || r.children.any Report.isTrue)

mutual
/-- xigt_validate.py:325-330 `filter_empty_reports` -/
def filterEmpty (minlevel : Nat) : Report → Report
  | .empty => .empty
  | .node rs cs =>
    if isEmpty (some minlevel) (.node rs (filterEmptyL minlevel cs)) then .empty
    else .node rs (filterEmptyL minlevel cs)
/-- xigt_validate.py:326-327: the children -/
def filterEmptyL (minlevel : Nat) : List Report → List Report
  | [] => []
  | c :: cs => filterEmpty minlevel c :: filterEmptyL minlevel cs
end

section
variable [Uni]

/-- xigt_validate.py:390-415: the files; what `xigtxml.load` gives for each.  A ParseError from it (not
one while going through the igts) is printed only. -/
def runFiles (level depth : Nat) : List (Py Opened) → List Str → Py (List Bool)
  | [], _ => .ok []
  | .error e :: fs, seen => if e = .parseError then runFiles level depth fs seen else .error e
  | .ok xc :: fs, seen => do
    let r ← validateCorpus depth seen xc
    let bs ← runFiles level depth fs (addId seen xc.corpus)
    .ok (isEmpty none (filterEmpty level r) :: bs)

/-- xigt_validate.py:389-416 `run` -/
def run (level depth : Nat) (files : List (Py Opened)) : Py Bool := do
  let passed ← runFiles level depth files []
  .ok (passed.all id)

end
end Xigt.Vld
