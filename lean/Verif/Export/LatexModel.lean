import Verif.Igt.Model
/-
Model of the LaTeX exporter, /repo/xigt/exporters/latex.py and util.py.

Not modelled: the substitutions of util.py:3-13 (regular expressions and code given in the
configuration); they are arbitrary functions here.  Messages for the log are modelled as far as
computing them can raise an exception.

Lists that are changed in place are values here.  (The rows of a delayed column are one and the same
list, latex.py:205, but no row above the current one is ever changed.)
-/

namespace Xigt.Ltx

/-! ### Escaping -/

/-- latex.py:16-27 `LATEX_CHARMAP` -/
def charmap : List (Char × Str) :=
  [('\\', lit! "\\textbackslash"), ('&', lit! "\\&"), ('%', lit! "\\%"), ('$', lit! "\\$"), ('#', lit! "\\#"),
   ('_', lit! "\\_"), ('{', lit! "\\{"), ('}', lit! "\\}"), ('~', lit! "\\textasciitilde"), ('^', lit! "\\textasciicircum")]

/-- `s.replace(c, r)` for a single character -/
def replace (c : Char) (r s : Str) : Str := s.flatMap fun x => if x = c then r else [x]

/-- latex.py:56-64 `escape` -/
def escape (s : Str) : Str := charmap.foldl (fun s p => replace p.1 p.2 s) s

/-! ### The grid -/

/-- a column: a row of items for each tier -/
abbrev Col := List (List Obj)
/-- latex.py:118-125: the columns, from left to right -/
abbrev Trellis := List Col
/-- an agendum: IDs and the items that refer to them -/
abbrev Agendum := List Str × List Obj

section
variable [Uni]

/-- latex.py:189 `ref.ids(item.alignment or item.segmentation)`; `findall(None)` is the TypeError -/
def refIds (x : Obj) : Py (List Str) :=
  match Dict.get? x.data.attrs ALIGNMENT, Dict.get? x.data.attrs SEGMENTATION with
  | some (c :: cs), _ => .ok (ids (c :: cs))
  | _, some s => .ok (ids s)
  | _, none => .error .typeError

/-- latex.py:189-190 -/
def pairs : List Obj → Py (List (List Str × Obj))
  | [] => .ok []
  | x :: xs => do
    let i ← refIds x
    let ps ← pairs xs
    .ok ((i, x) :: ps)

/-- `groupby` of consecutive pairs (latex.py:192-193) -/
def group : List (List Str × Obj) → List Agendum
  | [] => []
  | (i, x) :: ps =>
    match group ps with
    | (j, ys) :: gs => if i = j then (i, x :: ys) :: gs else (i, [x]) :: (j, ys) :: gs
    | [] => [(i, [x])]

/-- latex.py:188-194 `get_agenda` -/
def agenda (tier : Obj) : Py (List Agendum) := (pairs tier.kids).map group
end

/-- latex.py:196-199 `build_idxmap`, as pairs in order of insertion; `i` is the position of the first
column.  A column without the row is the IndexError. -/
def idxmap (depth : Nat) : Nat → Trellis → Py (List (Option Str × Nat))
  | _, [] => .ok []
  | i, c :: cs =>
    match c[depth]? with
    | none => .error .indexError
    | some row => do
      let m ← idxmap depth (i + 1) cs
      .ok (row.map (fun x => (x.data.id, i)) ++ m)

/-- `idxmap[id]`: the pair inserted last counts -/
def look (m : List (Option Str × Nat)) (i : Str) : Py Nat :=
  match m.reverse.find? (fun p => decide (p.1 = some i)) with
  | some p => .ok p.2
  | none => .error .keyError

/-- latex.py:228 `' '.join(i.id for i in row)` for a row that is not empty -/
def rowShown (row : List Obj) : Py Unit :=
  if row.all (fun x => x.data.id.isSome) then .ok () else .error .typeError

/-- the rows of a column are shown -/
def rowsShown : List (List Obj) → Py Unit
  | [] => .ok ()
  | r :: rs => do
    rowShown r
    rowsShown rs

/-- latex.py:225-236 `debug_display_trellis`, as far as it can fail; `max` of nothing is the ValueError -/
def shown : Trellis → Py Unit
  | [] => .ok ()
  | c :: cs => do
    rowsShown c
    if c = [] then .error .valueError else shown cs

/-- latex.py:152-155: an empty row is added to the columns from `idx + 1` (here `next`) to `start` -/
def advance (next start : Nat) (t : Trellis) : Trellis :=
  t.zipIdx.map fun p => if next ≤ p.2 ∧ p.2 ≤ start then p.1 ++ [[]] else p.1

/-- latex.py:201-211 `add_delayed`: each is inserted at the same place -/
def addDelayed (pos depth : Nat) : List Agendum → Trellis → Trellis
  | [], t => t
  | a :: as, t => addDelayed pos depth as (t.take pos ++ [List.replicate depth [] ++ [a.2]] ++ t.drop pos)

/-- latex.py:218-220: columns as one, row by row -/
def mergeCols (cs : Trellis) : Col :=
  (List.range ((cs.map List.length).foldr max 0)).map fun j => cs.flatMap fun c => c.getD j []

/-- latex.py:213-223 `merge_columns` -/
def mergeColumns (t : Trellis) (s e : Nat) : Trellis := t.take s ++ [mergeCols ((t.drop s).take (e - s))] ++ t.drop e

/-- latex.py:172 `trellis[idx][depth].extend(items)` -/
def extend (t : Trellis) (idx depth : Nat) (items : List Obj) : Py Trellis :=
  match t[idx]? with
  | none => .error .indexError
  | some col =>
    match col[depth]? with
    | none => .error .indexError
    | some row => .ok (t.set idx (col.set depth (row ++ items)))

/-- the variables of the loop (latex.py:134-136); `next` is `idx + 1` -/
structure St where
  t : Trellis
  delay : List Agendum
  next : Nat
  map : List (Option Str × Nat)

/-- latex.py:156-163; the numbers are the new `next`, `start` and `end` -/
def fill (s : St) (start stop next depth : Nat) (t : Trellis) : Py (Trellis × Nat × Nat × Nat) :=
  if s.delay = [] then .ok (t, next, start, stop)
  else do
    let n := s.delay.length
    let t := addDelayed start depth s.delay t
    let _ ← idxmap (depth - 1) 0 t
    .ok (t, next + n, start + n, stop + n)

/-- latex.py:164-169 -/
def merge (start stop depth : Nat) (t : Trellis) : Py Trellis :=
  if start = stop then .ok t
  else do
    let t := mergeColumns t start (stop + 1)
    let _ ← idxmap (depth - 1) 0 t
    shown t
    .ok t

/-- latex.py:146-174: an agendum with IDs.  The index map is always built again here; where the code
keeps it, the columns and their rows above the current one are the same. -/
def place (depth : Nat) (s : St) (i : Str) (is : List Str) (items : List Obj) : Py St := do
  let start ← look s.map i
  let stop ← look s.map ((i :: is).getLast (by simp))
  let next := max s.next (start + 1)
  let t := advance s.next start s.t
  let r ← fill s start stop next depth t
  let t ← merge r.2.2.1 r.2.2.2 depth r.1
  let m ← idxmap (depth - 1) 0 t
  let t ← extend t (r.2.1 - 1) depth items
  .ok ⟨t, [], r.2.1, m⟩

/-- latex.py:137-174: one agendum -/
def step (depth : Nat) (s : St) (a : Agendum) : Py St := do
  shown s.t
  match a.1 with
  | [] => .ok { s with delay := s.delay ++ [a] }
  | i :: is => place depth s i is a.2

/-- latex.py:137-174: the loop -/
def run (depth : Nat) : St → List Agendum → Py St
  | s, [] => .ok s
  | s, a :: as => do
    let s ← step depth s a
    run depth s as

/-- latex.py:175-182: what remains -/
def finish (depth : Nat) (s : St) : Trellis :=
  (addDelayed s.t.length depth s.delay s.t).zipIdx.map fun p => if s.next ≤ p.2 then p.1 ++ [[]] else p.1

/-- latex.py:131-186 `align_tier` -/
def alignTier [Uni] (t : Trellis) (tier : Obj) : Py Trellis :=
  match t with
  | [] => .error .indexError
  | c :: cs => do
    let a ← agenda tier
    let m ← idxmap (c.length - 1) 0 (c :: cs)
    let s ← run c.length ⟨c :: cs, [], 0, m⟩ a
    .ok (finish c.length s)

/-- latex.py:126-127 -/
def alignTiers [Uni] : Trellis → List Obj → Py Trellis
  | t, [] => .ok t
  | t, x :: xs => do
    let t ← alignTier t x
    alignTiers t xs

/-- latex.py:117-128 `group_alignments` -/
def groupAlignments [Uni] : List Obj → Py Trellis
  | [] => .error .indexError
  | x :: xs => alignTiers (x.kids.map fun i => [[i]]) xs

/-! ### Exporting -/

/-- the configuration (latex.py:47-53).  `itemSub` and `tierSub` are the substitutions (util.py:3-13) of a
text in a tier of a type; without substitutions they give the text back.  `lower` is `str.lower`. -/
structure Cfg where
  tierTypes : List Str := [lit! "words", lit! "morphemes", lit! "glosses"]
  itemSub : Str → Str → Str := fun s _ => s
  tierSub : Str → Str → Str := fun s _ => s
  lower : Str → Str

/-- latex.py:77-79 -/
def wanted (cfg : Cfg) (t : Obj) : Bool :=
  match t.data.type with
  | none => false
  | some ty => cfg.tierTypes.contains (cfg.lower ty)

/-- `item.get_content() or '{}'`, escaped (latex.py:98, 109) -/
def text : Option Str → Str
  | some (c :: cs) => escape (c :: cs)
  | _ => escape (lit! "{}")

/-- latex.py:97-101: the items of a row of a column; `tier` is the tier they are in -/
def rowTexts [Uni] (cfg : Cfg) (fuel : Nat) (igt tier : Obj) : List Obj → Py (List Str)
  | [] => .ok []
  | x :: xs => do
    let v ← value fuel (some igt) (some tier) x
    let ts ← rowTexts cfg fuel igt tier xs
    .ok (cfg.itemSub (text v) (tier.data.type.getD []) :: ts)

/-- latex.py:95-103: a cell; `col[i]` may be the IndexError -/
def cell [Uni] (cfg : Cfg) (fuel : Nat) (igt tier : Obj) (i : Nat) (col : Col) : Py Str :=
  match col[i]? with
  | none => .error .indexError
  | some xs => do
    let ts ← rowTexts cfg fuel igt tier xs
    .ok ('{' :: join [' '] ts ++ ['}'])

/-- latex.py:94-103 -/
def cells [Uni] (cfg : Cfg) (fuel : Nat) (igt tier : Obj) (i : Nat) : Trellis → Py (List Str)
  | [] => .ok []
  | c :: cs => do
    let x ← cell cfg fuel igt tier i c
    let xs ← cells cfg fuel igt tier i cs
    .ok (x :: xs)

/-- latex.py:91-104: the rows from `i` on (`n` of them); `tiers[i]` may be the IndexError -/
def rowLines [Uni] (cfg : Cfg) (fuel : Nat) (igt : Obj) (tiers : List Obj) (t : Trellis) : Nat → Nat → Py (List Str)
  | 0, _ => .ok []
  | n + 1, i =>
    match tiers[i]? with
    | none => .error .indexError
    | some tier => do
      let xs ← cells cfg fuel igt tier i t
      let ls ← rowLines cfg fuel igt tiers t n (i + 1)
      .ok (cfg.tierSub (join [' '] xs ++ lit! "\\\\") (tier.data.type.getD []) :: ls)

/-- latex.py:105-112: the translations -/
def transLines [Uni] (cfg : Cfg) (fuel : Nat) (igt : Obj) : List Obj → Py (List Str)
  | [] => .ok []
  | t :: ts =>
    match decide (t.data.type = some (lit! "translations")), t.kids with
    | true, x :: _ => do
      let v ← value fuel (some igt) (some t) x
      let ls ← transLines cfg fuel igt ts
      .ok ((lit! "\\trans " ++ cfg.tierSub (text v) (lit! "translations")) :: ls)
    | _, _ => transLines cfg fuel igt ts

/-- latex.py:84-114: the block for the tiers -/
def block [Uni] (cfg : Cfg) (fuel : Nat) (igt : Obj) (tiers : List Obj) (t : Trellis) : Py (List Str) :=
  match t with
  | [] => .error .indexError
  | c :: _ => do
    let rows ← rowLines cfg fuel igt tiers t c.length 0
    let trans ← transLines cfg fuel igt igt.kids
    .ok ([lit! "\\begin{exe}\\small", lit! "\\ex\\g" ++ List.replicate tiers.length 'l'] ++ rows ++ trans ++ [lit! "\\end{exe}"])

/-- latex.py:72-114 `export_igt`; tiers without ID are the TypeError of `join` (latex.py:83) -/
def exportIgt [Uni] (cfg : Cfg) (fuel : Nat) (igt : Obj) : Py Str :=
  let tiers := igt.kids.filter (wanted cfg)
  if tiers.length < 2 then .ok (lit! "%\n% cannot export IGT " ++ igt.data.id.getD (lit! "None") ++ lit! "\n%")
  else if tiers.all (fun t => t.data.id.isSome) then do
    let t ← groupAlignments tiers
    let ls ← block cfg fuel igt tiers t
    .ok (join ['\n'] ls)
  else .error .typeError

end Xigt.Ltx
