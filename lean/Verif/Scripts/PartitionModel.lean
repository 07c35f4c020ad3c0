import Verif.Path.Model
import Verif.Corpus.Model
/-
Model of /repo/xigt/scripts/xigt_partition.py.

A file is what loading it yields: the corpus without IGTs (transient mode) and the IGTs in order.
Loading and writing can fail in any way (`PEnv.load`, `PEnv.dump`).  An output file contains the corpus
given to `xigtxml.dump` (for what that means see C40).

Simplifications: the output directory is new (xigt_partition.py:29-37 ends the program otherwise) and
no output file is one of the input files; key paths do not lead to the corpus (which in transient mode
would use up further IGTs).
-/

namespace Xigt.Part

/-- xigt_partition.py:40 a file that was loaded: the corpus and its IGTs -/
structure PFile where
  root : Obj
  igts : List Obj

/-- the arguments and the file system -/
structure PEnv where
  cfg : XP.PCfg
  keyPath : Str
  defaultKey : Str
  outdir : Str
  load : Str → Py PFile
  dump : Str → Obj → Py Unit

/-- xigt_partition.py:18: key : filename : igt-index; sets as lists -/
abbrev Idx := Dict (Option Str) (Dict Str (List Nat))

/-- xigt_partition.py:43 `idx[idx_key][fn].add(i)` with the defaults of line 18 -/
def idxAdd (idx : Idx) (key : Option Str) (fn : Str) (i : Nat) : Idx :=
  let d := (idx.get? key).getD []
  let s := (d.get? fn).getD []
  idx.set key (d.set fn (if i ∈ s then s else s ++ [i]))

/-- xigt_partition.py:45-46 `normalize_key` -/
def normalizeKey (key : Str) : Str := key.map fun c => if c = ':' then '-' else c

/-- `os.path.join(a, b)` -/
def pathJoin (a b : Str) : Str :=
  if b.head? = some '/' then b
  else if a = [] ∨ a.getLast? = some '/' then a ++ b
  else a ++ '/' :: b

/-- xigt_partition.py:25-27: the output file for a key -/
def outName (env : PEnv) (key : Option Str) : Str :=
  pathJoin env.outdir (normalizeKey (key.getD env.defaultKey) ++ lit! ".xml")

section
variable [Uni]

/-- xigt_partition.py:42-43: the result as a key; objects and lists are not hashable -/
def keyOf (env : PEnv) (f : PFile) (igt : Obj) : Py (Option Str) := do
  match ← XP.find env.cfg (.node igt [f.root]) env.keyPath with
  | .none => .ok none
  | .str s => .ok (some s)
  | _ => .error .typeError

/-- xigt_partition.py:41-43: the loop of `index` -/
def indexLoop (env : PEnv) (fn : Str) (f : PFile) : Nat → List Obj → Idx → Py Idx
  | _, [], idx => .ok idx
  | i, x :: xs, idx => do
    let k ← keyOf env f x
    indexLoop env fn f (i + 1) xs (idxAdd idx k fn i)

/-- xigt_partition.py:39-43 `index` -/
def index (env : PEnv) (fn : Str) (idx : Idx) : Py Idx := do
  let f ← env.load fn
  indexLoop env fn f 0 f.igts idx

/-- xigt_partition.py:20-22 -/
def indexAll (env : PEnv) : List Str → Idx → Py Idx
  | [], idx => .ok idx
  | fn :: fns, idx => do
    let idx ← index env fn idx
    indexAll env fns idx

end

/-- `igt for i, igt in enumerate(xs) if i in s` -/
def pick (s : List Nat) : Nat → List Obj → List Obj
  | _, [] => []
  | i, x :: xs => if i ∈ s then x :: pick s (i + 1) xs else pick s (i + 1) xs

/-- xigt_partition.py:50-54 -/
def collect (env : PEnv) : Dict Str (List Nat) → List Obj → Py (List Obj)
  | [], held => .ok held
  | (fn, s) :: d, held => do
    let f ← env.load fn
    let held ← corpusExtend held (pick s 0 f.igts)
    collect env d held

/-- xigt_partition.py:49, 55-56 -/
def newCorpus (igts : List Obj) : Obj :=
  .mk { cls := .corpus, nsmap := igts.head?.map fun x => x.data.nsmap.getD [] } [] igts

/-- xigt_partition.py:48-57 `write`; `out` are the files written so far -/
def write (env : PEnv) (name : Str) (d : Dict Str (List Nat)) (out : Dict Str Obj) : Py (Dict Str Obj) := do
  let igts ← collect env d []
  env.dump name (newCorpus igts)
  .ok (out.set name (newCorpus igts))

/-- xigt_partition.py:23-27 -/
def writeAll (env : PEnv) : Idx → Dict Str Obj → Py (Dict Str Obj)
  | [], out => .ok out
  | (key, d) :: idx, out => do
    let out ← write env (outName env key) d out
    writeAll env idx out

/-- xigt_partition.py:12-27 `run`: the output files -/
def run [Uni] (env : PEnv) (infiles : List Str) : Py (Dict Str Obj) := do
  let idx ← indexAll env infiles []
  writeAll env idx []

end Xigt.Part
