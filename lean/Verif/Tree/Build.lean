import Verif.Tree.Model
import Verif.Ref.Model
/-
The constructors of the model classes as far as they can fail: IDs (mixins.py:209-217), names of
MetaChild (metadata.py:16, 177-179) and repeated IDs in a container (mixins.py:103-107, 131-137).
-/

namespace Xigt
variable [Uni]

/-- metadata.py:16 `name_re = ^[^\W\d][-.\w]*$` without the `$`, which also allows a final newline -/
def nameChars : Str → Bool
  | [] => false
  | c :: cs => Uni.isWord c && !Uni.isDigit c && cs.all fun c => c = '-' || c = '.' || Uni.isWord c

/-- metadata.py:16, 177 `name_re.match(name)` -/
def nameOK (s : Str) : Bool :=
  nameChars s || (s.getLast? == some '\n' && nameChars s.dropLast)

/-- `extend` (mixins.py:103-137): raises on the first ID that is used twice -/
def dupId : List Obj → Bool
  | [] => false
  | x :: xs => (decide (x.data.id ≠ none) && xs.any fun y => decide (y.data.id = x.data.id)) || dupId xs

/-- constructing an object of the model classes from its parts: XigtCorpus (model.py:69-81), Igt
(122-137), Tier (254-271), Item (325-339), Metadata (metadata.py:75-98), Meta (132-142), MetaChild
(169-182).  Which of several errors is raised is not modelled precisely. -/
def construct (d : Data) (md kids : List Obj) : Py Obj :=
  if d.id.all idAccepted = false then .error .valueError
  else if d.name.all nameOK = false then .error .valueError
  else if dupId md || dupId kids then .error .xigtError
  else .ok (.mk d md kids)

end Xigt
