import Verif.Scripts.QueryFile
import Verif.Igt.ValueProps
/-
C127: `repr()` of objects, /repo/xigt/model.py:83-86, 139-142, 273-276, 341-344 and metadata.py:100-103, 144-147, 184-187, and
`xigt query --find`, which prints objects in this way.

Simplifications: `str(id(self))` is a parameter; corpora are in full mode.
-/

set_option linter.unusedSectionVars false

namespace Xigt
section
variable [Uni]

/-- `str(s or '--')` -/
def orDashes : Option Str → Str
  | some (c :: cs) => c :: cs
  | _ => lit! "--"

/-- `'{}'.format(s)` of a string or None -/
def orNone : Option Str → Str
  | some s => s
  | none => lit! "None"

/-- `__repr__` (model.py:83-86, 139-142, 273-276, 341-344, metadata.py:100-103, 144-147, 184-187); `up` are the objects around it,
from the inside, and `depth` the depth of recursion `value()` may reach -/
def reprObj (addr : Obj → Str) (depth : Nat) (x : Obj) (up : List Obj) : Py Str :=
  let at' := lit! " at " ++ addr x ++ lit! ">"
  let i := orDashes x.data.id
  let n := natStr x.kids.length
  match x.cls with
  | .corpus => .ok (lit! "<XigtCorpus object (id: " ++ i ++ lit! ") with " ++ n ++ lit! " Igts" ++ at')
  | .igt => .ok (lit! "<Igt object (id: " ++ i ++ lit! ") with " ++ n ++ lit! " Tiers" ++ at')
  | .tier => .ok (lit! "<Tier object (id: " ++ i ++ lit! "; type: " ++ orNone x.data.type ++ lit! ") with " ++ n ++ lit! " Items" ++ at')
  | .item => (value depth up[1]? up[0]? x).map fun v =>
      lit! "<Item object (id: " ++ i ++ lit! ") with value \"" ++ orNone v ++ lit! "\"" ++ at'
  | .metadata => .ok (lit! "<Metadata object (id: " ++ i ++ lit! ") with " ++ n ++ lit! " Metas" ++ at')
  | .metaC => .ok (lit! "<Meta object (id: " ++ i ++ lit! ")" ++ at')
  | .metaChild => .ok (lit! "<MetaChild object (name: " ++ orDashes x.data.name ++ lit! ")" ++ at')

/-- **C127** (but for items whose value cannot be computed): `repr()` raises an exception exactly if the object is an item and
`value()` raises this exception. -/
theorem C127_partial (addr : Obj → Str) (depth : Nat) (x : Obj) (up : List Obj) (e : PyErr) :
    reprObj addr depth x up = .error e ↔ x.cls = .item ∧ value depth up[1]? up[0]? x = .error e := by
  unfold reprObj
  cases hc : x.cls <;> simp only [reduceCtorEq, false_and, true_and]
  cases value depth up[1]? up[0]? x <;> simp [Except.map]

/-- **C127**: an item with text can always be shown, and its text is in what is shown -/
theorem C127_text (addr : Obj → Str) (depth : Nat) (x : Obj) (up : List Obj) (s : Str) (hx : x.cls = .item) (ht : x.data.text = some s) :
    ∃ a b, reprObj addr (depth + 1) x up = .ok (a ++ s ++ b) := by
  refine ⟨lit! "<Item object (id: " ++ orDashes x.data.id ++ lit! ") with value \"", lit! "\"" ++ (lit! " at " ++ addr x ++ lit! ">"), ?_⟩
  simp only [reprObj, hx, (C20_priority depth up[1]? up[0]? x).1 s ht, Except.map, orNone, List.append_assoc]

/-- C127 is false: an item on a circle of references cannot be shown, however deep recursion may go. -/
theorem C127_refuted (addr : Obj → Str) (igt : Obj) (up : List Obj) (x : Node) (hx : x.2.cls = .item)
    (h : ∃ k y, Chain (Needs igt) k x y ∧ OnCycle igt y) (depth : Nat) : ∃ e, reprObj addr depth x.2 (x.1 :: igt :: up) = .error e := by
  cases hr : reprObj addr depth x.2 (x.1 :: igt :: up) with
  | error e => exact ⟨e, rfl⟩
  | ok s =>
    exfalso
    simp only [reprObj, hx] at hr
    cases hv : value depth (x.1 :: igt :: up)[1]? (x.1 :: igt :: up)[0]? x.2 with
    | error e => rw [hv] at hr; cases hr
    | ok v => exact (C21_cyclic igt x h depth).1 v hv

end

namespace Qry
section
variable [Uni]

/-- matches that are objects are shown by `repr()` (`object.__str__`) -/
def ShowsObjects (env : QEnv) (addr : Obj → Str) (c : XP.PCfg) : Prop :=
  ∀ x up, env.val (.node x up) [] (some 's') [] = reprObj addr c.depth x up

/-- C127 fails of `xigt query --find`: if the value of one of the items found cannot be computed, an
exception ends the query, so that this one and those after it are not shown (for those before see C126_begun). -/
theorem C127_refuted_query (env : QEnv) (he : Std env) (addr : Obj → Str) (c : XP.PCfg) (hs : ShowsObjects env addr c) (xc : XP.PV) (q : Str)
    (hq : Plain' q) (ms : List XP.PV) (hm : XP.findall c xc q = .ok ms) (x : Obj) (up : List Obj) (hx : .node x up ∈ ms) (hi : x.cls = .item)
    (e : PyErr) (hv : value c.depth up[1]? up[0]? x = .error e) (d : Str) (hd : describe env (.find q) (Action.default (.find q)) = .ok d) :
    ∃ e', findLines env c xc q d = .error e' := by
  cases hf : findLines env c xc q d with
  | error e' => exact ⟨e', rfl⟩
  | ok ls =>
    exfalso
    simp only [findLines, hm, bind, Except.bind] at hf
    cases ha : fillAll env d (ms.map env.val) with
    | error e => simp [ha] at hf
    | ok ts =>
      have h2 := fillAll_all2 env d _ _ ha
      have key : ∀ {vs : List Fmt.Val} {ts : List Str}, All2 (fun v t => fillMatch env v d = .ok t) vs ts → ∀ v ∈ vs, ∃ t, fillMatch env v d = .ok t := by
        intro vs ts h
        induction h with
        | nil => intro v hv; cases hv
        | cons h _ ih =>
          intro v hv
          rcases List.mem_cons.1 hv with rfl | hv
          · exact ⟨_, h⟩
          · exact ih v hv
      obtain ⟨t, ht⟩ := key h2 _ (List.mem_map.2 ⟨_, hx, rfl⟩)
      obtain ⟨s, hs', -⟩ := (C84_default env he (.find q) (env.val (.node x up)) hq (by intro c hc; cases hc) t).1 ⟨d, hd, ht⟩
      rw [hs] at hs'
      rw [(C127_partial addr c.depth x up e).2 ⟨hi, hv⟩] at hs'
      cases hs'

end
end Qry

section
attribute [local instance] asciiUni

/-- what is shown -/
example : reprObj (fun _ => lit! "7") 3 (.mk { cls := .item, id := some (lit! "w1"), text := some (lit! "perro") } [] []) [] =
    .ok (lit! "<Item object (id: w1) with value \"perro\" at 7>") := by decide +kernel

/-- an item that refers to one that is not there cannot be shown -/
example : reprObj (fun _ => lit! "7") 3 (.mk { cls := .item, attrs := [(lit! "content", lit! "a1")] } [] [])
    [.mk { cls := .tier, attrs := [(lit! "content", lit! "a")] } [] [], .mk { cls := .igt } [] []] = .error .xigtStructureError := by decide +kernel

end
end Xigt
