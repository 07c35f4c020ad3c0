import Verif.Attr.Props
import Verif.Ref.Props
/-
C125: the properties `alignment`, `content` and `segmentation` of tiers and items, /repo/xigt/mixins.py:244-292.
-/

set_option linter.unusedSectionVars false

namespace Xigt

/-- the attributes of an object, where the value of one may be None -/
abbrev NAttrs := Dict Str (Option Str)

/-- attributes that are all strings -/
def allSome (d : Dict Str Str) : NAttrs := d.map fun p => (p.1, some p.2)

/-- the three properties -/
inductive RefAttr where
  | alignment
  | content
  | segmentation
  deriving DecidableEq

/-- consts.py:4-6 -/
def RefAttr.key : RefAttr → Str
  | .alignment => ALIGN
  | .content => CONT
  | .segmentation => SEGM

/-- mixins.py:274-275, 281-282, 288-289: reading the property -/
def getRef (d : NAttrs) (k : RefAttr) : Option Str := (Dict.get? d k.key).join

/-- mixins.py:276-278, 283-285, 290-292: assigning the property -/
def setRef (d : NAttrs) (k : RefAttr) (v : Option Str) : NAttrs := Dict.set d k.key v

/-- some assignments -/
def setRefs (d : NAttrs) : List (RefAttr × Option Str) → NAttrs
  | [] => d
  | p :: ps => setRefs (setRef d p.1 p.2) ps

/-- ref.py:227, 263 `ids(obj.attributes.get(ra, ''))`: `re.findall` of None is a TypeError -/
def refIds [Uni] (d : NAttrs) (k : Str) : Py (List Str) :=
  match Dict.get? d k with
  | none => .ok (ids [])
  | some none => .error .typeError
  | some (some s) => .ok (ids s)

/-- what was assigned last -/
def lastOf (k : RefAttr) (ps : List (RefAttr × Option Str)) : Option (Option Str) :=
  ((ps.filter fun p => decide (p.1 = k)).map Prod.snd).getLast?

theorem key_inj {a b : RefAttr} (h : a.key = b.key) : a = b := by
  revert h
  cases a <;> cases b <;> decide

theorem get_setRefs (ps : List (RefAttr × Option Str)) : ∀ (d : NAttrs),
    (∀ k : RefAttr, Dict.get? (setRefs d ps) k.key = (lastOf k ps).or (Dict.get? d k.key)) ∧
    ∀ k, (∀ r : RefAttr, k ≠ r.key) → Dict.get? (setRefs d ps) k = Dict.get? d k := by
  induction ps with
  | nil => intro d; exact ⟨fun k => by simp [setRefs, lastOf], fun k _ => rfl⟩
  | cons p ps ih =>
    intro d
    obtain ⟨h1, h2⟩ := ih (setRef d p.1 p.2)
    refine ⟨fun k => ?_, fun k hk => ?_⟩
    · rw [setRefs, h1 k, setRef, Dict.get?_set]
      by_cases hk : p.1 = k
      · subst hk
        simp only [lastOf, List.filter_cons, decide_true, if_true, List.map_cons, List.getLast?_cons]
        cases ((ps.filter fun q => decide (q.1 = p.1)).map Prod.snd).getLast? <;> simp
      · have : p.1.key ≠ k.key := fun h => hk (key_inj h)
        simp only [this, if_false, lastOf, List.filter_cons, hk, decide_false]
        rfl
    · rw [setRefs, h2 k hk, setRef, Dict.get?_set, if_neg (fun h => hk p.1 h.symm)]

section
variable [Uni]

/-- **C125** (partial: for strings): after any assignments of strings each property is what was assigned to it last, or what it was if
nothing was; other attributes are as they were; and references can be read. -/
theorem C125_partial (d : Dict Str Str) (ps : List (RefAttr × Option Str)) (hs : ∀ p ∈ ps, p.2 ≠ none) :
    (∀ k : RefAttr, getRef (setRefs (allSome d) ps) k = ((lastOf k ps).getD (Dict.get? d k.key))) ∧
    (∀ k, (∀ r : RefAttr, k ≠ r.key) → Dict.get? (setRefs (allSome d) ps) k = (Dict.get? d k).map some) ∧
    ∀ k : RefAttr, refIds (setRefs (allSome d) ps) k.key = .ok (ids ((getRef (setRefs (allSome d) ps) k).getD [])) := by
  have ha : ∀ k, Dict.get? (allSome d) k = (Dict.get? d k).map some := by
    intro k
    induction d with
    | nil => rfl
    | cons p d ih =>
      obtain ⟨a, b⟩ := p
      simp only [allSome, List.map_cons, Dict.get?] at ih ⊢
      split
      · rfl
      · exact ih
  obtain ⟨h1, h2⟩ := get_setRefs ps (allSome d)
  have hl : ∀ k, lastOf k ps ≠ some none := by
    intro k h
    have := List.mem_of_getLast? h
    obtain ⟨p, hp, e⟩ := List.mem_map.1 this
    exact hs p (List.mem_filter.1 hp).1 e
  refine ⟨fun k => ?_, fun k hk => by rw [h2 k hk, ha k], fun k => ?_⟩
  · rw [getRef, h1 k, ha]
    cases hlk : lastOf k ps with
    | none => cases Dict.get? d k.key <;> rfl
    | some v => cases v <;> rfl
  · have h3 : Dict.get? (setRefs (allSome d) ps) k.key ≠ some none := by
      rw [h1 k, ha]
      cases hlk : lastOf k ps with
      | none => cases Dict.get? d k.key <;> simp
      | some v => 
        cases v with
        | none => exact absurd hlk (hl k)
        | some v => simp
    unfold refIds getRef
    cases h : Dict.get? (setRefs (allSome d) ps) k.key with
    | none => rfl
    | some v =>
      cases v with
      | none => exact absurd h h3
      | some v => rfl

/-- C125 is false: the constructor refuses a segmentation with a content (C63), but both can be assigned. -/
theorem C125_refuted (s c : Str) (hs : s ≠ []) (hc : c ≠ []) : refInit [] none (some c) (some s) = .error .xigtError ∧
    ∃ d, refInit [] none none (some s) = .ok d ∧ getRef (setRef (allSome d) .content (some c)) .content = some c ∧
      getRef (setRef (allSome d) .content (some c)) .segmentation = some s := by
  refine ⟨(C63_constructor [] none (some c) (some s)).1 ⟨?_, .inl ?_⟩, ?_⟩
  · cases s with
    | nil => exact absurd rfl hs
    | cons a s => simp [NonEmpty]
  · cases c with
    | nil => exact absurd rfl hc
    | cons a c => simp [NonEmpty]
  · refine ⟨[(SEGM, s)], ?_, ?_, ?_⟩
    · simp [refInit, truthy, setOpt, Dict.set]
    · rw [getRef, setRef, Dict.get?_set]; simp
    · rw [getRef, setRef, Dict.get?_set, if_neg (by decide)]; rfl

/-- C125 is false of None: the property is None as if it were not there, but the attribute is still there, and asking for
references raises TypeError. -/
theorem C125_refuted_none (d : NAttrs) (k : RefAttr) : getRef (setRef d k none) k = none ∧
    Dict.has (setRef d k none) k.key = true ∧ refIds (setRef d k none) k.key = .error .typeError := by
  have h : Dict.get? (setRef d k none) k.key = some none := by rw [setRef, Dict.get?_set, if_pos rfl]
  refine ⟨by rw [getRef, h]; rfl, by rw [Dict.has, h]; rfl, by rw [refIds, h]⟩

end

section
attribute [local instance] asciiUni

/-- the hypotheses of C125_partial are met -/
example : (∀ p ∈ [(RefAttr.alignment, some (lit! "a1")), (.alignment, some (lit! "a2,a3"))], p.2 ≠ none) ∧
    getRef (setRefs (allSome [(ALIGN, lit! "a0")]) [(RefAttr.alignment, some (lit! "a1")), (.alignment, some (lit! "a2,a3"))]) .alignment = some (lit! "a2,a3") :=
  ⟨by decide, by decide⟩

end
end Xigt
