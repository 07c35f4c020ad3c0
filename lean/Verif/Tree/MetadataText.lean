import Verif.Tree.Build
/-
C173: the deprecated `text` of Metadata, /repo/xigt/metadata.py:75-98, 111-130, with its warnings.

What is given as `text` or `metas` is None, a string, or a list of objects of the model classes; other iterables are as lists.  The metas are values:
that the new container becomes their parent is C01 and not repeated here.
-/
set_option linter.unusedSectionVars false

namespace Xigt.Mdt

/-! ### Model -/

/-- what is given -/
inductive Given where
  | none
  | str (s : Str)
  | objs (l : List Obj)

/-- what a container is asked to take -/
inductive Elem where
  | obj (o : Obj)
  | char (c : Char)

/-- `value or []`, iterated over -/
def Given.elems : Given → List Elem
  | .none => []
  | .str s => s.map .char
  | .objs l => l.map .obj

/-- mixins.py:96-107, 131-137 `append` of a Metadata: only Meta objects, and no ID twice -/
def mdAppend (kids : List Obj) : Elem → List Obj × Py Unit
  | .char _ => (kids, .error .xigtStructureError)
  | .obj o =>
    if o.cls ≠ .metaC then (kids, .error .xigtStructureError)
    else if o.data.id ≠ none && kids.any (fun x => decide (x.data.id = o.data.id)) then (kids, .error .xigtError)
    else (kids ++ [o], .ok ())

/-- mixins.py:115-117 `extend` -/
def mdExtend (kids : List Obj) : List Elem → List Obj × Py Unit
  | [] => (kids, .ok ())
  | e :: es =>
    match mdAppend kids e with
    | (kids, .error x) => (kids, .error x)
    | (kids, .ok ()) => mdExtend kids es

/-- metadata.py:65-68 -/
def textWarning : Str := lit! "Metadata.text is deprecated; use Metadata.metas instead."

/-- metadata.py:91-92 -/
def stringWarning : Str := lit! "String values of Metadata are deprecated; it will be put in an untyped Meta object."

/-- an untyped Meta with a text -/
def untyped (s : Str) : Obj := .mk { cls := .metaC, text := some s } [] []

/-- metadata.py:98 `self.extend(metas or [])`, at the end of the constructor -/
def finish (d : Data) (g : Given) : Py Obj :=
  match mdExtend [] g.elems with
  | (_, .error x) => .error x
  | (kids, .ok ()) => .ok (.mk d [] kids)

section
variable [Uni]

/-- metadata.py:75-98 `Metadata(…, text, metas)`, with its warnings; the ID is looked at first (mixins.py:163-170, 209-217) -/
def newMetadata (d : Data) (text metas : Given) : List Str × Py Obj :=
  if d.id.all idAccepted = false then ([], .error .valueError)
  else
    match text with
    | .none => ([], finish d metas)
    | .str s =>
      match metas with
      | .none => ([textWarning, stringWarning], finish d (.objs [untyped s]))
      | _ => ([textWarning], .error .xigtError)
    | .objs l =>
      match metas with
      | .none => ([textWarning], finish d (.objs l))
      | _ => ([textWarning], .error .xigtError)

end

/-- metadata.py:111-117 `metas`: the contents, and assigning to it, which clears first -/
def getMetas (m : Obj) : List Obj := m.kids
def setMetas (m : Obj) (g : Given) : Obj × Py Unit :=
  match mdExtend [] g.elems with
  | (kids, r) => (.mk m.data m.md kids, r)

/-- metadata.py:119-127 `text` -/
def getText (m : Obj) : List Str × List Obj := ([textWarning], getMetas m)
def setText (m : Obj) (g : Given) : List Str × Obj × Py Unit := ([textWarning], setMetas m g)

/-! ### Specification -/

/-- the list can be what a Metadata contains: Metas, no two with the same ID -/
def Metas (l : List Obj) : Prop := (∀ o ∈ l, o.cls = .metaC) ∧ l.Pairwise fun a b => a.data.id ≠ none → a.data.id ≠ b.data.id

/-- the list as far as it can be that -/
def Upto (l k : List Obj) : Prop := ∃ b c, l = k ++ b :: c ∧ Metas k ∧ ¬ Metas (k ++ [b])

/-! ### Properties -/

theorem metas_snoc (k : List Obj) (o : Obj) (hk : Metas k) :
    Metas (k ++ [o]) ↔ o.cls = .metaC ∧ ¬ (o.data.id ≠ none ∧ ∃ x ∈ k, x.data.id = o.data.id) := by
  constructor
  · rintro ⟨h1, h2⟩
    refine ⟨h1 o (by simp), ?_⟩
    rintro ⟨h3, x, hx, hxo⟩
    exact (List.pairwise_append.1 h2).2.2 x hx o (by simp) (hxo ▸ h3) hxo
  · rintro ⟨h1, h2⟩
    refine ⟨?_, List.pairwise_append.2 ⟨hk.2, by simp, ?_⟩⟩
    · intro x hx
      rcases List.mem_append.1 hx with hx | hx
      · exact hk.1 x hx
      · rw [List.mem_singleton.1 hx]; exact h1
    · intro x hx y hy hn he
      rw [List.mem_singleton.1 hy] at he
      exact h2 ⟨he ▸ hn, x, hx, he⟩

theorem mdAppend_ok (k : List Obj) (o : Obj) (hk : Metas k) (h : Metas (k ++ [o])) : mdAppend k (.obj o) = (k ++ [o], .ok ()) := by
  obtain ⟨h1, h2⟩ := (metas_snoc k o hk).1 h
  rw [mdAppend, if_neg (by simp [h1]), if_neg]
  intro h3
  simp only [Bool.and_eq_true, decide_eq_true_eq, List.any_eq_true] at h3
  exact h2 h3

theorem mdAppend_error (k : List Obj) (o : Obj) (hk : Metas k) (h : ¬ Metas (k ++ [o])) : ∃ e, mdAppend k (.obj o) = (k, .error e) := by
  rw [metas_snoc k o hk] at h
  rw [mdAppend]
  by_cases h1 : o.cls = .metaC
  · rw [if_neg (by simp [h1]), if_pos]
    · exact ⟨_, rfl⟩
    · simp only [Bool.and_eq_true, decide_eq_true_eq, List.any_eq_true]
      exact Classical.byContradiction fun h2 => h ⟨h1, h2⟩
  · rw [if_pos h1]; exact ⟨_, rfl⟩

theorem metas_prefix {a b : List Obj} (h : Metas (a ++ b)) : Metas a :=
  ⟨fun o ho => h.1 o (List.mem_append_left _ ho), (List.pairwise_append.1 h.2).1⟩

/-- either all is taken, or what comes before the first that cannot be -/
theorem mdExtend_cases (l : List Obj) : ∀ (k : List Obj), Metas k →
    (Metas (k ++ l) ∧ mdExtend k (l.map .obj) = (k ++ l, .ok ())) ∨
    (∃ k' e, Upto (k ++ l) k' ∧ mdExtend k (l.map .obj) = (k', .error e)) := by
  induction l with
  | nil => intro k hk; left; simpa [mdExtend] using hk
  | cons o l ih =>
    intro k hk
    by_cases h : Metas (k ++ [o])
    · have := ih (k ++ [o]) h
      rw [List.append_assoc, List.singleton_append] at this
      rw [List.map_cons, mdExtend, mdAppend_ok k o hk h]
      exact this
    · right
      obtain ⟨e, he⟩ := mdAppend_error k o hk h
      refine ⟨k, e, ⟨o, l, rfl, hk, h⟩, ?_⟩
      rw [List.map_cons, mdExtend, he]

theorem metas_nil : Metas [] := ⟨by simp, List.Pairwise.nil⟩

theorem upto_not {l k : List Obj} (h : Upto l k) : ¬ Metas l := by
  obtain ⟨b, c, rfl, _, h⟩ := h
  intro hm
  rw [← List.singleton_append, ← List.append_assoc] at hm
  exact h (metas_prefix hm)

/-- **C173**: assigning a list to `text` succeeds exactly if it can be what a Metadata contains, and then it is what `text` and `metas` are; nothing else
of the object changes, and there is one warning. -/
theorem C173_write (m : Obj) (l : List Obj) : (setText m (.objs l)).1 = [textWarning] ∧
    ((setText m (.objs l)).2.2 = .ok () ↔ Metas l) ∧
    (Metas l → (getText (setText m (.objs l)).2.1).2 = l ∧ getMetas (setText m (.objs l)).2.1 = l) ∧
    (¬ Metas l → Upto l (getMetas (setText m (.objs l)).2.1)) ∧
    (setText m (.objs l)).2.1.data = m.data ∧ (setText m (.objs l)).2.1.md = m.md := by
  refine ⟨rfl, ?_, ?_, ?_, rfl, rfl⟩
  all_goals
    rcases mdExtend_cases l [] metas_nil with ⟨h1, h2⟩ | ⟨k, e, h1, h2⟩
    all_goals simp only [List.nil_append] at h1 h2
  · simp [setText, setMetas, Given.elems, h2, h1]
  · simp [setText, setMetas, Given.elems, h2, upto_not h1]
  · intro _; simp [setText, setMetas, Given.elems, h2, getText, getMetas, Obj.kids]
  · intro h; exact absurd h (upto_not h1)
  · intro h; exact absurd h1 h
  · intro _; simpa [setText, setMetas, Given.elems, h2, getMetas, Obj.kids] using h1

/-- **C173**: assigning to `text` what it is changes nothing, and assigning None empties it. -/
theorem C173_self (m : Obj) (h : Metas m.kids) : (setText m (.objs (getText m).2)).2 = (m, .ok ()) ∧
    (setText m .none).2.2 = .ok () ∧ getMetas (setText m .none).2.1 = [] := by
  refine ⟨?_, rfl, rfl⟩
  rcases mdExtend_cases m.kids [] metas_nil with ⟨h1, h2⟩ | ⟨k, e, h1, h2⟩
  · rw [List.nil_append] at h2
    cases m
    simp only [setText, setMetas, getText, getMetas, Given.elems, h2]
    rfl
  · exact absurd h (upto_not h1)

section
variable [Uni]

/-- the hypothesis of the others: an ID that is accepted, or none -/
def IdOK (d : Data) : Prop := d.id.all idAccepted = true

/-- **C173**: a Metadata made with a list as its text is as with this list as its metas, but for a warning; it contains the list, if that can be. -/
theorem C173_new (d : Data) (hd : IdOK d) (l : List Obj) :
    (newMetadata d (.objs l) .none).1 = [textWarning] ∧ (newMetadata d .none (.objs l)).1 = [] ∧
    (newMetadata d (.objs l) .none).2 = (newMetadata d .none (.objs l)).2 ∧
    ((∃ m, (newMetadata d (.objs l) .none).2 = .ok m) ↔ Metas l) ∧
    ∀ m, (newMetadata d (.objs l) .none).2 = .ok m → m.data = d ∧ m.md = [] ∧ (getText m).2 = l := by
  have hd' : ¬ d.id.all idAccepted = false := by rw [IdOK] at hd; simp [hd]
  simp only [newMetadata, if_neg hd']
  refine ⟨trivial, trivial, trivial, ?_, ?_⟩
  all_goals
    rcases mdExtend_cases l [] metas_nil with ⟨h1, h2⟩ | ⟨k, e, h1, h2⟩
    all_goals simp only [List.nil_append] at h1 h2
  · simp [finish, Given.elems, h2, h1]
  · simp [finish, Given.elems, h2, upto_not h1]
  · intro m hm
    simp only [finish, Given.elems, h2] at hm
    cases hm
    exact ⟨rfl, rfl, rfl⟩
  · intro m hm
    simp only [finish, Given.elems, h2] at hm
    cases hm

/-- **C173**: a string, even an empty one, becomes the text of an untyped Meta, and there are two warnings. -/
theorem C173_string (d : Data) (hd : IdOK d) (s : Str) : ∃ m x, newMetadata d (.str s) .none = ([textWarning, stringWarning], .ok m) ∧
    (getText m).2 = [x] ∧ x.cls = .metaC ∧ x.data.text = some s ∧ x.data.type = none ∧ x.data.id = none ∧ x.data.attrs = [] ∧ x.kids = [] := by
  have hd' : ¬ d.id.all idAccepted = false := by rw [IdOK] at hd; simp [hd]
  refine ⟨.mk d [] [untyped s], untyped s, ?_, rfl, rfl, rfl, rfl, rfl, rfl, rfl⟩
  simp only [newMetadata, if_neg hd']
  rfl

/-- **C173**: giving both is an error. -/
theorem C173_both (d : Data) (hd : IdOK d) (text metas : Given) (ht : text ≠ .none) (hm : metas ≠ .none) :
    newMetadata d text metas = ([textWarning], .error .xigtError) := by
  have hd' : ¬ d.id.all idAccepted = false := by rw [IdOK] at hd; simp [hd]
  simp only [newMetadata, if_neg hd']
  cases text with
  | none => exact absurd rfl ht
  | str s => cases metas with
    | none => exact absurd rfl hm
    | _ => rfl
  | objs l => cases metas with
    | none => exact absurd rfl hm
    | _ => rfl

end

/-- **C173** is false as stated: a string that is assigned is not put in a Meta: there is an error, and what the Metadata contained is lost. -/
theorem C173_refuted_string (m : Obj) (c : Char) (s : Str) :
    (setText m (.str (c :: s))).2.2 = .error .xigtStructureError ∧ getMetas (setText m (.str (c :: s))).2.1 = [] := ⟨rfl, rfl⟩

/-- **C173** is false as stated: an empty string that is assigned empties the Metadata, without an error. -/
theorem C173_refuted_empty (m : Obj) : (setText m (.str [])).2.2 = .ok () ∧ getMetas (setText m (.str [])).2.1 = [] := ⟨rfl, rfl⟩

section
attribute [local instance] asciiUni

def idMeta : Obj := .mk { cls := .metaC, id := some (lit! "a") } [] []

/-- the hypotheses are met: two Metas, one with an ID -/
example : IdOK { cls := .metadata, id := some (lit! "md") } ∧ Metas [untyped (lit! "x"), idMeta, untyped (lit! "x")] := by
  refine ⟨by unfold IdOK; decide +kernel, ?_, ?_⟩
  · intro o ho; revert o; decide +kernel
  · decide +kernel

/-- and not: the second with the same ID is not taken, nor what comes after it -/
example : ¬ Metas [idMeta, idMeta] ∧ getMetas (setText (.mk { cls := .metadata } [] [untyped (lit! "old")]) (.objs [idMeta, idMeta, untyped []])).2.1 = [idMeta] := by
  refine ⟨?_, rfl⟩
  rintro ⟨-, h⟩
  revert h
  decide +kernel

end
end Xigt.Mdt
