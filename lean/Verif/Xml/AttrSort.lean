import Verif.Xml.AttrOrder
/-
C116: the order in which attributes are written.

The names of attributes are given to ElementTree as `_QName` objects that are compared by the key
`xigt_attrsort` (xigtxml.py:85-146, 164-173).  The serialiser of python 3.6 and 3.7 writes
`sorted(elem.items())`, that of later versions `elem.items()`.
-/

set_option linter.unusedSectionVars false
set_option linter.unusedSimpArgs false

namespace Xigt.Ord

/-! ### Model -/

/-- xigtxml.py:164-173 `xigt_attrsort`: six truth values and the name -/
def attrsort (a : Str) : List Bool × Str :=
  ([!(XMLNS.isPrefixOf a), decide (a ≠ lit! "id"), decide (a ≠ lit! "type"), decide (a ≠ lit! "alignment"), decide (a ≠ lit! "content"),
    decide (a ≠ lit! "segmentation")], a)

/-- `<` of tuples of truth values: the first that differ -/
def flagsLt : List Bool → List Bool → Bool
  | a :: as, b :: bs => if a = b then flagsLt as bs else (!a && b)
  | [], _ :: _ => true
  | _, [] => false

/-- `xigt_attrsort(a) < xigt_attrsort(b)` -/
def keyLess (x y : List Bool × Str) : Bool := if x.1 = y.1 then decide (x.2 < y.2) else flagsLt x.1 y.1

/-- xigtxml.py:85-88: a name with or without a key; only the text of a QName counts for its hash -/
structure QN where
  text : Str
  keyed : Bool

/-- xigtxml.py:91-97 `__lt__` with another name or its text -/
def QN.lt (q : QN) (other : Str) : Bool :=
  if q.keyed then keyLess (attrsort q.text) (attrsort other) else decide (q.text < other)

/-- xigtxml.py:119-125 `__eq__` -/
def QN.eq (q : QN) (other : Str) : Bool :=
  if q.keyed then decide (attrsort q.text = attrsort other) else decide (q.text = other)

/-- `a < b` of items of an element, whose names all have the key (xigtxml.py:368-384): tuples are
compared by the first elements that are not equal -/
def itemLt (a b : Str × Str) : Bool :=
  if (QN.mk a.1 true).eq b.1 then decide (a.2 < b.2) else (QN.mk a.1 true).lt b.1

/-- insertion before the first item that is not less -/
def insItem (x : Str × Str) : Dict Str Str → Dict Str Str
  | [] => [x]
  | y :: l => if itemLt y x then y :: insItem x l else x :: y :: l

/-- `sorted(elem.items())` -/
def sortItems : Dict Str Str → Dict Str Str
  | [] => []
  | x :: l => insItem x (sortItems l)

mutual
/-- an element as python 3.6 and 3.7 write it -/
def sortE : Elem → Elem
  | .mk tag attrs text tail kids => .mk tag (sortItems attrs) text tail (sortEs kids)
def sortEs : List Elem → List Elem
  | [] => []
  | k :: ks => sortE k :: sortEs ks
end

section
variable [Uni] [XmlLex]
/-- xigtxml.py:75-80, 527-532 `dumps(xc, indent=ind)` with python 3.6 or 3.7 -/
def dumpsSorted (ind : Option Int) (x : Obj) : Py Str := do
  let e ← buildCorpus x
  return ser (sortE (indent ind e))
end

/-! ### The order -/

/-- namespace declarations, then `id`, `type`, `alignment`, `content` and `segmentation`, then the others -/
def rank (a : Str) : Nat :=
  if XMLNS.isPrefixOf a then 0 else if a = lit! "id" then 1 else if a = lit! "type" then 2 else if a = lit! "alignment" then 3
  else if a = lit! "content" then 4 else if a = lit! "segmentation" then 5 else 6

/-- `a` comes before `b` -/
def Precedes (a b : Str) : Prop := rank a < rank b ∨ rank a = rank b ∧ a < b

/-- every element has its attributes in this order -/
inductive InOrder : Elem → Prop
  | mk {tag as text tail ks} : as.Pairwise (fun p q => Precedes p.1 q.1) → (∀ k ∈ ks, InOrder k) → InOrder (.mk tag as text tail ks)

/-! ### Proofs -/

def pattern (n : Nat) : List Bool := [decide (n ≠ 0), decide (n ≠ 1), decide (n ≠ 2), decide (n ≠ 3), decide (n ≠ 4), decide (n ≠ 5)]

theorem attrsort_eq (a : Str) : attrsort a = (pattern (rank a), a) := by
  unfold attrsort rank
  by_cases h : XMLNS.isPrefixOf a = true
  · rw [if_pos h, h]
    have no : ∀ b : Str, XMLNS.isPrefixOf b = false → a ≠ b := by rintro b hb rfl; rw [h] at hb; cases hb
    simp [pattern, no (lit! "id") (by decide), no (lit! "type") (by decide), no (lit! "alignment") (by decide), no (lit! "content") (by decide),
      no (lit! "segmentation") (by decide)]
  · rw [if_neg h]
    have h : XMLNS.isPrefixOf a = false := Bool.eq_false_iff.2 h
    rw [h]
    by_cases h1 : a = lit! "id"
    · subst h1; decide
    · rw [if_neg h1]
      by_cases h2 : a = lit! "type"
      · subst h2; decide
      · rw [if_neg h2]
        by_cases h3 : a = lit! "alignment"
        · subst h3; decide
        · rw [if_neg h3]
          by_cases h4 : a = lit! "content"
          · subst h4; decide
          · rw [if_neg h4]
            by_cases h5 : a = lit! "segmentation"
            · subst h5; decide
            · rw [if_neg h5]
              simp [pattern, h1, h2, h3, h4, h5]

theorem rank_le (a : Str) : rank a < 7 := by unfold rank; repeat' split
                                             all_goals omega

theorem pattern_lt : ∀ m < 7, ∀ n < 7, (pattern m = pattern n ↔ m = n) ∧ (flagsLt (pattern m) (pattern n) = decide (m < n)) := by decide

/-- the key compares names in the order of `Precedes` -/
theorem keyLess_iff (a b : Str) : keyLess (attrsort a) (attrsort b) = true ↔ Precedes a b := by
  rw [attrsort_eq, attrsort_eq, keyLess]
  obtain ⟨h1, h2⟩ := pattern_lt (rank a) (rank_le a) (rank b) (rank_le b)
  by_cases h : rank a = rank b
  · rw [if_pos (h1.2 h)]
    simp only [decide_eq_true_eq, Precedes, h, Nat.lt_irrefl, false_or, true_and]
  · rw [if_neg (fun e => h (h1.1 e)), h2]
    simp only [decide_eq_true_eq, Precedes, h, false_and, or_false]

theorem eq_iff (a b : Str) : (QN.mk a true).eq b = true ↔ a = b := by
  simp only [QN.eq, if_true, decide_eq_true_eq]
  constructor
  · intro h; have := congrArg Prod.snd h; exact this
  · rintro rfl; rfl

theorem itemLt_iff (p q : Str × Str) : itemLt p q = true ↔ Precedes p.1 q.1 ∨ p.1 = q.1 ∧ p.2 < q.2 := by
  rw [itemLt]
  by_cases h : p.1 = q.1
  · rw [if_pos ((eq_iff _ _).2 h)]
    have : ¬ Precedes p.1 q.1 := by
      rw [h]; rintro (h | ⟨_, h⟩)
      · omega
      · exact List.lt_irrefl _ h
    simp [h, this]
    intro h'; rw [h] at this; exact absurd h' this
  · rw [if_neg (fun e => h ((eq_iff _ _).1 e))]
    simp only [QN.lt, if_true, keyLess_iff, h, false_and, or_false]

theorem str_tri (a b : Str) : a < b ∨ a = b ∨ b < a := by
  by_cases h : a < b
  · exact Or.inl h
  · by_cases h' : b < a
    · exact Or.inr (Or.inr h')
    · exact Or.inr (Or.inl (List.le_antisymm (List.not_lt.1 h') (List.not_lt.1 h)))

theorem Precedes.trans {a b c : Str} (h : Precedes a b) (h' : Precedes b c) : Precedes a c := by
  rcases h with h | ⟨h, h1⟩ <;> rcases h' with h' | ⟨h', h2⟩
  · exact Or.inl (by omega)
  · exact Or.inl (by omega)
  · exact Or.inl (by omega)
  · exact Or.inr ⟨by omega, List.lt_trans h1 h2⟩

theorem Precedes.irrefl {a : Str} (h : Precedes a a) : False := by
  rcases h with h | ⟨_, h⟩
  · omega
  · exact List.lt_irrefl _ h

theorem Precedes.tri (a b : Str) : Precedes a b ∨ a = b ∨ Precedes b a := by
  rcases Nat.lt_trichotomy (rank a) (rank b) with h | h | h
  · exact Or.inl (Or.inl h)
  · rcases str_tri a b with h' | h' | h'
    · exact Or.inl (Or.inr ⟨h, h'⟩)
    · exact Or.inr (Or.inl h')
    · exact Or.inr (Or.inr (Or.inr ⟨h.symm, h'⟩))
  · exact Or.inr (Or.inr (Or.inl h))

theorem itemLt_tri (p q : Str × Str) : itemLt p q = true ∨ p = q ∨ itemLt q p = true := by
  simp only [itemLt_iff]
  rcases Precedes.tri p.1 q.1 with h | h | h
  · exact Or.inl (Or.inl h)
  · rcases str_tri p.2 q.2 with h' | h' | h'
    · exact Or.inl (Or.inr ⟨h, h'⟩)
    · exact Or.inr (Or.inl (Prod.ext h h'))
    · exact Or.inr (Or.inr (Or.inr ⟨h.symm, h'⟩))
  · exact Or.inr (Or.inr (Or.inl h))

theorem itemLt_trans {p q r : Str × Str} (h : itemLt p q = true) (h' : itemLt q r = true) : itemLt p r = true := by
  simp only [itemLt_iff] at h h' ⊢
  rcases h with h | ⟨h, h1⟩ <;> rcases h' with h' | ⟨h', h2⟩
  · exact Or.inl (h.trans h')
  · exact Or.inl (h' ▸ h)
  · exact Or.inl (h ▸ h')
  · exact Or.inr ⟨h.trans h', List.lt_trans h1 h2⟩

theorem itemLt_irrefl (p : Str × Str) : itemLt p p = false := by
  cases h : itemLt p p with
  | false => rfl
  | true =>
    rcases (itemLt_iff p p).1 h with h | ⟨_, h⟩
    · exact h.irrefl.elim
    · exact (List.lt_irrefl _ h).elim

theorem ins_perm (x : Str × Str) (l : Dict Str Str) : (insItem x l).Perm (x :: l) := by
  induction l with
  | nil => exact List.Perm.refl _
  | cons y l ih =>
    rw [insItem]
    split
    · exact (ih.cons y).trans (List.Perm.swap _ _ _)
    · exact List.Perm.refl _

theorem sort_perm (l : Dict Str Str) : (sortItems l).Perm l := by
  induction l with
  | nil => exact List.Perm.refl _
  | cons x l ih => rw [sortItems]; exact (ins_perm x _).trans (ih.cons x)

/-- not less is transitive -/
theorem ge_trans {a b c : Str × Str} (h1 : itemLt b a = false) (h2 : itemLt c b = false) : itemLt c a = false := by
  cases h : itemLt c a with
  | false => rfl
  | true =>
    rcases itemLt_tri a b with h3 | h3 | h3
    · rw [itemLt_trans h h3] at h2; cases h2
    · subst h3; rw [h] at h2; cases h2
    · rw [h3] at h1; cases h1

theorem lt_asymm {a b : Str × Str} (h : itemLt a b = true) : itemLt b a = false := by
  cases h' : itemLt b a with
  | false => rfl
  | true => have := itemLt_trans h h'; rw [itemLt_irrefl] at this; cases this

theorem sort_pairwise (l : Dict Str Str) : (sortItems l).Pairwise fun p q => itemLt q p = false := by
  have ins : ∀ (x : Str × Str) (l : Dict Str Str), (List.Pairwise (fun p q => itemLt q p = false) l) →
      (insItem x l).Pairwise fun p q => itemLt q p = false := by
    intro x l
    induction l with
    | nil => intro _; exact List.pairwise_singleton _ _
    | cons y l ih =>
      intro h
      rw [List.pairwise_cons] at h
      rw [insItem]
      split
      · rename_i hyx
        rw [List.pairwise_cons]
        refine ⟨?_, ih h.2⟩
        intro z hz
        rcases List.mem_cons.1 ((ins_perm x l).mem_iff.1 hz) with rfl | hz
        · exact lt_asymm hyx
        · exact h.1 z hz
      · rename_i hyx
        have hyx : itemLt y x = false := by simpa using hyx
        rw [List.pairwise_cons, List.pairwise_cons]
        refine ⟨?_, h⟩
        intro z hz
        rcases List.mem_cons.1 hz with rfl | hz
        · exact hyx
        · exact ge_trans hyx (h.1 z hz)
  induction l with
  | nil => exact List.Pairwise.nil
  | cons x l ih => rw [sortItems]; exact ins x _ ih

theorem sortItems_order {l : Dict Str Str} (hn : (l.map Prod.fst).Nodup) : (sortItems l).Pairwise fun p q => Precedes p.1 q.1 := by
  have hn' : ((sortItems l).map Prod.fst).Nodup := ((sort_perm l).map Prod.fst).nodup_iff.2 hn
  have h1 := sort_pairwise l
  have h2 : (sortItems l).Pairwise fun p q => p.1 ≠ q.1 := List.pairwise_map.1 hn'
  refine (h1.and h2).imp ?_
  rintro p q ⟨h1, h2⟩
  rcases Precedes.tri p.1 q.1 with h | h | h
  · exact h
  · exact absurd h h2
  · rw [(itemLt_iff q p).2 (Or.inl h)] at h1; cases h1

theorem sortItems_unique {l l' : Dict Str Str} (h : l.Perm l') : sortItems l = sortItems l' := by
  refine List.Perm.eq_of_pairwise ?_ (sort_pairwise l) (sort_pairwise l') ((sort_perm l).trans (h.trans (sort_perm l').symm))
  intro a b _ _ h1 h2
  rcases itemLt_tri a b with h | h | h
  · rw [h] at h2; cases h2
  · exact h
  · rw [h] at h1; cases h1

theorem sortEs_eq (l : List Elem) : sortEs l = l.map sortE := by
  induction l with
  | nil => rfl
  | cons x xs ih => rw [sortEs, ih]; rfl

section
variable [Uni] [XmlLex]

theorem sortE_reordered : ∀ (e : Elem), KeysOK e → Reordered e (sortE e) := by
  refine Elem.ind fun tag attrs text tail kids ih h => ?_
  cases h with
  | mk h1 h2 =>
    rw [sortE, sortEs_eq]
    refine .mk (sort_perm attrs).symm h1 ?_
    have key : ∀ l : List Elem, (∀ x ∈ l, x ∈ kids) → All2 Reordered l (l.map sortE) := by
      intro l
      induction l with
      | nil => intro _; exact .nil
      | cons x xs ih' => intro hx; exact .cons (ih x (hx x (by simp)) (h2 x (hx x (by simp)))) (ih' fun y hy => hx y (by simp [hy]))
    exact key kids fun x hx => hx

theorem sortE_keys : ∀ (e : Elem), KeysOK e → KeysOK (sortE e) := by
  refine Elem.ind fun tag attrs text tail kids ih h => ?_
  cases h with
  | mk h1 h2 =>
    rw [sortE, sortEs_eq]
    refine .mk (((sort_perm attrs).map Prod.fst).nodup_iff.2 h1) ?_
    intro k hk
    obtain ⟨y, hy, rfl⟩ := List.mem_map.1 hk
    exact ih y hy (h2 y hy)

theorem sortE_order : ∀ (e : Elem), KeysOK e → InOrder (sortE e) := by
  refine Elem.ind fun tag attrs text tail kids ih h => ?_
  cases h with
  | mk h1 h2 =>
    rw [sortE, sortEs_eq]
    refine .mk (sortItems_order h1) ?_
    intro k hk
    obtain ⟨y, hy, rfl⟩ := List.mem_map.1 hk
    exact ih y hy (h2 y hy)

/-- C116, where attributes are sorted (python 3.6 and 3.7): in every element that is written for a corpus,
the attributes are in the order of `Precedes`, and this is the text that is written.  Missing: later
versions, where it is false (`C116_refuted`). -/
theorem C116_partial (x : Obj) (ind : Option Int) (s : Str) (h : dumpsSorted ind x = .ok s) : ∃ e, InOrder e ∧ s = ser e := by
  simp only [dumpsSorted, bind, Except.bind, pure, Except.pure] at h
  split at h
  · cases h
  · rename_i e he
    cases h
    exact ⟨_, sortE_order _ (indent_keys' (buildCorpus_keys x e he) ind), rfl⟩

/-- C116, there: elements that differ only in the order of attributes are written with the same text. -/
theorem C116_same : ∀ (e e' : Elem), Reordered e e' → ser (sortE e) = ser (sortE e') := by
  have key : ∀ (e e' : Elem), Reordered e e' → sortE e = sortE e' := by
    refine Elem.ind fun tag attrs text tail kids ih e' h => ?_
    cases h with
    | mk h1 h2 hk =>
      rw [sortE, sortE, sortItems_unique h1, sortEs_eq, sortEs_eq, all2_map_eq (fun a b h => ih a h.2 b h.1) (all2_mem hk)]
  intro e e' h
  rw [key e e' h]

/-- objects with the data of well-formed objects are well-formed -/
theorem same_wf : ∀ (x y : Obj), SameData x y → x.WF → y.WF := by
  refine Obj.ind fun d md ks ihm ihk y h hw => ?_
  cases h with
  | @mk _ b _ md' _ ks' h1 h2 h3 h4 h5 h6 h7 h8 h9 h10 h11 =>
    cases hw with
    | mk w1 w2 w3 w4 w5 w6 w7 w8 =>
      have get : ∀ {l l' : List Obj}, l.length = l'.length → ∀ {b : Obj}, b ∈ l' → ∃ (i : Nat) (a : Obj), l[i]? = some a ∧ l'[i]? = some b := by
        intro l l' hl b hb
        obtain ⟨i, hi⟩ := List.getElem?_of_mem hb
        have hlt : i < l'.length := (List.getElem?_eq_some_iff.1 hi).1
        exact ⟨i, l[i]'(by omega), List.getElem?_eq_getElem _, hi⟩
      refine .mk (((h7.map Prod.fst).nodup_iff).1 w1) (by rw [← h1, ← h5]; exact w2) (by rw [← h1, ← h6]; exact w3) ?_ ?_ ?_ ?_ ?_
      · rw [← h1]; intro hh
        rw [w4 hh] at h8
        exact List.eq_nil_of_length_eq_zero h8.symm
      · intro z hz
        obtain ⟨i, a, ha, hi⟩ := get h8 hz
        rw [← (h10 i a z ha hi).cls]
        exact w5 a (List.mem_of_getElem? ha)
      · intro z hz
        obtain ⟨i, a, ha, hi⟩ := get h9 hz
        rw [← (h11 i a z ha hi).cls, ← h1]
        exact w6 a (List.mem_of_getElem? ha)
      · intro z hz
        obtain ⟨i, a, ha, hi⟩ := get h8 hz
        exact ihm a (List.mem_of_getElem? ha) z (h10 i a z ha hi) (w7 a (List.mem_of_getElem? ha))
      · intro z hz
        obtain ⟨i, a, ha, hi⟩ := get h9 hz
        exact ihk a (List.mem_of_getElem? ha) z (h11 i a z ha hi) (w8 a (List.mem_of_getElem? ha))

theorem sortE_tail (e : Elem) : (sortE e).tail = e.tail := by cases e; rw [sortE]; rfl

theorem rel_ok {α β : Type} {R : α → β → Prop} {a : α} {b : Py β} (h : RelPy R (.ok a) b) : ∃ y, b = .ok y ∧ R a y := by
  cases b with
  | error e => exact h.elim
  | ok y => exact ⟨y, rfl, h⟩

/-- C115 for what is written: if the parser can read what is written for a corpus without sorting, then it
can read what is written with sorted attributes, with the same outcome. -/
theorem C115_sorted (x : Obj) (ind : Option Int) (s : Str) (p : PElem) (h : dumpsXml ind x = .ok s)
    (hp : (buildCorpus x >>= fun e => parseElem [] (indent ind e)) = .ok p) (look : Nat → Nat) :
    ∃ s', dumpsSorted ind x = .ok s' ∧ RelPy Alike (loadsXml look s) (loadsXml look s') := by
  cases he : buildCorpus x with
  | error _ => rw [he] at hp; cases hp
  | ok e =>
    rw [he] at hp
    have hp : parseElem [] (indent ind e) = .ok p := hp
    have hk := indent_keys' (buildCorpus_keys x e he) ind
    have ht := indent_tail (buildOf_tail (c := .corpus) (m := []) he) ind
    obtain ⟨q, hq, hpq⟩ := rel_ok (hp ▸ parse_like (indent ind e) (sortE (indent ind e)) [] [] (sortE_reordered _ hk) fun _ => rfl)
    simp only [dumpsXml, he, bind, Except.bind, pure, Except.pure] at h
    cases h
    refine ⟨ser (sortE (indent ind e)), by simp only [dumpsSorted, he, bind, Except.bind, pure, Except.pure], ?_⟩
    have r1 := readText_ser _ hk ht p hp
    have r2 := readText_ser _ (sortE_keys _ hk) (by rw [sortE_tail]; exact ht) q hq
    rw [loadsXml, loadsXml, r1, r2]
    exact loadXml_like look hpq

/-- C90 and C40 with python 3.6 and 3.7: under the conditions of `C90_partial`, what is written with sorted
attributes is read as the same corpus. -/
theorem C115_roundtrip (x : Obj) (hc : x.cls = .corpus) (hw : x.WF) (hv : x.Valid) (hk : XmlKept [] x) (hn : NamesOK [] x)
    (look : Nat → Nat) (ind : Option Int) : ∃ s z, dumpsSorted ind x = .ok s ∧ loadsXml look s = .ok z ∧ SameData x z ∧ Obj.eq x z = true := by
  obtain ⟨y, h1, h2, h3⟩ := C40_partial x hc hw hv hk hn look ind
  simp only [writeRead, bind, Except.bind] at h1
  split at h1
  · cases h1
  · rename_i e he
    split at h1
    · cases h1
    · rename_i p hp
      obtain ⟨s, s1, s2, _⟩ := C90_layer x ind e p he hp look
      obtain ⟨s', g1, g2⟩ := C115_sorted x ind s p s1 (by rw [he]; exact hp) look
      have : loadsXml look s = .ok y := by rw [loadsXml, s2]; exact h1
      obtain ⟨z, hz, hyz⟩ := rel_ok (this ▸ g2)
      have hs : SameData x z := h2.symm.trans (Alike.same y z hyz)
      exact ⟨s', z, g1, hz, hs, (C10_eq_is_same_data x z hw (same_wf x z hs hw) hs.cls).2 hs⟩

end

/-! ### Examples -/

section
attribute [local instance] asciiUni asciiXml

def ordCorpus : Obj := .mk { cls := .corpus } [] [.mk { cls := .igt, id := some (lit! "i1") } [] [.mk { cls := .tier, id := some (lit! "w") } []
  [.mk { cls := .item, id := some (lit! "w1"), attrs := [(lit! "lang", lit! "de"), (lit! "content", lit! "p"), (lit! "alignment", lit! "v")] } [] []]]]

/-- with and without sorting -/
example : (dumpsSorted none ordCorpus).map String.ofList =
    .ok "<xigt-corpus><igt id=\"i1\"><tier id=\"w\"><item id=\"w1\" alignment=\"v\" content=\"p\" lang=\"de\" /></tier></igt></xigt-corpus>" ∧
  (dumpsXml none ordCorpus).map String.ofList =
    .ok "<xigt-corpus><igt id=\"i1\"><tier id=\"w\"><item id=\"w1\" lang=\"de\" content=\"p\" alignment=\"v\" /></tier></igt></xigt-corpus>" := by
  decide +kernel

/-- two documents as in C115, with namespace declarations in different places -/
example : ∃ e e', scanXml (lit! "<xigt-corpus xmlns:a=\"u\" id='c' a:x='1'/>") = .ok e ∧ scanXml (lit! "<xigt-corpus a:x=\"1\" xmlns:a=\"u\" id=\"c\" />") = .ok e' ∧
    Reordered e e' :=
  ⟨_, _, rfl, rfl, .mk (by decide) (by decide) .nil⟩

/-- **C116** refuted (python 3.8 and later): the order is that of the dictionary of attributes (xigtxml.py:373-384),
so equal corpora are written with different texts, and attributes are not in the order of their keys -/
theorem C116_refuted : ∃ x y s t e, Obj.eq x y = true ∧ dumpsXml none x = .ok s ∧ dumpsXml none y = .ok t ∧ s ≠ t ∧ s = ser e ∧
    e.attrs.map Prod.fst = [lit! "b", lit! "alignment"] ∧ Precedes (lit! "alignment") (lit! "b") :=
  ⟨.mk { cls := .corpus, attrs := [(lit! "b", lit! "1"), (lit! "alignment", lit! "2")] } [] [],
    .mk { cls := .corpus, attrs := [(lit! "alignment", lit! "2"), (lit! "b", lit! "1")] } [] [], _, _,
    .mk (lit! "xigt-corpus") [(lit! "b", lit! "1"), (lit! "alignment", lit! "2")] none none [],
    by decide +kernel, rfl, rfl, by decide +kernel, by decide +kernel, rfl, Or.inl (by decide)⟩

end

end Xigt.Ord
