import Verif.Scripts.SortSame
import Verif.Export.LatexDoc
import Verif.Export.LatexExamples
/- C146: equal corpora are exported to the same LaTeX document. -/

set_option linter.unusedSectionVars false

namespace Xigt.Ltx
open Xigt.XP Xigt.Srt

section
variable [Uni]

/-! ### Lists that are related element by element -/

theorem pairs_take {α : Type} {R : α → α → Prop} {l l' : List α} (h : Pairs2 R l l') : ∀ n, Pairs2 R (l.take n) (l'.take n) := by
  induction h with
  | nil => intro n; simpa using .nil
  | cons h1 _ ih => intro n; cases n with
    | zero => exact .nil
    | succ n => exact .cons h1 (ih n)

theorem pairs_drop {α : Type} {R : α → α → Prop} {l l' : List α} (h : Pairs2 R l l') : ∀ n, Pairs2 R (l.drop n) (l'.drop n) := by
  induction h with
  | nil => intro n; simpa using .nil
  | cons h1 h2 ih => intro n; cases n with
    | zero => exact .cons h1 h2
    | succ n => exact ih n

theorem pairs_set {α : Type} {R : α → α → Prop} {l l' : List α} (h : Pairs2 R l l') {a b : α} (hab : R a b) : ∀ n, Pairs2 R (l.set n a) (l'.set n b) := by
  induction h with
  | nil => intro n; exact .nil
  | cons h1 h2 ih => intro n; cases n with
    | zero => exact .cons hab h2
    | succ n => exact .cons h1 (ih n)

theorem pairs_refl {α : Type} {R : α → α → Prop} (hr : ∀ x, R x x) : ∀ l : List α, Pairs2 R l l
  | [] => .nil
  | x :: l => .cons (hr x) (pairs_refl hr l)

theorem pairs_zip {α : Type} {R : α → α → Prop} {l l' : List α} (h : Pairs2 R l l') : ∀ n,
    Pairs2 (fun p q : α × Nat => R p.1 q.1 ∧ p.2 = q.2) (l.zipIdx n) (l'.zipIdx n) := by
  induction h with
  | nil => intro n; exact .nil
  | cons h1 _ ih => intro n; exact .cons ⟨h1, rfl⟩ (ih (n + 1))

theorem pairs_nil {α : Type} {R : α → α → Prop} {l l' : List α} (h : Pairs2 R l l') : l = [] ↔ l' = [] := by
  cases h <;> simp

theorem smL_pairs : ∀ l l' : List Obj, SmL l l' → Pairs2 Sm l l' := SmL.induct .nil (fun _ _ _ _ h _ g => .cons h g)

/-- results that are equal -/
theorem pyR_eq {α : Type} {p q : Py α} : PyR Eq p q ↔ p = q := by
  rcases p with _ | _ <;> rcases q with _ | _ <;> simp [PyR]

theorem pyR_map {α β : Type} {R : α → α → Prop} {S : β → β → Prop} {f g : α → β} (hf : ∀ a b, R a b → S (f a) (g b)) {p q : Py α} (h : PyR R p q) :
    PyR S (p.map f) (q.map g) := by
  revert h
  rcases p with _ | _ <;> rcases q with _ | _ <;> intro h
  · exact h
  · exact h.elim
  · exact h.elim
  · exact hf _ _ h

/-! ### The grid -/

/-- columns with the same items in the same rows -/
abbrev ColR : Col → Col → Prop := Pairs2 (Pairs2 Sm)
/-- grids with the same items in the same cells -/
abbrev TrR : Trellis → Trellis → Prop := Pairs2 ColR
/-- the same IDs with the same items -/
def AgR (a b : Agendum) : Prop := a.1 = b.1 ∧ Pairs2 Sm a.2 b.2

theorem refIds_same {x y : Obj} (h : Sm x y) : refIds x = refIds y := by
  simp only [refIds, h.attr]

theorem pairs_same {l l' : List Obj} (h : Pairs2 Sm l l') : PyR (Pairs2 fun p q => p.1 = q.1 ∧ Sm p.2 q.2) (pairs l) (pairs l') := by
  induction h with
  | nil => exact .nil
  | cons h1 _ ih =>
    unfold pairs
    refine pyR_bind (pyR_eq.2 (refIds_same h1)) fun i _ hi => pyR_bind ih fun _ _ hp => ?_
    subst hi
    exact .cons ⟨rfl, h1⟩ hp

theorem group_same {l l' : List (List Str × Obj)} (h : Pairs2 (fun p q => p.1 = q.1 ∧ Sm p.2 q.2) l l') : Pairs2 AgR (group l) (group l') := by
  induction h with
  | nil => exact .nil
  | @cons x y l l' h1 _ ih =>
    obtain ⟨i, x⟩ := x
    obtain ⟨i', y⟩ := y
    obtain ⟨h1, h2⟩ := h1
    simp only at h1 h2
    subst h1
    unfold group
    revert ih
    generalize group l = g
    generalize group l' = g'
    intro ih
    cases ih with
    | nil => exact .cons ⟨rfl, .cons h2 .nil⟩ .nil
    | @cons a b _ _ k1 k2 =>
      obtain ⟨j, ys⟩ := a
      obtain ⟨j', ys'⟩ := b
      obtain ⟨k1, k3⟩ := k1
      simp only at k1 k3
      subst k1
      simp only
      split
      · exact .cons ⟨rfl, .cons h2 k3⟩ k2
      · exact .cons ⟨rfl, .cons h2 .nil⟩ (.cons ⟨rfl, k3⟩ k2)

theorem agenda_same {x y : Obj} (h : Sm x y) : PyR (Pairs2 AgR) (agenda x) (agenda y) :=
  pyR_map (fun _ _ h => group_same h) (pairs_same (smL_pairs _ _ h.kids))

theorem rowIds_same {r r' : List Obj} (h : Pairs2 Sm r r') (i : Nat) : (r.map fun x => (x.data.id, i)) = r'.map fun x => (x.data.id, i) := by
  induction h with
  | nil => rfl
  | cons h1 _ ih => simp only [List.map_cons, h1.id, ih]

theorem idxmap_same (depth : Nat) {t t' : Trellis} (h : TrR t t') : ∀ i, idxmap depth i t = idxmap depth i t' := by
  induction h with
  | nil => intro i; rfl
  | cons h1 _ ih =>
    intro i
    unfold idxmap
    rcases pairs_get h1 depth with ⟨e1, e2⟩ | ⟨r, r', e1, e2, e3⟩
    · simp only [e1, e2]
    · simp only [e1, e2, ih, rowIds_same e3]

theorem rowShown_same {r r' : List Obj} (h : Pairs2 Sm r r') : rowShown r = rowShown r' := by
  have : (r.all fun x => x.data.id.isSome) = r'.all fun x => x.data.id.isSome := by
    induction h with
    | nil => rfl
    | cons h1 _ ih => simp only [List.all_cons, h1.id, ih]
  simp only [rowShown, this]

theorem rowsShown_same {r r' : List (List Obj)} (h : ColR r r') : rowsShown r = rowsShown r' := by
  induction h with
  | nil => rfl
  | cons h1 _ ih => simp only [rowsShown, rowShown_same h1, ih]

theorem shown_same {t t' : Trellis} (h : TrR t t') : shown t = shown t' := by
  induction h with
  | nil => rfl
  | cons h1 _ ih => simp only [shown, rowsShown_same h1, ih, pairs_nil h1]

theorem addRow_same {c c' : Col} (h : ColR c c') : ColR (c ++ [[]]) (c' ++ [[]]) := h.append (.cons .nil .nil)

theorem advance_same (next start : Nat) {t t' : Trellis} (h : TrR t t') : TrR (advance next start t) (advance next start t') := by
  refine pairs_map (R := fun p q : Col × Nat => ColR p.1 q.1 ∧ p.2 = q.2) (fun p q hpq => ?_) (pairs_zip h 0)
  rw [hpq.2]
  split
  · exact addRow_same hpq.1
  · exact hpq.1

theorem blank_same : ∀ n : Nat, ColR (List.replicate n []) (List.replicate n [])
  | 0 => .nil
  | n + 1 => .cons .nil (blank_same n)

theorem addDelayed_same (pos depth : Nat) {d d' : List Agendum} (hd : Pairs2 AgR d d') : ∀ {t t' : Trellis}, TrR t t' →
    TrR (addDelayed pos depth d t) (addDelayed pos depth d' t') := by
  induction hd with
  | nil => intro t t' h; exact h
  | cons h1 _ ih =>
    intro t t' h
    unfold addDelayed
    exact ih (((pairs_take h pos).append (.cons ((blank_same depth).append (.cons h1.2 .nil)) .nil)).append (pairs_drop h pos))

theorem lengths_same {t t' : Trellis} (h : TrR t t') : t.map List.length = t'.map List.length := by
  induction h with
  | nil => rfl
  | cons h1 _ ih => simp only [List.map_cons, pairs_length h1, ih]

theorem getD_same {c c' : Col} (h : ColR c c') (j : Nat) : Pairs2 Sm (c.getD j []) (c'.getD j []) := by
  rcases pairs_get h j with ⟨e1, e2⟩ | ⟨r, r', e1, e2, e3⟩
  · simp only [List.getD_eq_getElem?_getD, e1, e2]; exact .nil
  · simp only [List.getD_eq_getElem?_getD, e1, e2]; exact e3

theorem mergeCols_same {t t' : Trellis} (h : TrR t t') : ColR (mergeCols t) (mergeCols t') := by
  unfold mergeCols
  rw [lengths_same h]
  exact pairs_map (R := Eq) (fun j _ hj => by subst hj; exact pairs_flatMap (R := ColR) (fun _ _ hc => getD_same hc j) h) (pairs_refl (fun _ => rfl) _)

theorem mergeColumns_same {t t' : Trellis} (h : TrR t t') (s e : Nat) : TrR (mergeColumns t s e) (mergeColumns t' s e) :=
  ((pairs_take h s).append (.cons (mergeCols_same (pairs_take (pairs_drop h s) _)) .nil)).append (pairs_drop h e)

theorem extend_same {t t' : Trellis} (h : TrR t t') (idx depth : Nat) {xs ys : List Obj} (hx : Pairs2 Sm xs ys) :
    PyR TrR (extend t idx depth xs) (extend t' idx depth ys) := by
  unfold extend
  rcases pairs_get h idx with ⟨e1, e2⟩ | ⟨c, c', e1, e2, e3⟩
  · simp only [e1, e2]; rfl
  · simp only [e1, e2]
    rcases pairs_get e3 depth with ⟨k1, k2⟩ | ⟨r, r', k1, k2, k3⟩
    · simp only [k1, k2]; rfl
    · simp only [k1, k2]
      exact pairs_set h (pairs_set e3 (k3.append hx) depth) idx

/-- the variables are the same -/
def StR (s s' : St) : Prop := TrR s.t s'.t ∧ Pairs2 AgR s.delay s'.delay ∧ s.next = s'.next ∧ s.map = s'.map

theorem fill_same {s s' : St} (hs : StR s s') (start stop next depth : Nat) {t t' : Trellis} (h : TrR t t') :
    PyR (fun p q => TrR p.1 q.1 ∧ p.2 = q.2) (fill s start stop next depth t) (fill s' start stop next depth t') := by
  unfold fill
  have hd := addDelayed_same start depth hs.2.1 h
  simp only [pairs_nil hs.2.1, pairs_length hs.2.1]
  split
  · exact ⟨h, rfl⟩
  · exact pyR_bind (pyR_eq.2 (idxmap_same _ hd 0)) fun _ _ _ => ⟨hd, rfl⟩

theorem merge_same (start stop depth : Nat) {t t' : Trellis} (h : TrR t t') : PyR TrR (merge start stop depth t) (merge start stop depth t') := by
  unfold merge
  have hm := mergeColumns_same h start (stop + 1)
  split
  · exact h
  · exact pyR_bind (pyR_eq.2 (idxmap_same _ hm 0)) fun _ _ _ => pyR_bind (pyR_eq.2 (shown_same hm)) fun _ _ _ => hm

theorem place_same (depth : Nat) {s s' : St} (hs : StR s s') (i : Str) (is : List Str) {xs ys : List Obj} (hx : Pairs2 Sm xs ys) :
    PyR StR (place depth s i is xs) (place depth s' i is ys) := by
  unfold place
  rw [hs.2.2.2, hs.2.2.1]
  refine pyR_bind (pyR_eq.2 rfl) fun a _ ha => ?_
  subst ha
  refine pyR_bind (pyR_eq.2 rfl) fun b _ hb => ?_
  subst hb
  refine pyR_bind (fill_same hs _ _ _ _ (advance_same _ _ hs.1)) fun p q hpq => ?_
  rw [hpq.2]
  refine pyR_bind (merge_same _ _ _ hpq.1) fun t t' ht => ?_
  refine pyR_bind (pyR_eq.2 (idxmap_same _ ht 0)) fun m _ hm => ?_
  subst hm
  exact pyR_bind (extend_same ht _ _ hx) fun _ _ hu => ⟨hu, .nil, rfl, rfl⟩

theorem step_same (depth : Nat) {s s' : St} (hs : StR s s') {a b : Agendum} (h : AgR a b) : PyR StR (step depth s a) (step depth s' b) := by
  obtain ⟨i, xs⟩ := a
  obtain ⟨j, ys⟩ := b
  obtain ⟨h1, h2⟩ := h
  simp only at h1 h2
  subst h1
  unfold step
  refine pyR_bind (pyR_eq.2 (shown_same hs.1)) fun _ _ _ => ?_
  cases i with
  | nil => exact ⟨hs.1, hs.2.1.append (.cons ⟨rfl, h2⟩ .nil), hs.2.2⟩
  | cons i is => exact place_same depth hs i is h2

theorem run_same (depth : Nat) {l l' : List Agendum} (h : Pairs2 AgR l l') : ∀ {s s' : St}, StR s s' → PyR StR (run depth s l) (run depth s' l') := by
  induction h with
  | nil => intro s s' hs; exact hs
  | cons h1 _ ih =>
    intro s s' hs
    unfold run
    exact pyR_bind (step_same depth hs h1) fun _ _ hs => ih hs

theorem finish_same (depth : Nat) {s s' : St} (hs : StR s s') : TrR (finish depth s) (finish depth s') := by
  unfold finish
  rw [hs.2.2.1, pairs_length hs.1]
  refine pairs_map (R := fun p q : Col × Nat => ColR p.1 q.1 ∧ p.2 = q.2) (fun p q hpq => ?_) (pairs_zip (addDelayed_same _ _ hs.2.1 hs.1) 0)
  rw [hpq.2]
  split
  · exact addRow_same hpq.1
  · exact hpq.1

theorem alignTier_same {t t' : Trellis} (h : TrR t t') {x y : Obj} (hx : Sm x y) : PyR TrR (alignTier t x) (alignTier t' y) := by
  cases h with
  | nil => rfl
  | cons h1 h2 =>
    unfold alignTier
    simp only [pairs_length h1]
    refine pyR_bind (agenda_same hx) fun a b hab => ?_
    refine pyR_bind (pyR_eq.2 (idxmap_same _ (.cons h1 h2) 0)) fun m _ hm => ?_
    subst hm
    refine pyR_bind (R := StR) (run_same _ hab ?_) fun _ _ hs => ?_
    · exact ⟨.cons h1 h2, .nil, rfl, rfl⟩
    · exact finish_same _ hs

theorem alignTiers_same {l l' : List Obj} (h : Pairs2 Sm l l') : ∀ {t t' : Trellis}, TrR t t' → PyR TrR (alignTiers t l) (alignTiers t' l') := by
  induction h with
  | nil => intro t t' ht; exact ht
  | cons h1 _ ih =>
    intro t t' ht
    unfold alignTiers
    exact pyR_bind (alignTier_same ht h1) fun _ _ hs => ih hs

theorem groupAlignments_same {l l' : List Obj} (h : Pairs2 Sm l l') : PyR TrR (groupAlignments l) (groupAlignments l') := by
  cases h with
  | nil => rfl
  | cons h1 h2 => exact alignTiers_same h2 (pairs_map (fun _ _ h => .cons (.cons h .nil) .nil) (smL_pairs _ _ h1.kids))

/-! ### The text -/

theorem rowTexts_same (cfg : Cfg) (n : Nat) {g g' t t' : Obj} (hg : Sm g g') (ht : Sm t t') {xs ys : List Obj} (h : Pairs2 Sm xs ys) :
    rowTexts cfg n g t xs = rowTexts cfg n g' t' ys := by
  induction h with
  | nil => rfl
  | cons h1 _ ih => simp only [rowTexts, ht.type, ih, value_same n (some g) (some g') (some t) (some t') _ _ hg ht h1]

theorem cell_same (cfg : Cfg) (n : Nat) {g g' t t' : Obj} (hg : Sm g g') (ht : Sm t t') (i : Nat) {c c' : Col} (h : ColR c c') :
    cell cfg n g t i c = cell cfg n g' t' i c' := by
  unfold cell
  rcases pairs_get h i with ⟨e1, e2⟩ | ⟨r, r', e1, e2, e3⟩
  · simp only [e1, e2]
  · simp only [e1, e2, rowTexts_same cfg n hg ht e3]

theorem cells_same (cfg : Cfg) (n : Nat) {g g' t t' : Obj} (hg : Sm g g') (ht : Sm t t') (i : Nat) {r r' : Trellis} (h : TrR r r') :
    cells cfg n g t i r = cells cfg n g' t' i r' := by
  induction h with
  | nil => rfl
  | cons h1 _ ih => simp only [cells, cell_same cfg n hg ht i h1, ih]

theorem rowLines_same (cfg : Cfg) (n : Nat) {g g' : Obj} (hg : Sm g g') {ts ts' : List Obj} (ht : Pairs2 Sm ts ts') {r r' : Trellis} (h : TrR r r') :
    ∀ k i, rowLines cfg n g ts r k i = rowLines cfg n g' ts' r' k i := by
  intro k
  induction k with
  | zero => intro i; rfl
  | succ k ih =>
    intro i
    unfold rowLines
    rcases pairs_get ht i with ⟨e1, e2⟩ | ⟨t, t', e1, e2, e3⟩
    · simp only [e1, e2]
    · simp only [e1, e2, cells_same cfg n hg e3 i h, ih, e3.type]

theorem transLines_same (cfg : Cfg) (n : Nat) {g g' : Obj} (hg : Sm g g') {ts ts' : List Obj} (ht : Pairs2 Sm ts ts') :
    transLines cfg n g ts = transLines cfg n g' ts' := by
  induction ht with
  | nil => rfl
  | @cons t t' _ _ h1 _ ih =>
    unfold transLines
    rw [h1.type, ih]
    have hk := smL_pairs _ _ h1.kids
    revert hk
    generalize t.kids = k
    generalize t'.kids = k'
    intro hk
    cases hk with
    | nil => cases decide (t'.data.type = some (lit! "translations")) <;> rfl
    | cons h2 _ =>
      cases decide (t'.data.type = some (lit! "translations"))
      · rfl
      · simp only [value_same n (some g) (some g') (some t) (some t') _ _ hg h1 h2]

theorem block_same (cfg : Cfg) (n : Nat) {g g' : Obj} (hg : Sm g g') {ts ts' : List Obj} (ht : Pairs2 Sm ts ts') {r r' : Trellis} (h : TrR r r') :
    block cfg n g ts r = block cfg n g' ts' r' := by
  cases h with
  | nil => rfl
  | cons h1 h2 =>
    simp only [block, pairs_length h1, pairs_length ht, rowLines_same cfg n hg ht (.cons h1 h2), transLines_same cfg n hg (smL_pairs _ _ hg.kids)]

theorem exportIgt_same (cfg : Cfg) (n : Nat) {g g' : Obj} (h : Sm g g') : exportIgt cfg n g = exportIgt cfg n g' := by
  have ht : Pairs2 Sm (g.kids.filter (wanted cfg)) (g'.kids.filter (wanted cfg)) :=
    pairs_filter (fun x y h => by simp only [wanted, h.type]) (smL_pairs _ _ h.kids)
  have hall : ∀ {l l' : List Obj}, Pairs2 Sm l l' → (l.all fun x => x.data.id.isSome) = l'.all fun x => x.data.id.isSome := by
    intro l l' hl
    induction hl with
    | nil => rfl
    | cons h1 _ ih => simp only [List.all_cons, h1.id, ih]
  unfold exportIgt
  simp only [pairs_length ht, hall ht, h.id]
  split
  · rfl
  · split
    · exact pyR_eq.1 (pyR_bind (groupAlignments_same ht) fun t t' h' => pyR_eq.2 (by rw [block_same cfg n h ht h']))
    · rfl

theorem exportDoc_same (cfg : Cfg) (n : Nat) {x y : Obj} (h : Sm x y) : exportDoc cfg n x.kids = exportDoc cfg n y.kids := by
  unfold exportDoc
  have := mapPy_same2 (S := Eq) (fun _ _ h => pyR_eq.2 (exportIgt_same cfg n h)) (smL_pairs _ _ h.kids)
  refine pyR_eq.1 (pyR_bind this fun a b hab => ?_)
  have : a = b := by
    induction hab with
    | nil => rfl
    | cons h _ ih => rw [h, ih]
  subst this
  exact pyR_eq.2 rfl

/-! ### Theorems -/

/-- **C146**: equal corpora are exported to the same document, or exporting them raises the same. -/
theorem C146_latex (cfg : Cfg) (n : Nat) (x y : Obj) (h : Equal x y) : exportDoc cfg n x.kids = exportDoc cfg n y.kids :=
  exportDoc_same cfg n ⟨(C10_eq_is_same_data x y h.1 h.2.1 h.2.2.1).1 h.2.2.2, h.1⟩

/-- **C146** for XML: a corpus whose data XML keeps (C40) is exported as what is loaded from its file. -/
theorem C146_xml [XmlLex] (cfg : Cfg) (n : Nat) (x : Obj) (hc : x.cls = .corpus) (hw : x.WF) (hv : x.Valid) (hk : XmlKept [] x) (hn : NamesOK [] x)
    (look : Nat → Nat) (ind : Option Int) : ∃ s y, dumpsXml ind x = .ok s ∧ loadsXml look s = .ok y ∧ exportDoc cfg n x.kids = exportDoc cfg n y.kids := by
  obtain ⟨s, y, h1, h2, h3, -⟩ := C90_partial x hc hw hv hk hn look ind
  exact ⟨s, y, h1, h2, exportDoc_same cfg n ⟨h3.symm, hw⟩⟩

/-- **C146** for JSON: a corpus whose data JSON keeps (C38) is exported as what is loaded from its file. -/
theorem C146_json (cfg : Cfg) (n : Nat) (x : Obj) (hc : x.cls = .corpus) (hw : x.WF) (hv : x.Valid) (hk : JsonKept noScope x) (ind : Option Int) :
    ∃ s y, dumpsJson ind x = .ok s ∧ loadsJson s = .ok y ∧ exportDoc cfg n x.kids = exportDoc cfg n y.kids := by
  obtain ⟨j, y, h1, h2, h3, -⟩ := C38_partial x hc hw hv hk
  have := C91_text x ind
  obtain ⟨s, y', g1, g2, -⟩ := C91_equal x ind hc hw hv hk
  rw [g1, h1] at this
  simp only [bind, Except.bind, h2, g2] at this
  cases this
  exact ⟨s, y, g1, g2, exportDoc_same cfg n ⟨h3.symm, hw⟩⟩

end

section
attribute [local instance] asciiUni

/-- a corpus with the example, one word of which has these attributes -/
def exSame (as : Dict Str Str) : Obj :=
  .mk { cls := .corpus } [] [.mk igtData [] [.mk (tierData (lit! "w") (lit! "words")) [] [.mk (itemData (lit! "w1") as (some (lit! "il"))) [] [],
    word (lit! "w2") (lit! "ne"), word (lit! "w3") (lit! "dort")], exM, exG, exT]]

/-- equal corpora that are not the same, and what they are exported to -/
example : ∃ x y : Obj, x = exSame [(lit! "a", lit! "1"), (lit! "b", lit! "2")] ∧ y = exSame [(lit! "b", lit! "2"), (lit! "a", lit! "1")] ∧ Equal x y ∧
    exportDoc exCfg 1 x.kids = .ok (docText [lit! "\\begin{exe}\\small\n\\ex\\glll\n{il} {ne dort}\\\\\n{i l} {\\{\\}\\_\\&}\\\\\n{he} {NEG.sleeps}\\\\\n\\trans He does not sleep\n\\end{exe}"]) :=
  ⟨_, _, rfl, rfl, ⟨wf_of_B (n := 9) (by decide +kernel), wf_of_B (n := 9) (by decide +kernel), rfl, by decide +kernel⟩, by decide +kernel⟩

end
end Xigt.Ltx
