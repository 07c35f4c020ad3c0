import Verif.Import.ToolboxValid
/-
C137: what the ODIN importer (/repo/xigt/importers/odin.py) makes, and the validator
(/repo/xigt/scripts/xigt_validate.py).
-/
set_option linter.unusedSectionVars false

namespace Xigt.Odin
open Xigt.Vld

section
variable [Uni]

/-- no reference attribute -/
def NoRefs (x : Obj) : Prop := ∀ ra ∈ refAttrs, Dict.get? x.data.attrs ra = none

/-- one tier `r` of items that are numbered and have a text; no references -/
def Raw (g : Obj) : Prop :=
  ∃ t n, g.kids = [t] ∧ t.data.id = some (lit! "r") ∧ NoRefs t ∧
    (t.kids.map fun x => x.data.id) = (List.range n).map (fun k => some (lit! "r" ++ natStr (k + 1))) ∧
    ∀ x ∈ t.kids, x.data.text ≠ none ∧ NoRefs x

theorem r_ok : IdOK (lit! "r") := ⟨'r', [], rfl, by decide, by simp⟩

theorem Raw.clean {g : Obj} (h : Raw g) : Clean g := by
  obtain ⟨t, n, hk, h1, h2, h3, h4⟩ := h
  have mem : ∀ t' ∈ g.kids, t' = t := by intro t' ht; rw [hk] at ht; exact List.mem_singleton.1 ht
  have idx : ∀ (j : Nat) t', g.kids[j]? = some t' → j = 0 := by
    intro j t' hj
    rw [hk] at hj
    cases j with
    | zero => rfl
    | succ j => simp at hj
  refine ⟨?_, ?_, ?_, ?_, ?_, ?_⟩
  · intro j t' hj
    exact not_repeated (by rw [hk]; simp) j t' hj
  · intro j t' hj k x
    have := mem t' (List.mem_of_getElem? hj)
    subst this
    refine not_repeated ?_ k x
    rw [h3, List.nodup_iff_pairwise_ne, List.pairwise_map]
    refine List.Pairwise.imp ?_ (List.nodup_iff_pairwise_ne.1 List.nodup_range)
    intro a b hab e
    simp only [Option.some.injEq, List.append_cancel_left_eq] at e
    have := natStr_inj e
    omega
  · intro j' t' j t'' hj' hj y hy x hx s _ _
    rw [idx j' t' hj', idx j t'' hj]
  · intro t' ht x hx ra hra hne
    have := mem t' ht
    subst this
    exact absurd ((h4 x hx).2 ra hra) hne
  · intro t' ht ra hra s hs
    have := mem t' ht
    subst this
    rw [h2 ra hra] at hs
    cases hs
  · intro t' ht x hx ra hra e s u he
    have := mem t' ht
    subst this
    rw [(h4 x hx).2 ra hra] at he
    cases he

theorem Raw.checkable {g : Obj} (h : Raw g) (depth : Nat) : Checkable (depth + 1) g := by
  obtain ⟨t, n, hk, h1, h2, h3, h4⟩ := h
  have mem : ∀ t' ∈ g.kids, t' = t := by intro t' ht; rw [hk] at ht; exact List.mem_singleton.1 ht
  refine ⟨?_, ?_, ?_, ?_, ?_⟩
  · intro t' ht i hi
    have := mem t' ht
    subst this
    rw [h1] at hi; cases hi; exact r_ok
  · intro t' ht x hx i hi
    have := mem t' ht
    subst this
    have : x.data.id ∈ t'.kids.map fun x => x.data.id := List.mem_map.2 ⟨x, hx, rfl⟩
    rw [h3] at this
    obtain ⟨k, _, e⟩ := List.mem_map.1 this
    rw [hi] at e; cases e; exact r_ok.number _
  · intro t' ht x hx ra hra e he _
    have := mem t' ht
    subst this
    rw [(h4 x hx).2 ra hra] at he
    cases he
  · intro t' ht x hx
    have := mem t' ht
    subst this
    obtain ⟨s, hs⟩ := Option.ne_none_iff_exists'.1 (h4 x hx).1
    exact ⟨_, value_text hs ..⟩
  · intro t' ht x hx ra E u hir _ s _ _ y hy hv
    have := mem u (itemRef_mem hir).1
    subst this
    obtain ⟨w, hw⟩ := Option.ne_none_iff_exists'.1 (h4 y (List.mem_of_find?_eq_some hy)).1
    rw [value_text hw] at hv
    cases hv

/-- no ID twice: nothing is repeated -/
theorem ids_not_repeated {xs : List Obj} (h : (xs.filterMap fun x => x.data.id).Nodup) (k : Nat) (x : Obj) (hk : xs[k]? = some x) :
    ¬ Repeated xs k x := by
  rintro ⟨s, hs, -, k', y, hlt, hy, hys⟩
  rw [List.nodup_iff_pairwise_ne, List.pairwise_filterMap] at h
  obtain ⟨l1, g1⟩ := List.getElem?_eq_some_iff.1 hk
  obtain ⟨l2, g2⟩ := List.getElem?_eq_some_iff.1 hy
  have := List.pairwise_iff_getElem.1 h k' k l2 l1 hlt s (by rw [g2, hys]) s (by rw [g1, hs])
  exact this rfl

theorem raw_passes {igts : List Obj} (h : ∀ g ∈ igts, Raw g) (hd : (igts.filterMap fun g => g.data.id).Nodup) (depth : Nat)
    (seen : List Str) (c : Obj) (hc : ∀ s, c.data.id = some s → s ∉ seen) :
    ∃ r, validateCorpus (depth + 1) seen ⟨c, igts.map .ok⟩ = .ok r ∧ ¬ Problem ERROR r := by
  obtain ⟨r, hr⟩ := C70_finishes (depth + 1) seen c igts fun g hg => (h g hg).checkable depth
  exact ⟨r, hr, clean_passes hr hc (fun i g => ids_not_repeated hd i g) fun g hg => (h g hg).clean⟩

/-- the lines of a block say nothing under `segmentation` or `alignment` -/
def PlainLines (b : Block) : Prop :=
  ∀ l ∈ b.lines.getD [], l.WF ∧ Dict.get? l SEGMENTATION = none ∧ Dict.get? l ALIGNMENT = none

theorem imported_raw {title : Str → Str} {o : Opts} {b : Block} (hp : PlainLines b) {g : Obj} (h : makeIgt title o b = .ok g) :
    Raw g ∧ g.data.id = b.igtId := by
  obtain ⟨d, f, l, ty, hc⟩ := C75_incomplete title o b g h
  obtain ⟨g', hg', hi⟩ := C75_complete title o b d f l ty hc
  rw [hg'] at h
  cases h
  obtain ⟨t, ht, hd, -, hlen, hline⟩ := hi.tier
  have line : ∀ (k : Nat) y, t.kids[k]? = some y → ∃ l ∈ b.lines.getD [], Line o l (k + 1) y := by
    intro k y hy
    obtain ⟨hl, -⟩ := List.getElem?_eq_some_iff.1 hy
    rw [hlen] at hl
    exact ⟨_, List.getElem_mem hl, hline k _ y (List.getElem?_eq_getElem hl) hy⟩
  refine ⟨⟨t, t.kids.length, ht, by rw [hd], ?_, ?_, ?_⟩, hi.id⟩
  · intro ra hra
    rw [hd]
    simp only [refAttrs, List.mem_cons, List.not_mem_nil, or_false] at hra
    rcases hra with rfl | rfl | rfl <;> rfl
  · apply List.ext_getElem?
    intro k
    rw [List.getElem?_map, List.getElem?_map]
    cases hy : t.kids[k]? with
    | none =>
      rw [List.getElem?_eq_none_iff] at hy
      rw [List.getElem?_eq_none_iff.2 (by simpa using hy)]
      rfl
    | some y =>
      obtain ⟨hl, -⟩ := List.getElem?_eq_some_iff.1 hy
      obtain ⟨l, -, hx⟩ := line k y hy
      rw [List.getElem?_range hl]
      simp [hx.id]
  · intro x hx
    obtain ⟨k, hk⟩ := List.mem_iff_getElem?.1 hx
    obtain ⟨l, hl, hx⟩ := line k x hk
    obtain ⟨w, s1, s2⟩ := hp l hl
    obtain ⟨s, -, hs⟩ := hx.text
    refine ⟨by rw [hs]; simp, ?_⟩
    intro ra hra
    rw [hx.attrs w]
    simp only [refAttrs, List.mem_cons, List.not_mem_nil, or_false] at hra
    split
    · rfl
    · next hne =>
      rcases hra with rfl | rfl | rfl
      · exact s2
      · exact s1
      · exact absurd rfl hne

theorem odinIgts_raw {title : Str → Str} {o : Opts} {bs : List Block} {xs : List Obj} (hp : ∀ b ∈ bs, PlainLines b)
    (h : odinIgts title o bs = .ok xs) : (∀ g ∈ xs, Raw g) ∧ (xs.filterMap fun x => x.data.id) = bs.filterMap fun b => b.igtId := by
  replace h := (C75_all title o bs xs).1 h
  induction h with
  | nil => exact ⟨by simp, rfl⟩
  | cons hx _ ih =>
    obtain ⟨i1, i2⟩ := ih fun b hb => hp b (List.mem_cons_of_mem _ hb)
    obtain ⟨r1, r2⟩ := imported_raw (hp _ (List.mem_cons_self ..)) hx
    refine ⟨?_, ?_⟩
    · intro g hg
      rcases List.mem_cons.1 hg with rfl | hg
      · exact r1
      · exact i1 g hg
    · simp only [List.filterMap_cons, r2, i2]

theorem NoRefs.same {x y : Obj} (h : SameData x y) (hy : NoRefs y) : NoRefs x := by
  intro ra hra
  have := hy ra hra
  cases hg : Dict.get? x.data.attrs ra with
  | none => rfl
  | some v =>
    have hm := (same_inv h).2.2.1.mem_iff.1 (Dict.get?_mem hg)
    have : Dict.has y.data.attrs ra = true := exists_mem_iff.1 ⟨v, hm⟩
    rw [(Dict.has_false_iff ..).2 (hy ra hra)] at this
    cases this

theorem Raw.same {x y : Obj} (h : SameData x y) (hy : Raw y) : Raw x := by
  obtain ⟨u, n, hk, h1, h2, h3, h4⟩ := hy
  have hl := (same_inv h).2.2.2.1
  rw [hk] at hl
  obtain ⟨t, ht⟩ : ∃ t, x.kids = [t] := List.length_eq_one_iff.1 hl
  obtain ⟨u', hu', hs⟩ := same_left h (a := t) (by rw [ht]; simp)
  rw [hk] at hu'
  cases List.mem_singleton.1 hu'
  refine ⟨t, n, ht, (same_inv hs).1.trans h1, h2.same hs, (same_ids hs).trans h3, ?_⟩
  intro a ha
  obtain ⟨b, hb, hab⟩ := same_left hs ha
  exact ⟨by rw [(same_inv hab).2.1]; exact (h4 b hb).1, .same hab (h4 b hb).2⟩

/-! ### C137 -/

/-- **C137** for blocks with different IDs (or none) and lines that say nothing under `segmentation` and `alignment`: the validator
finishes with the corpus of what is imported from ODIN, and reports no error.  Missing: other blocks (`C137_refuted`,
`C137_refuted_refs`). -/
theorem C137_partial (title : Str → Str) (o : Opts) (bs : List Block) (hp : ∀ b ∈ bs, PlainLines b)
    (hd : (bs.filterMap fun b => b.igtId).Nodup) (xs : List Obj) (h : odinIgts title o bs = .ok xs) (depth : Nat) (seen : List Str) :
    ∃ r, validateCorpus (depth + 1) seen ⟨corpus xs, xs.map .ok⟩ = .ok r ∧ ¬ Problem ERROR r := by
  obtain ⟨h1, h2⟩ := odinIgts_raw hp h
  exact raw_passes h1 (by rw [h2]; exact hd) depth seen _ (by intro s hs; cases hs)

end

section
variable [Uni] [XmlLex]

/-- **C137**, through the file: with what C76 asks for as well, the written file can be read, and what is read passes. -/
theorem C137_file (title : Str → Str) (o : Opts) (hn : ∀ s ∈ names, XmlLex.ncName s = true) {r : Char} (hr : Legal r) (hr' : r ≠ '\r')
    (ho : o.repl = [r]) (bs : List Block) (hb : ∀ b ∈ bs, ∃ doc first last types, Writable title o b doc first last types)
    (hp : ∀ b ∈ bs, PlainLines b) (hd : (bs.filterMap fun b => b.igtId).Nodup) (look : Nat → Nat) (ind : Option Int) (depth : Nat)
    (seen : List Str) : ∃ xs y r, odinIgts title o bs = .ok xs ∧ writeRead look ind (corpus xs) = .ok y ∧
      validateCorpus (depth + 1) seen ⟨y, y.kids.map .ok⟩ = .ok r ∧ ¬ Problem ERROR r := by
  obtain ⟨xs, y, h1, h2, h3, -⟩ := C76_partial title o hn hr hr' ho bs hb hd look ind
  obtain ⟨k1, k2⟩ := odinIgts_raw hp h1
  obtain ⟨q, h4, h5⟩ := raw_passes (igts := y.kids) (by
    intro g hg
    obtain ⟨b, hb, hs⟩ := same_left h3 hg
    exact .same hs (k1 b hb)) (by
    have : (y.kids.filterMap fun g => g.data.id) = xs.filterMap fun g => g.data.id := by
      have e := congrArg (List.filterMap id) (same_ids h3)
      rw [List.filterMap_map, List.filterMap_map] at e
      exact e
    rw [this, k2]; exact hd) depth seen y (by
    intro s hs
    rw [(same_inv h3).1] at hs
    cases hs)
  exact ⟨xs, y, q, h1, h2, h4, h5⟩

end

section
attribute [local instance] asciiUni asciiXml

theorem exBlock_plain : PlainLines exBlock := by
  intro l hl
  have hl' : l = [(lit! "line", lit! "959"), (lit! "content", lit! "chiens\x01")] ∨ l = [(lit! "content", lit! "dogs"), (lit! "tag", lit! "G")] := by
    simpa [exBlock] using hl
  rcases hl' with rfl | rfl <;> exact ⟨by unfold Dict.WF; decide, by decide, by decide⟩

/-- the hypotheses of `C137_partial` are met -/
example : ∃ xs r, odinIgts id {} [exBlock] = .ok xs ∧ (xs.map fun g => g.kids.map fun t => t.kids.length) = [[2]] ∧
    validateCorpus 1 [] ⟨corpus xs, xs.map .ok⟩ = .ok r ∧ ¬ Problem ERROR r := by
  obtain ⟨r, h1, h2⟩ := C137_partial id {} [exBlock] (by intro b hb; cases List.mem_singleton.1 hb; exact exBlock_plain) (by decide)
    _ rfl 0 []
  exact ⟨_, r, rfl, by decide +kernel, h1, h2⟩

/-- and those of `C137_file` -/
example : ∃ xs y r, odinIgts id {} [exBlock] = .ok xs ∧ writeRead id (some 2) (corpus xs) = .ok y ∧
    validateCorpus 1 [] ⟨y, y.kids.map .ok⟩ = .ok r ∧ ¬ Problem ERROR r :=
  C137_file id {} (by decide +kernel) (r := '�') (by unfold Legal; decide) (by decide) rfl [exBlock]
    (by intro b hb; cases List.mem_singleton.1 hb; exact ⟨_, _, _, _, exBlock_writable⟩)
    (by intro b hb; cases List.mem_singleton.1 hb; exact exBlock_plain) (by decide) id (some 2) 0 []

/-- whether a corpus of igts has errors, if the validator finishes -/
def erroneous (r : Py (List Obj)) : Option Bool :=
  match r with
  | .error _ => none
  | .ok xs => match validateCorpus 9 [] ⟨corpus xs, xs.map .ok⟩ with
    | .error _ => none
    | .ok r => some (filterEmpty ERROR r).isTrue

theorem erroneous_true {p : Py (List Obj)} (h : erroneous p = some true) : ∃ xs r, p = .ok xs ∧
    validateCorpus 9 [] ⟨corpus xs, xs.map .ok⟩ = .ok r ∧ Problem ERROR r := by
  unfold erroneous at h
  split at h
  · cases h
  next xs =>
  split at h
  · cases h
  next r hr => exact ⟨xs, r, rfl, hr, (filterEmpty_true ERROR r).1 (by simpa using h)⟩

/-- **C137** is false as stated: blocks with the same ID are all imported. -/
theorem C137_refuted : ∃ bs xs r, odinIgts id {} bs = .ok xs ∧ validateCorpus 9 [] ⟨corpus xs, xs.map .ok⟩ = .ok r ∧
    Problem ERROR r := by
  obtain ⟨xs, r, h1, h2, h3⟩ := erroneous_true (p := odinIgts id {} [exBlock, exBlock]) (by decide +kernel)
  exact ⟨_, xs, r, h1, h2, h3⟩

/-- **C137** is false as stated of lines that say something under `segmentation`: it becomes a reference that leads nowhere. -/
theorem C137_refuted_refs : ∃ b xs r, odinIgts id {} [b] = .ok xs ∧ validateCorpus 9 [] ⟨corpus xs, xs.map .ok⟩ = .ok r ∧
    Problem ERROR r := by
  obtain ⟨xs, r, h1, h2, h3⟩ := erroneous_true (p := odinIgts id {} [{ exBlock with
    lines := some [[(lit! "content", lit! "dogs"), (lit! "segmentation", lit! "none")]] }]) (by decide +kernel)
  exact ⟨_, xs, r, h1, h2, h3⟩

end

end Xigt.Odin
