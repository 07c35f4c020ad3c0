import Verif.Scripts.SortValues
import Verif.Scripts.SortTwice
import Verif.Scripts.PartitionProps
import Verif.Scripts.ValidateParts
import Verif.Export.LatexDoc
import Verif.Export.LatexExamples
import Verif.Export.ItsdbDefault
/-
C164: the exports of sorted and partitioned corpora.
-/
set_option linter.unusedSectionVars false

namespace Xigt.Ltx

/-! ### Specification -/

/-- a translation is shown of a tier (latex.py:106-107) -/
def translates (t : Obj) : Bool := decide (t.data.type = some (lit! "translations"))

/-- the tiers that are shown are the same ones in the same order -/
def SameShown (cfg : Cfg) (g g' : Obj) : Prop :=
  g'.kids.filter (wanted cfg) = g.kids.filter (wanted cfg) ∧ g'.kids.filter translates = g.kids.filter translates

section
variable [Uni]

/-- the document of IGTs has the block of each of them, in their order -/
def Shows (cfg : Cfg) (n : Nat) (gs : List Obj) (blocks : Obj → Str) : Prop :=
  (∀ g ∈ gs, exportIgt cfg n g = .ok (blocks g)) ∧ exportDoc cfg n gs = .ok (docText (gs.map blocks))

/-! ### IGTs in another order -/

theorem doc_ok {cfg : Cfg} {n : Nat} {gs : List Obj} {s : Str} (h : exportDoc cfg n gs = .ok s) :
    ∀ g ∈ gs, ∃ b, exportIgt cfg n g = .ok b := by
  obtain ⟨bs, h1, -⟩ := Srt.bind_ok' h
  intro g hg
  obtain ⟨b, -, hb⟩ := Vld.mapPy_mem_ok h1 g hg
  exact ⟨b, hb⟩

theorem doc_blocks {cfg : Cfg} {n : Nat} {gs : List Obj} {f : Obj → Str} (h : ∀ g ∈ gs, exportIgt cfg n g = .ok (f g)) :
    exportDoc cfg n gs = .ok (docText (gs.map f)) := by
  have : mapPy (exportIgt cfg n) gs = .ok (gs.map f) := by
    induction gs with
    | nil => rfl
    | cons g gs ih => simp only [mapPy, h g (by simp), ih fun x hx => h x (by simp [hx]), bind, Except.bind, pure, Except.pure, List.map_cons]
  simp [exportDoc, this, bind, Except.bind, pure, Except.pure]

/-- what the block of an IGT is -/
def blockOf (cfg : Cfg) (n : Nat) (g : Obj) : Str := (exportIgt cfg n g).toOption.getD []

theorem blockOf_ok {cfg : Cfg} {n : Nat} {g : Obj} {b : Str} (h : exportIgt cfg n g = .ok b) : exportIgt cfg n g = .ok (blockOf cfg n g) := by
  simp [blockOf, h, Except.toOption]

theorem shows_iff {cfg : Cfg} {n : Nat} {gs : List Obj} : (∃ s, exportDoc cfg n gs = .ok s) ↔ ∀ g ∈ gs, ∃ b, exportIgt cfg n g = .ok b := by
  refine ⟨fun ⟨s, h⟩ => doc_ok h, fun h => ⟨_, doc_blocks (f := blockOf cfg n) fun g hg => ?_⟩⟩
  obtain ⟨b, hb⟩ := h g hg
  exact blockOf_ok hb

/-- **C164** for LaTeX and `xc.sort`: the sorted corpus can be exported if and only if the corpus can, and its document
has the same blocks, in the order that the IGTs have now. -/
theorem C164_igts (cfg : Cfg) (n : Nat) (c : XP.PCfg) (sks : List Str) (x y : Obj) (h : Srt.sortKids c sks x [] = .ok y) :
    y.kids.Perm x.kids ∧ ((∃ s, exportDoc cfg n x.kids = .ok s) ↔ ∃ s, exportDoc cfg n y.kids = .ok s) ∧
    ∀ s, exportDoc cfg n x.kids = .ok s → ∃ blocks, Shows cfg n x.kids blocks ∧ Shows cfg n y.kids blocks := by
  obtain ⟨-, hp⟩ := Srt.sortKids_perm h
  refine ⟨hp, ?_, fun s hs => ?_⟩
  · rw [shows_iff, shows_iff]
    exact ⟨fun h g hg => h g (hp.mem_iff.1 hg), fun h g hg => h g (hp.mem_iff.2 hg)⟩
  · have h1 : ∀ g ∈ x.kids, exportIgt cfg n g = .ok (blockOf cfg n g) := fun g hg => by
      obtain ⟨b, hb⟩ := doc_ok hs g hg
      exact blockOf_ok hb
    have h2 : ∀ g ∈ y.kids, exportIgt cfg n g = .ok (blockOf cfg n g) := fun g hg => h1 g (hp.mem_iff.1 hg)
    exact ⟨_, ⟨h1, doc_blocks h1⟩, h2, doc_blocks h2⟩

/-! ### Tiers in another order -/

theorem rowTexts_kept (cfg : Cfg) (n : Nat) {g g' t : Obj} (h : ∀ i, value n (some g') (some t) i = value n (some g) (some t) i) :
    ∀ xs, rowTexts cfg n g' t xs = rowTexts cfg n g t xs := by
  intro xs
  induction xs with
  | nil => rfl
  | cons x xs ih => simp only [rowTexts, h, ih]

theorem cells_kept (cfg : Cfg) (n : Nat) {g g' t : Obj} (h : ∀ i, value n (some g') (some t) i = value n (some g) (some t) i) (i : Nat) :
    ∀ T, cells cfg n g' t i T = cells cfg n g t i T := by
  intro T
  induction T with
  | nil => rfl
  | cons c T ih =>
    simp only [cells, ih]
    have : cell cfg n g' t i c = cell cfg n g t i c := by
      unfold cell
      split
      · rfl
      · rw [rowTexts_kept cfg n h]
    rw [this]

theorem rowLines_kept (cfg : Cfg) (n : Nat) {g g' : Obj} {ts : List Obj} (h : ∀ t ∈ ts, ∀ i, value n (some g') (some t) i = value n (some g) (some t) i)
    (T : Trellis) : ∀ k i, rowLines cfg n g' ts T k i = rowLines cfg n g ts T k i := by
  intro k
  induction k with
  | zero => intro i; rfl
  | succ k ih =>
    intro i
    unfold rowLines
    cases hi : ts[i]? with
    | none => rfl
    | some t => simp only [cells_kept cfg n (h t (List.mem_of_getElem? hi)), ih]

theorem trans_filter (cfg : Cfg) (n : Nat) (g : Obj) : ∀ ts, transLines cfg n g ts = transLines cfg n g (ts.filter translates) := by
  intro ts
  induction ts with
  | nil => rfl
  | cons t ts ih =>
    by_cases ht : translates t = true
    · rw [List.filter_cons_of_pos ht]
      unfold transLines
      rw [ih]
    · rw [List.filter_cons_of_neg ht, ← ih]
      unfold transLines
      simp only [translates] at ht
      split
      · rename_i h _; exact absurd h ht
      · cases ts <;> rfl

theorem trans_kept (cfg : Cfg) (n : Nat) {g g' : Obj} : ∀ {ts : List Obj}, (∀ t ∈ ts, ∀ i, value n (some g') (some t) i = value n (some g) (some t) i) →
    transLines cfg n g' ts = transLines cfg n g ts := by
  intro ts
  induction ts with
  | nil => intro _; rfl
  | cons t ts ih =>
    intro h
    unfold transLines
    rw [ih fun u hu => h u (by simp [hu])]
    split
    · rw [h t (by simp)]
    · rfl

theorem igt_kept (cfg : Cfg) (n : Nat) {g g' : Obj} (hn : Srt.Named g) (h : Srt.Reord 2 g g') (hs : SameShown cfg g g') :
    exportIgt cfg n g' = exportIgt cfg n g := by
  have hv : ∀ t ∈ g.kids, ∀ i, value n (some g') (some t) i = value n (some g) (some t) i := fun t ht i => Srt.value_sorted hn h n t t i ht rfl
  have hb : ∀ T, block cfg n g' (g.kids.filter (wanted cfg)) T = block cfg n g (g.kids.filter (wanted cfg)) T := by
    intro T
    cases T with
    | nil => rfl
    | cons c T =>
      simp only [block]
      rw [rowLines_kept cfg n fun t ht => hv t (List.mem_filter.1 ht).1, trans_filter cfg n g', hs.2, trans_filter cfg n g,
        trans_kept cfg n fun t ht => hv t (List.mem_filter.1 ht).1]
  unfold exportIgt
  simp only [hs.1, hb, show g'.data = g.data from h.1]

/-- **C164** (partial: the tiers that are shown keep their order) for LaTeX and `igt.sort`: the block is the same, or exporting
raises the same exception. -/
theorem C164_tiers_partial (cfg : Cfg) (n : Nat) (c : XP.PCfg) (sks : List Str) (g g' : Obj) (up : List Obj) (h : Srt.sortKids c sks g up = .ok g')
    (hn : Srt.Named g) (hs : SameShown cfg g g') : exportIgt cfg n g' = exportIgt cfg n g :=
  igt_kept cfg n hn (Srt.sortKids_reord 1 h) hs

/-- **C164** (partial: the tiers that are shown keep their order) for LaTeX and `igt.sort_tiers` -/
theorem C164_deps_partial (cfg : Cfg) (n k : Nat) (deps : List Str) (g : Obj) (ts : List Obj) (h : sortTiers k deps g.kids = some (.ok ts))
    (hn : Srt.Named g) (hs : SameShown cfg g (.mk g.data g.md ts)) : exportIgt cfg n (.mk g.data g.md ts) = exportIgt cfg n g :=
  igt_kept cfg n hn (Srt.depSort_reord (n := k) (deps := deps) 1 (by simp [Srt.depSort, h, Except.map])) hs

/-- **C164** (partial: the tiers that are shown keep their order) for LaTeX and `xigt sort`, whatever the keys: there is an order of the IGTs in which
they match the IGTs of the result; and if the tiers that are shown are kept in each, the document of the result has the same blocks in that order. -/
theorem C164_partial (cfg : Cfg) (n : Nat) (c : XP.PCfg) (k : Nat) (a : Srt.Args) (x y : Obj) (h : Srt.run c k a x = some (.ok y))
    (hn : ∀ g ∈ x.kids, Srt.Named g) :
    ∃ l, l.Perm x.kids ∧ All2 (fun g g' => g'.data = g.data ∧ (SameShown cfg g g' → exportIgt cfg n g' = exportIgt cfg n g)) l y.kids ∧
      (All2 (SameShown cfg) l y.kids → ((∃ s, exportDoc cfg n x.kids = .ok s) ↔ ∃ s, exportDoc cfg n y.kids = .ok s) ∧
        ∀ s, exportDoc cfg n x.kids = .ok s → ∃ blocks, Shows cfg n x.kids blocks ∧ exportDoc cfg n y.kids = .ok (docText (l.map blocks))) := by
  obtain ⟨-, -, l, hp, ha⟩ := Srt.C68_reorders c k a x y h
  refine ⟨l, hp, Srt.all2_strengthen ha fun g hg g' hr => ⟨hr.1, igt_kept cfg n (hn g (hp.mem_iff.1 hg)) hr⟩, fun hs => ?_⟩
  have he : All2 (fun g g' => exportIgt cfg n g' = exportIgt cfg n g) l y.kids := by
    have hl : ∀ g ∈ l, Srt.Named g := fun g hg => hn g (hp.mem_iff.1 hg)
    clear hp h
    generalize y.kids = m at ha hs ⊢
    induction ha with
    | nil => exact .nil
    | cons h1 _ ih =>
      cases hs with
      | cons h2 h3 => exact .cons (igt_kept cfg n (hl _ (by simp)) h1 h2) (ih (fun g hg => hl g (by simp [hg])) h3)
  have hd : exportDoc cfg n y.kids = exportDoc cfg n l := by
    have : mapPy (exportIgt cfg n) y.kids = mapPy (exportIgt cfg n) l := by
      clear hs ha hp
      generalize y.kids = m at he
      induction he with
      | nil => rfl
      | cons h1 _ ih => simp only [mapPy, h1, ih]
    simp only [exportDoc, this]
  rw [hd]
  refine ⟨?_, fun s hs => ?_⟩
  · rw [shows_iff, shows_iff]
    exact ⟨fun h g hg => h g (hp.mem_iff.1 hg), fun h g hg => h g (hp.mem_iff.2 hg)⟩
  · have h1 : ∀ g ∈ x.kids, exportIgt cfg n g = .ok (blockOf cfg n g) := fun g hg => by
      obtain ⟨b, hb⟩ := doc_ok hs g hg
      exact blockOf_ok hb
    exact ⟨_, ⟨h1, doc_blocks h1⟩, doc_blocks fun g hg => h1 g (hp.mem_iff.1 hg)⟩

/-! ### Partitions -/

/-- **C164** for LaTeX and `xigt partition` (partial: no two keys have the same file): the files that were written can be exported if and only if
the files that were read can, and the documents have the same blocks, those of a file in the order of its IGTs. -/
theorem C164_partition_partial (cfg : Cfg) (n : Nat) (env : Part.PEnv) (infiles : List Str) (out : Dict Str Obj) (h : Part.run env infiles = .ok out) :
    ∃ file, Part.Readable env file infiles ∧
      ((∀ k k', Part.Occurs env file infiles k → Part.Occurs env file infiles k' → Part.outName env k = Part.outName env k' → k = k') →
        (out.flatMap fun p => p.2.kids).Perm ((Part.firsts infiles).flatMap fun fn => (file fn).igts) ∧
        ((∀ fn ∈ infiles, ∃ s, exportDoc cfg n (file fn).igts = .ok s) ↔ ∀ p ∈ out, ∃ s, exportDoc cfg n p.2.kids = .ok s) ∧
        ∀ blocks, (∀ fn ∈ infiles, Shows cfg n (file fn).igts blocks) → (∀ p ∈ out, Shows cfg n p.2.kids blocks) ∧
          (out.flatMap fun p => p.2.kids.map blocks).Perm ((Part.firsts infiles).flatMap fun fn => (file fn).igts.map blocks)) := by
  obtain ⟨file, hr, H⟩ := Part.C49_partial env infiles out h
  refine ⟨file, hr, fun hi => ?_⟩
  obtain ⟨-, -, hp⟩ := H hi
  have hmem : ∀ g, (∃ p ∈ out, g ∈ p.2.kids) ↔ ∃ fn ∈ infiles, g ∈ (file fn).igts := by
    intro g
    have := hp.mem_iff (a := g)
    simp only [List.mem_flatMap, Part.mem_firsts] at this
    exact this
  refine ⟨hp, ?_, fun blocks hb => ⟨fun p hp => ?_, ?_⟩⟩
  · simp only [shows_iff]
    constructor
    · intro h p hp g hg
      obtain ⟨fn, h1, h2⟩ := (hmem g).1 ⟨p, hp, hg⟩
      exact h fn h1 g h2
    · intro h fn hfn g hg
      obtain ⟨p, h1, h2⟩ := (hmem g).2 ⟨fn, hfn, hg⟩
      exact h p h1 g h2
  · have h1 : ∀ g ∈ p.2.kids, exportIgt cfg n g = .ok (blocks g) := by
      intro g hg
      obtain ⟨fn, h1, h2⟩ := (hmem g).1 ⟨p, hp, hg⟩
      exact (hb fn h1).1 g h2
    exact ⟨h1, doc_blocks h1⟩
  · have := hp.map blocks
    simpa only [List.map_flatMap] using this

end
end Xigt.Ltx

namespace Xigt.Tsdb

section
variable {V : Type} (ev : Str → Obj → Py V)

theorem fill_row {igt : Obj} {cells : List (Str × Str)} : ∀ {row row₂ row' : Dict Str (Val V)}, fillRow ev igt cells row = .ok row' →
    (∀ k, k ≠ IID → Dict.get? row₂ k = Dict.get? row k) →
    ∃ row₂', fillRow ev igt cells row₂ = .ok row₂' ∧ ∀ k, k ≠ IID → Dict.get? row₂' k = Dict.get? row' k := by
  induction cells with
  | nil => intro row row₂ row' h hk; cases h; exact ⟨row₂, rfl, hk⟩
  | cons c cs ih =>
    intro row row₂ row' h hk
    simp only [fillRow, bind, Except.bind] at h ⊢
    split at h
    · cases h
    rename_i v hv
    refine ih h fun k hk' => ?_
    rw [Dict.get?_set, Dict.get?_set]
    split
    · rfl
    · exact hk k hk'

theorem from_ok {cf : Conf} : ∀ {xs : List Obj} {i : Nat}, (∃ rs, exportFrom ev cf i xs = .ok rs) ↔
    ∀ g ∈ xs, ∃ m r, exportIgt ev g m (prepare cf.cells) = .ok r := by
  intro xs
  induction xs with
  | nil => intro i; exact ⟨fun _ g hg => by simp at hg, fun _ => ⟨[], rfl⟩⟩
  | cons x xs ih =>
    intro i
    constructor
    · rintro ⟨rs, h⟩ g hg
      simp only [exportFrom, bind, Except.bind] at h
      split at h
      · cases h
      rename_i r hr
      split at h
      · cases h
      rename_i rs' hrs
      rcases List.mem_cons.1 hg with rfl | hg
      · exact ⟨_, r, hr⟩
      · exact ih.1 ⟨_, hrs⟩ g hg
    · intro h
      obtain ⟨m, r, hr⟩ := h x (by simp)
      obtain ⟨r', h1, -⟩ := fill_row ev (row₂ := [(IID, .num (cf.start + i * cf.skip))]) hr (by
        intro k hk
        have hk' : ¬ IID = k := fun e => hk e.symm
        simp [Dict.get?, hk'])
      obtain ⟨rs, hrs⟩ := (ih (i := i + 1)).2 fun g hg => h g (by simp [hg])
      refine ⟨r' :: rs, ?_⟩
      simp only [exportFrom, bind, Except.bind, exportIgt, h1, hrs]

/-- **C164** for [incr tsdb()] and `xc.sort`, whatever the cells are: the sorted corpus can be exported if and only if the corpus can; the rows are
numbered anew in the order that the IGTs have now (if no cell is called `i-id`), and all other cells are those that the IGT had before. -/
theorem C164_rows (cf : Conf) [Uni] (c : XP.PCfg) (sks : List Str) (x y : Obj) (h : Srt.sortKids c sks x [] = .ok y) :
    ((∃ rs, exportCorpus ev cf x = .ok rs) ↔ ∃ rs, exportCorpus ev cf y = .ok rs) ∧
    ∀ rs rs', exportCorpus ev cf x = .ok rs → exportCorpus ev cf y = .ok rs' → rs'.length = rs.length ∧
      ((∀ c ∈ cf.cells, c.1 ≠ IID) → ∀ (j : Nat) (r : Dict Str (Val V)), rs'[j]? = some r → Dict.get? r IID = some (.num (cf.start + j * cf.skip))) ∧
      ∀ (i j : Nat) (g : Obj) (r r' : Dict Str (Val V)), x.kids[i]? = some g → y.kids[j]? = some g → rs[i]? = some r → rs'[j]? = some r' →
        ∀ k, k ≠ IID → Dict.get? r' k = Dict.get? r k := by
  obtain ⟨-, hp⟩ := Srt.sortKids_perm h
  refine ⟨?_, fun rs rs' h1 h2 => ?_⟩
  · unfold exportCorpus
    rw [from_ok, from_ok]
    exact ⟨fun h g hg => h g (hp.mem_iff.1 hg), fun h g hg => h g (hp.mem_iff.2 hg)⟩
  · obtain ⟨l1, g1⟩ := from_get ev h1
    obtain ⟨l2, g2⟩ := from_get ev h2
    refine ⟨by rw [l1, l2, hp.length_eq], fun hk j r hr => (C61_numbers ev h2 hk).2.1 j r hr, ?_⟩
    intro i j g r r' hi hj hr hr' k hk
    have e1 := g1 i g r hi hr
    have e2 := g2 j g r' hj hr'
    obtain ⟨r'', e3, e4⟩ := fill_row ev (row₂ := [(IID, .num (cf.start + ((0 + j : Nat) : Int) * cf.skip))]) e1 (by
      intro k hk
      have hk' : ¬ IID = k := fun e => hk e.symm
      simp [Dict.get?, hk'])
    rw [exportIgt, e3] at e2
    cases e2
    exact e4 k hk

end
end Xigt.Tsdb

/-! ### Examples and refutations -/

namespace Xigt.Ltx
section
attribute [local instance] asciiUni

/-- two IGTs in the wrong order -/
def sortedEx : Obj := .mk { cls := .corpus } [] [.mk { cls := .igt, id := some (lit! "i2") } [] [], exIgt]

/-- what a corpus is exported to, and what the sorted one is -/
def sortedDocs (a : Srt.Args) (x : Obj) : Py Str × Option (Py Str) :=
  (exportDoc exCfg 10 x.kids, match Srt.run Srt.exCfg 10 a x with
    | some (.ok y) => some (exportDoc exCfg 10 y.kids)
    | _ => none)

/-- words, glosses and a translation that comes first once the tiers are sorted -/
def keptIgt : Obj := .mk igtData [] [.mk (tierData (lit! "b") (lit! "words")) [] [word (lit! "w1") (lit! "il"), word (lit! "w2") (lit! "dort")],
  .mk (tierData (lit! "c") (lit! "glosses")) [] [item (lit! "g1") (lit! "w1") (lit! "he"), item (lit! "g2") (lit! "w2") (lit! "sleeps")],
  .mk (tierData (lit! "a") (lit! "translations")) [] [word (lit! "t1") (lit! "He sleeps")]]

/-- the hypotheses of C164_igts and its result are not trivial: the blocks change places -/
example : (∃ y, Srt.sortKids Srt.exCfg [lit! "@id"] sortedEx [] = .ok y ∧ y.kids.map (fun g => g.data.id) = [some (lit! "i1"), some (lit! "i2")]) ∧
    (sortedDocs { igtKey := [lit! "@id"] } sortedEx).1.isOk ∧
    (sortedDocs { igtKey := [lit! "@id"] } sortedEx).2.map (fun r => r.isOk) = some true ∧
    (sortedDocs { igtKey := [lit! "@id"] } sortedEx).2.map Except.toOption ≠ some (sortedDocs { igtKey := [lit! "@id"] } sortedEx).1.toOption := by
  refine ⟨?_, by decide +kernel, by decide +kernel, by decide +kernel⟩
  have h : (match Srt.sortKids Srt.exCfg [lit! "@id"] sortedEx [] with
    | .ok y => decide (y.kids.map (fun g => g.data.id) = [some (lit! "i1"), some (lit! "i2")])
    | .error _ => false) = true := by decide +kernel
  split at h
  · rename_i y hy
    exact ⟨y, hy, of_decide_eq_true h⟩
  · cases h

/-- the hypotheses of C164_tiers_partial are met by tiers that change places -/
example : Srt.Named keptIgt ∧ ∃ g' s, Srt.sortKids Srt.exCfg [lit! "@id"] keptIgt [] = .ok g' ∧ SameShown exCfg keptIgt g' ∧ g'.kids ≠ keptIgt.kids ∧
    exportIgt exCfg 10 g' = .ok s ∧ exportIgt exCfg 10 keptIgt = .ok s := by
  have hn : Srt.Named keptIgt := by
    refine ⟨by decide, ?_, ?_⟩
    · intro t ht
      simp only [keptIgt, Obj.kids, List.mem_cons, List.not_mem_nil, or_false] at ht
      rcases ht with rfl | rfl | rfl <;> decide
    · intro t ht ra v _ hv
      simp only [keptIgt, Obj.kids, List.mem_cons, List.not_mem_nil, or_false] at ht
      rcases ht with rfl | rfl | rfl <;> cases hv
  have h : (match Srt.sortKids Srt.exCfg [lit! "@id"] keptIgt [] with
    | .ok g' => decide (g'.kids.map (fun t => t.data.id) = [some (lit! "a"), some (lit! "b"), some (lit! "c")])
    | .error _ => false) = true := by decide +kernel
  split at h
  · rename_i g' hg
    have hids := of_decide_eq_true h
    have hp := (Srt.sortKids_perm hg).2
    have hk : g'.kids = [keptIgt.kids[2], keptIgt.kids[0], keptIgt.kids[1]] := by
      have key : ∀ t ∈ g'.kids, t = keptIgt.kids[0] ∨ t = keptIgt.kids[1] ∨ t = keptIgt.kids[2] := by
        intro t ht
        have := hp.mem_iff.1 ht
        simpa [keptIgt, Obj.kids] using this
      have hlen : g'.kids.length = 3 := by simpa using congrArg List.length hids
      match hl : g'.kids, hlen with
      | [a, b, c], _ =>
        rw [hl] at key hids
        simp only [List.map_cons, List.map_nil, List.cons.injEq, and_true] at hids
        obtain ⟨ha, hb, hc⟩ := hids
        have h1 := key a (by simp)
        have h2 := key b (by simp)
        have h3 := key c (by simp)
        simp only [List.cons.injEq, and_true]
        refine ⟨?_, ?_, ?_⟩
        · rcases h1 with rfl | rfl | rfl
          · exact absurd ha (by decide)
          · exact absurd ha (by decide)
          · rfl
        · rcases h2 with rfl | rfl | rfl
          · rfl
          · exact absurd hb (by decide)
          · exact absurd hb (by decide)
        · rcases h3 with rfl | rfl | rfl
          · exact absurd hc (by decide)
          · rfl
          · exact absurd hc (by decide)
    have hs : SameShown exCfg keptIgt g' := by
      unfold SameShown
      rw [hk]
      exact ⟨rfl, rfl⟩
    have hne : g'.kids ≠ keptIgt.kids := by
      intro e
      have := congrArg (List.map fun t => t.data.id) e
      rw [hids] at this
      exact absurd this (by decide)
    have hok : (exportIgt exCfg 10 keptIgt).isOk = true := by decide +kernel
    cases hx : exportIgt exCfg 10 keptIgt with
    | error e => rw [hx] at hok; cases hok
    | ok s => exact ⟨hn, g', s, hg, hs, hne, by rw [C164_tiers_partial exCfg 10 _ _ _ _ _ hg hn hs, hx], rfl⟩
  · cases h

/-- a translation before the words that it is of: its tier depends on theirs -/
def depsIgt : Obj := .mk igtData [] [.mk { tierData (lit! "t") (lit! "translations") with attrs := [(ALIGNMENT, lit! "w")] } [] [word (lit! "t1") (lit! "He sleeps")],
  .mk (tierData (lit! "w") (lit! "words")) [] [word (lit! "w1") (lit! "il"), word (lit! "w2") (lit! "dort")],
  .mk (tierData (lit! "g") (lit! "glosses")) [] [item (lit! "g1") (lit! "w1") (lit! "he"), item (lit! "g2") (lit! "w2") (lit! "sleeps")]]

/-- the hypotheses of C164_deps_partial are met by tiers that change places -/
example : Srt.Named depsIgt ∧ ∃ ts s, sortTiers 10 [ALIGNMENT] depsIgt.kids = some (.ok ts) ∧ SameShown exCfg depsIgt (.mk depsIgt.data depsIgt.md ts) ∧
    ts.map (fun t => t.data.id) = [some (lit! "w"), some (lit! "t"), some (lit! "g")] ∧ exportIgt exCfg 10 (.mk depsIgt.data depsIgt.md ts) = .ok s := by
  have hn : Srt.Named depsIgt := by
    refine ⟨by decide, ?_, ?_⟩
    · intro t ht
      simp only [depsIgt, Obj.kids, List.mem_cons, List.not_mem_nil, or_false] at ht
      rcases ht with rfl | rfl | rfl <;> decide
    · intro t ht ra v hra hv
      simp only [depsIgt, Obj.kids, List.mem_cons, List.not_mem_nil, or_false] at ht
      rcases ht with rfl | rfl | rfl
      · rcases hra with rfl | rfl <;> cases hv
      · cases hv
      · cases hv
  exact ⟨hn, [depsIgt.kids[1], depsIgt.kids[0], depsIgt.kids[2]], _, rfl, ⟨rfl, rfl⟩, rfl, rfl⟩

/-- a file with two keys and IGTs that can be exported -/
def partsEx : Part.PFile := ⟨.mk { cls := .corpus } [] [], [.mk { keptIgt.data with type := some (lit! "a") } [] keptIgt.kids, Part.exIgt (lit! "i2") (lit! "b"),
  .mk { depsIgt.data with id := some (lit! "i3"), type := some (lit! "a") } [] depsIgt.kids]⟩

/-- the files of a partition as documents: those of the IGTs with the key -/
example : (match Part.run (Part.exEnv partsEx partsEx) [lit! "1"] with
    | .ok out => decide (out.map (fun p => (p.1, (exportDoc exCfg 10 p.2.kids).toOption)) =
        [(lit! "out/a.xml", (exportDoc exCfg 10 [keptIgt, depsIgt]).toOption), (lit! "out/b.xml", (exportDoc exCfg 10 [Part.exIgt (lit! "i2") (lit! "b")]).toOption)])
    | .error _ => false) = true ∧ (exportDoc exCfg 10 partsEx.igts).isOk ∧
    Part.outName (Part.exEnv partsEx partsEx) (some (lit! "a")) ≠ Part.outName (Part.exEnv partsEx partsEx) (some (lit! "b")) := by
  refine ⟨by decide +kernel, by decide +kernel, by decide⟩

/-- C164 is false of tiers that are shown and change places: here the glosses come before the words once the tiers are sorted by their
IDs, and the sorted corpus cannot be exported any more. -/
theorem C164_refuted : ∃ (c : XP.PCfg) (a : Srt.Args) (x y : Obj), Srt.run c 10 a x = some (.ok y) ∧ (∃ s, exportDoc exCfg 10 x.kids = .ok s) ∧
    ∀ s, exportDoc exCfg 10 y.kids ≠ .ok s := by
  have h1 : (sortedDocs { tierKey := [lit! "@id"] } sortedEx).1.isOk = true := by decide +kernel
  have h2 : (sortedDocs { tierKey := [lit! "@id"] } sortedEx).2.map (fun r => r.isOk) = some false := by decide +kernel
  simp only [sortedDocs] at h1 h2
  split at h2
  · rename_i y hy
    refine ⟨Srt.exCfg, _, sortedEx, y, hy, ?_, fun s hs => ?_⟩
    · cases hx : exportDoc exCfg 10 sortedEx.kids with
      | error e => rw [hx] at h1; cases h1
      | ok s => exact ⟨s, rfl⟩
    · rw [hs] at h2; cases h2
  · cases h2

end
end Xigt.Ltx

namespace Xigt.Tsdb
section
attribute [local instance] asciiUni

/-- C164 is false of the numbers of rows: an IGT has another `i-id` once the corpus is sorted. -/
theorem C164_refuted_numbers : ∃ (c : XP.PCfg) (sks : List Str) (x y g : Obj) (rs rs' : List (Dict Str (Val (Option Str)))) (i j : Nat),
    Srt.sortKids c sks x [] = .ok y ∧ exportCorpus (fun _ g => .ok g.data.id) { cells := [(lit! "i-origin", lit! "igt.id")] } x = .ok rs ∧
    exportCorpus (fun _ g => .ok g.data.id) { cells := [(lit! "i-origin", lit! "igt.id")] } y = .ok rs' ∧ x.kids[i]? = some g ∧ y.kids[j]? = some g ∧
    rs[i]?.bind (fun r => Dict.get? r IID) = some (.num 0) ∧ rs'[j]?.bind (fun r => Dict.get? r IID) = some (.num 10) := by
  have h : (match Srt.sortKids Srt.exCfg [lit! "@id"] Ltx.sortedEx [] with
    | .ok y => decide (y.kids.map (fun g => g.data.id) = [some (lit! "i1"), some (lit! "i2")])
    | .error _ => false) = true := by decide +kernel
  split at h
  · rename_i y hy
    have hids := of_decide_eq_true h
    have hp := (Srt.sortKids_perm hy).2
    have hlen : y.kids.length = 2 := by simpa using congrArg List.length hids
    match hl : y.kids, hlen with
    | [a, b], _ =>
      rw [hl] at hids
      simp only [List.map_cons, List.map_nil, List.cons.injEq, and_true] at hids
      have hb : b ∈ Ltx.sortedEx.kids := hp.mem_iff.1 (by rw [hl]; simp)
      have hb : b = .mk { cls := .igt, id := some (lit! "i2") } [] [] := by
        simp only [Ltx.sortedEx, Obj.kids, List.mem_cons, List.not_mem_nil, or_false] at hb
        rcases hb with rfl | rfl
        · rfl
        · exact absurd hids.2 (by decide)
      have ey : exportCorpus (fun _ g => (.ok g.data.id : Py (Option Str))) { cells := [(lit! "i-origin", lit! "igt.id")] } y =
          .ok [[(IID, .num 0), (lit! "i-origin", .val a.data.id)], [(IID, .num 10), (lit! "i-origin", .val b.data.id)]] := by
        unfold exportCorpus
        rw [hl]
        rfl
      exact ⟨Srt.exCfg, _, Ltx.sortedEx, y, b, _, _, 0, 1, hy, rfl, ey, by rw [hb]; rfl, by rw [hl]; rfl, rfl, rfl⟩
  · cases h

end
end Xigt.Tsdb
