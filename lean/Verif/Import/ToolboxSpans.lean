import Verif.Import.ToolboxModel
/-
C56, C71: the spans the Toolbox importer computes for morphemes.
-/
set_option linter.unusedSectionVars false

namespace Xigt.Tbx

/-! ### The loop over previous morphemes -/

theorem isPrefixOf_true {a b : Str} : a.isPrefixOf b = true ↔ a <+: b := List.isPrefixOf_iff_prefix

theorem prevLoop_bound (tgt : Str) : ∀ (ts : List Str) (prev rest : Str),
    prev.length + rest.length ≤ tgt.length →
    (∀ n, prevLoop tgt ts prev rest = .error n → n ≤ tgt.length) ∧
    (∀ p, prevLoop tgt ts prev rest = .ok p → p.length ≤ tgt.length ∧ (ts ≠ [] → p <+: tgt)) := by
  intro ts
  induction ts with
  | nil =>
    intro prev rest h
    refine ⟨fun n hn => by simp [prevLoop] at hn, fun p hp => ?_⟩
    simp only [prevLoop, Except.ok.injEq] at hp
    subst hp
    exact ⟨by omega, fun h => absurd rfl h⟩
  | cons t ts ih =>
    intro prev rest h
    simp only [prevLoop]
    generalize hp : (if rest.head? = some '-' then prev ++ ['-'] else prev) = prev'
    generalize hr : (if rest.head? = some '-' then rest.drop 1 else rest) = rest'
    have hb : prev'.length + rest'.length ≤ tgt.length := by
      subst hp hr
      split
      · rename_i hh
        cases rest with
        | nil => simp at hh
        | cons c cs => simp at h ⊢; omega
      · exact h
    split
    · rename_i hpre
      have hpre' := isPrefixOf_true.1 hpre
      have hle := hpre'.length_le
      have := ih (prev' ++ bare t) (rest'.drop (prev' ++ bare t).length) (by
        rw [List.length_drop]; omega)
      refine ⟨this.1, fun p hp => ⟨(this.2 p hp).1, fun _ => ?_⟩⟩
      cases ts with
      | nil => simp only [prevLoop, Except.ok.injEq] at hp; rw [← hp]; exact hpre'
      | cons t' ts' => exact (this.2 p hp).2 (by simp)
    · refine ⟨fun n hn => ?_, fun p hp => by cases hp⟩
      simp only [Except.error.injEq] at hn
      omega

/-- the loop over morphemes that spell the beginning of a word without hyphens -/
theorem prevLoop_spell (tgt : Str) (hh : '-' ∉ tgt) : ∀ (ts : List Str) (prev rest : Str),
    prev ++ (ts.map bare).flatten <+: tgt → rest <:+ tgt →
    prevLoop tgt ts prev rest = .ok (prev ++ (ts.map bare).flatten) := by
  intro ts
  induction ts with
  | nil => intro prev rest _ _; simp [prevLoop]
  | cons t ts ih =>
    intro prev rest hp hr
    have hno : ¬ rest.head? = some '-' := by
      intro h
      cases rest with
      | nil => simp at h
      | cons c cs =>
        simp only [List.head?_cons, Option.some.injEq] at h
        subst h
        exact hh (hr.subset (by simp))
    simp only [prevLoop, if_neg hno]
    rw [List.map_cons, List.flatten_cons, ← List.append_assoc] at hp
    have h1 : (prev ++ bare t).isPrefixOf tgt = true :=
      isPrefixOf_true.2 ((List.prefix_append _ _).trans hp)
    rw [if_pos h1, ih _ _ hp ((List.drop_suffix _ _).trans hr)]
    simp

/-! ### C56 -/

section
variable [Lex]

/-- C56 as far as it holds.  `w` is the word (as `lower` gives it), `toks` its morphemes and the
one at `s` is placed at `b:e`.  Both bounds lie in the word except for the end of a morpheme that is
the only one.  A span said to be precise (`c = 0`) is ordered.  An imprecise one ends at the end of
the word, or — this is where the property fails — as many characters from the beginning as remain
after `b`. -/
theorem C56_partial (s : Nat) (w : Str) (toks : List Str) (tok : Str) (b e c : Int)
    (h : alignMorph s w toks tok = (b, e, c)) :
    0 ≤ b ∧ b ≤ w.length ∧ 0 ≤ e ∧ (toks.length ≠ 1 → e ≤ w.length) ∧
      ((c = 0 ∧ b ≤ e) ∨ (c = -1 ∧ (e = w.length ∨ e = w.length - b))) := by
  simp only [alignMorph] at h
  split at h
  · rename_i h1
    simp only [Prod.mk.injEq] at h
    obtain ⟨rfl, rfl, rfl⟩ := h
    exact ⟨by omega, by omega, by omega, fun h2 => absurd h1 h2, Or.inl ⟨rfl, by omega⟩⟩
  split at h
  · split at h
    · rename_i hp
      have := (isPrefixOf_true.1 hp).length_le
      simp only [Prod.mk.injEq] at h
      obtain ⟨rfl, rfl, rfl⟩ := h
      exact ⟨by omega, by omega, by omega, fun _ => by omega, Or.inl ⟨rfl, by omega⟩⟩
    · simp only [Prod.mk.injEq] at h
      obtain ⟨rfl, rfl, rfl⟩ := h
      exact ⟨by omega, by omega, by omega, fun _ => by omega, Or.inr ⟨rfl, Or.inl rfl⟩⟩
  have hb := prevLoop_bound w (toks.take s) [] w (by simp)
  split at h
  · rename_i n hn
    have := hb.1 n hn
    simp only [Prod.mk.injEq] at h
    obtain ⟨rfl, rfl, rfl⟩ := h
    exact ⟨by omega, by omega, by omega, fun _ => by omega, Or.inr ⟨rfl, Or.inl rfl⟩⟩
  · rename_i prev hprev
    have hle := (hb.2 prev hprev).1
    split at h
    · split at h
      · simp only [Prod.mk.injEq] at h
        obtain ⟨rfl, rfl, rfl⟩ := h
        exact ⟨by omega, by omega, by omega, fun _ => by omega, Or.inl ⟨rfl, by omega⟩⟩
      · split at h
        · rename_i hp
          have h3 := (isPrefixOf_true.1 hp).length_le
          rw [List.length_drop] at h3
          simp only [Prod.mk.injEq] at h
          obtain ⟨rfl, rfl, rfl⟩ := h
          exact ⟨by omega, by omega, by omega, fun _ => by omega, Or.inl ⟨rfl, by omega⟩⟩
        · simp only [Prod.mk.injEq, List.length_drop] at h
          obtain ⟨rfl, rfl, rfl⟩ := h
          exact ⟨by omega, by omega, by omega, fun _ => by omega, Or.inr ⟨rfl, Or.inr (by omega)⟩⟩
    · simp only [Prod.mk.injEq] at h
      obtain ⟨rfl, rfl, rfl⟩ := h
      exact ⟨by omega, by omega, by omega, fun _ => by omega, Or.inr ⟨rfl, Or.inl rfl⟩⟩

/-- C56: with a word of which the morphemes are the parts, in the sense that none is longer than the
word if alone and that a morpheme fitting none of the rest occurs in the first half of the word at
most, all spans lie in the word.  (The hypotheses are about the result `c`, `b`.) -/
theorem C56_in_word (s : Nat) (w : Str) (toks : List Str) (tok : Str) (b e c : Int)
    (h : alignMorph s w toks tok = (b, e, c)) (h1 : toks.length = 1 → tok.length ≤ w.length)
    (h2 : c = -1 → 2 * b ≤ w.length) : 0 ≤ b ∧ b ≤ e ∧ e ≤ w.length := by
  obtain ⟨g1, g2, g3, g4, g5⟩ := C56_partial s w toks tok b e c h
  refine ⟨g1, ?_, ?_⟩
  · rcases g5 with ⟨_, g⟩ | ⟨hc, g | g⟩
    · exact g
    · omega
    · have := h2 hc; omega
  · by_cases hl : toks.length = 1
    · simp only [alignMorph, hl, if_true, Prod.mk.injEq] at h
      have := h1 hl
      omega
    · exact g4 hl

/-- What a precise span means: of several morphemes, the one at `s` — without its boundary marks —
is what the word has at that span; for the last one the span is the rest of the word. -/
theorem C56_precise (s : Nat) (w : Str) (toks : List Str) (tok : Str) (b e : Int)
    (hn : toks.length ≠ 1) (h : alignMorph s w toks tok = (b, e, 0)) :
    (s + 1 ≠ toks.length → pySlice w (some b) (some e) = bare tok) ∧
    (s + 1 = toks.length → e = w.length) := by
  have slice : ∀ (p : Nat) (t : Str), t <+: w.drop p → p ≤ w.length →
      pySlice w (some (p : Int)) (some ((t.length : Int) + p)) = t := by
    intro p t ht hp
    have hl := ht.length_le
    rw [List.length_drop] at hl
    have c1 : clip w.length (p : Int) = p := by unfold clip; rw [if_neg (by omega)]; omega
    have c2 : clip w.length ((t.length : Int) + p) = t.length + p := by
      unfold clip
      rw [if_neg (by omega)]
      omega
    simp only [pySlice, c1, c2]
    rw [Nat.add_sub_cancel]
    exact (List.prefix_iff_eq_take.1 ht).symm
  simp only [alignMorph] at h
  rw [if_neg hn] at h
  split at h
  · rename_i hs
    split at h
    · rename_i hp
      simp only [Prod.mk.injEq] at h
      obtain ⟨rfl, rfl, _⟩ := h
      refine ⟨fun _ => ?_, fun hl => absurd (by omega) hn⟩
      have := slice 0 (bare tok) (by simpa using isPrefixOf_true.1 hp) (by omega)
      simpa using this
    · simp at h
  have hb := prevLoop_bound w (toks.take s) [] w (by simp)
  split at h
  · simp at h
  · rename_i prev hprev
    have hle := (hb.2 prev hprev).1
    split at h
    · split at h
      · rename_i hl
        simp only [Prod.mk.injEq] at h
        obtain ⟨rfl, rfl, _⟩ := h
        exact ⟨fun h => absurd hl h, fun _ => rfl⟩
      · rename_i hl
        split at h
        · rename_i hp
          simp only [Prod.mk.injEq] at h
          obtain ⟨rfl, rfl, _⟩ := h
          exact ⟨fun _ => slice _ _ (isPrefixOf_true.1 hp) hle, fun h => absurd h hl⟩
        · simp at h
    · simp at h

/-- C71: the morphemes (without boundary marks) spell a word without hyphens: each is placed
precisely where it stands.  (A sole morpheme must not have boundary marks.) -/
theorem C71_spell (w : Str) (toks : List Str) (h1 : toks.length = 1 → ∀ t ∈ toks, bare t = t) (hh : '-' ∉ w)
    (hw : w = (toks.map bare).flatten) (pre post : List Str) (tok : Str)
    (ht : toks = pre ++ tok :: post) :
    alignMorph pre.length w toks tok =
      (((pre.map bare).flatten.length : Int),
        (((pre.map bare).flatten.length + (bare tok).length : Nat) : Int), 0) := by
  have hw' : w = (pre.map bare).flatten ++ (bare tok ++ (post.map bare).flatten) := by
    rw [hw, ht]; simp
  have hpre : (pre.map bare).flatten <+: w := ⟨_, hw'.symm⟩
  simp only [alignMorph]
  by_cases hn : toks.length = 1
  · have hpre : pre = [] := by
      cases pre with
      | nil => rfl
      | cons p pre => simp [ht] at hn
    rw [if_pos hn, hpre, h1 hn tok (by simp [ht])]
    simp
  rw [if_neg hn]
  cases pre with
  | nil =>
    have : (bare tok).isPrefixOf w = true := isPrefixOf_true.2 ⟨(post.map bare).flatten, by simp [hw']⟩
    simp [this]
  | cons p pre =>
    have htake : toks.take (p :: pre).length = p :: pre := by rw [ht, List.take_left']; rfl
    have hloop := prevLoop_spell w hh (p :: pre) [] w (by simpa using hpre) (List.suffix_refl _)
    rw [if_neg (by simp), htake, hloop]
    simp only [List.nil_append]
    generalize hq : ((p :: pre).map bare).flatten = q at *
    rw [if_pos (isPrefixOf_true.2 hpre)]
    have hdrop : w.drop q.length = bare tok ++ (post.map bare).flatten := by
      rw [hw', List.drop_left']; rfl
    split
    · rename_i hl
      have hpost : post = [] := by
        have : toks.length = (p :: pre).length + (post.length + 1) := by
          simp only [ht, List.length_append, List.length_cons]
        cases post with
        | nil => rfl
        | cons _ _ => simp at this hl; omega
      have : w.length = q.length + (bare tok).length := by rw [hw', hpost]; simp
      rw [this]
    · rw [hdrop]
      have : (bare tok).isPrefixOf (bare tok ++ (post.map bare).flatten) = true :=
        isPrefixOf_true.2 ⟨_, rfl⟩
      rw [if_pos this]
      simp [Int.add_comm]

end

/-! ### Where it fails -/

section
attribute [local instance] asciiLex

/-- C56 is false: a sole morpheme longer than the word, and a morpheme in the middle that does not
fit behind the matched part of the word (`3:1`). -/
theorem C56_refuted :
    alignWord (some MORPHEMES) 0 (some (lit! "go")) [lit! "went"] (lit! "went") = .ok (0, 4, 0) ∧
    alignWord (some MORPHEMES) 1 (some (lit! "abcd")) [lit! "abc", lit! "-x", lit! "-d"] (lit! "-x") =
      .ok (3, 1, -1) := by decide +kernel

/-- readme.txt: hyphens of the orthography are skipped ("finding `lantern` in jack-o'-lantern first
builds jack-o'-").  It is not so: the last morpheme gets the hyphen too, and the one before is not
found; its span is said to be the remainder of the word but is `-o'-lan`. -/
theorem C71_hyphens_refuted :
    alignWord (some MORPHEMES) 2 (some (lit! "jack-o'-lantern")) [lit! "jack", lit! "o'", lit! "lantern"]
      (lit! "lantern") = .ok (7, 15, 0) ∧
    pySlice (lit! "jack-o'-lantern") (some 7) (some 15) = lit! "-lantern" ∧
    alignWord (some MORPHEMES) 1 (some (lit! "jack-o'-lantern")) [lit! "jack", lit! "o'", lit! "lantern"]
      (lit! "o'") = .ok (4, 11, -1) ∧
    pySlice (lit! "jack-o'-lantern") (some 4) (some 11) = lit! "-o'-lan" := by decide +kernel

/- C71_spell applies to `Unladen` with the morphemes `un-`, `lad`, `-en` (the word in lower case). -/
example : Lex.lower (lit! "Unladen") = ([lit! "un-", lit! "lad", lit! "-en"].map bare).flatten ∧
    '-' ∉ Lex.lower (lit! "Unladen") ∧
    alignWord (some MORPHEMES) 1 (some (lit! "Unladen")) [lit! "un-", lit! "lad", lit! "-en"] (lit! "lad") =
      .ok (2, 5, 0) := by decide +kernel

/- C56_in_word applies to a precise and to an imprecise span -/
example : alignMorph 1 (lit! "dogs") [lit! "dog", lit! "-s"] (lit! "-s") = (3, 4, 0) ∧
    alignMorph 1 (lit! "abcdef") [lit! "ab", lit! "x", lit! "f"] (lit! "x") = (2, 4, -1) := by decide +kernel
end

end Xigt.Tbx
