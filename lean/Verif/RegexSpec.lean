import Verif.RegexLemmas
/-
The matcher of Regex.lean against the textbook meaning of regular expressions.

Regex.lean is part of the reading of Python: it follows the search of CPython.  Here is what a
regular expression means apart from any search, and that the matcher finds exactly that; and what
`findall` means, the matches from left to right that do not overlap.
-/
set_option linter.unusedSectionVars false

namespace Xigt
namespace Re

/-- `Matches r u c w` : in the text `u ++ c ++ w` the part `c` is a match of `r`.  Repetition is any
number of times, an empty match is as good as any other. -/
inductive Matches : Re → Str → Str → Str → Prop
  | cls {p : Char → Bool} {x : Char} {u w : Str} : p x = true → Matches (.cls p) u [x] w
  | eps {u w : Str} : Matches .eps u [] w
  | seq {a b : Re} {u c d w : Str} : Matches a u c (d ++ w) → Matches b (u ++ c) d w → Matches (.seq a b) u (c ++ d) w
  | left {a b : Re} {u c w : Str} : Matches a u c w → Matches (.alt a b) u c w
  | right {a b : Re} {u c w : Str} : Matches b u c w → Matches (.alt a b) u c w
  | none {a : Re} {u w : Str} : Matches (.star a) u [] w
  | more {a : Re} {u c d w : Str} : Matches a u c (d ++ w) → Matches (.star a) (u ++ c) d w → Matches (.star a) u (c ++ d) w
  | noneLazy {a : Re} {u w : Str} : Matches (.starLazy a) u [] w
  | moreLazy {a : Re} {u c d w : Str} : Matches a u c (d ++ w) → Matches (.starLazy a) (u ++ c) d w → Matches (.starLazy a) u (c ++ d) w
  | grp {n : Nat} {a : Re} {u c w : Str} : Matches a u c w → Matches (.grp n a) u c w
  | bos {w : Str} : Matches .bos [] [] w
  | eos {u w : Str} : w = [] ∨ w = ['\n'] → Matches .eos u [] w

theorem isEmpty_append (u c : Str) : (u ++ c).isEmpty = (u.isEmpty && c.isEmpty) := by cases u <;> simp

theorem star_sound {a : Re} (ih : ∀ (u : Str) (st : MSt) (x : Str × MSt), st.bol = u.isEmpty → x ∈ a.run st → Matches a u x.1 x.2.rest)
    (g : Bool) (S : Re) (hnone : ∀ u w, Matches S u [] w)
    (hmore : ∀ u c d w, Matches a u c (d ++ w) → Matches S (u ++ c) d w → Matches S u (c ++ d) w) :
    ∀ (n : Nat) (u : Str) (st : MSt) (x : Str × MSt), st.bol = u.isEmpty → x ∈ starRun a.run g n st → Matches S u x.1 x.2.rest := by
  intro n
  induction n with
  | zero =>
    intro u st x hb hx
    simp [starRun] at hx; subst hx; exact hnone _ _
  | succ n ihn =>
    intro u st x hb hx
    have key : x = ([], st) ∨ x ∈ ((a.run st).filter (fun x => !x.1.isEmpty)).flatMap fun x =>
        (starRun a.run g n x.2).map fun y => (x.1 ++ y.1, y.2) := by
      unfold starRun at hx
      cases g <;> simp only [Bool.false_eq_true, if_false, if_true, List.mem_cons, List.mem_append, List.not_mem_nil, or_false] at hx
      · exact hx
      · exact hx.symm
    rcases key with rfl | h
    · exact hnone _ _
    · simp only [List.mem_flatMap, List.mem_map, List.mem_filter] at h
      obtain ⟨y, ⟨hy, -⟩, z, hz, rfl⟩ := h
      have h1 := run_sound a st y hy
      have h2 := ihn (u ++ y.1) y.2 z (by rw [h1.2, hb, isEmpty_append]) hz
      have h3 : y.2.rest = z.1 ++ z.2.rest := (starRun_sound (run_sound a) n y.2 z hz).1
      have h4 := ih u st y hb hy
      rw [h3] at h4
      exact hmore _ _ _ _ h4 h2

/-- whatever the matcher finds is a match -/
theorem run_matches (r : Re) : ∀ (u : Str) (st : MSt) (x : Str × MSt), st.bol = u.isEmpty → x ∈ r.run st →
    Matches r u x.1 x.2.rest := by
  induction r with
  | cls p =>
    intro u st x hb hx
    unfold run at hx
    split at hx
    · simp at hx
    · split at hx
      · rename_i h; simp at hx; subst hx; exact .cls h
      · simp at hx
  | eps => intro u st x hb hx; simp [run] at hx; subst hx; exact .eps
  | seq a b iha ihb =>
    intro u st x hb hx
    simp only [run, List.mem_flatMap, List.mem_map] at hx
    obtain ⟨y, hy, z, hz, rfl⟩ := hx
    have h1 := run_sound a st y hy
    have h2 := (run_sound b y.2 z hz).1
    have h3 := iha u st y hb hy
    rw [h2] at h3
    exact .seq h3 (ihb (u ++ y.1) y.2 z (by rw [h1.2, hb, isEmpty_append]) hz)
  | alt a b iha ihb =>
    intro u st x hb hx
    simp only [run, List.mem_append] at hx
    rcases hx with h | h
    · exact .left (iha u st x hb h)
    · exact .right (ihb u st x hb h)
  | star a ih => intro u st x hb hx; exact star_sound ih true _ (fun _ _ => .none) (fun _ _ _ _ => .more) _ u st x hb hx
  | starLazy a ih => intro u st x hb hx; exact star_sound ih false _ (fun _ _ => .noneLazy) (fun _ _ _ _ => .moreLazy) _ u st x hb hx
  | grp n a ih =>
    intro u st x hb hx
    simp only [run, List.mem_map] at hx
    obtain ⟨y, hy, rfl⟩ := hx
    exact .grp (ih u st y hb hy)
  | bos =>
    intro u st x hb hx
    unfold run at hx
    split at hx <;> simp at hx
    rename_i h
    subst hx
    rw [hb] at h
    obtain rfl : u = [] := by simpa using h
    exact .bos
  | eos =>
    intro u st x hb hx
    unfold run at hx
    split at hx <;> simp at hx
    rename_i h
    subst hx; exact .eos h

/-- every match is found by the matcher -/
theorem matches_run {r : Re} {u c w : Str} (h : Matches r u c w) : ∀ caps, ∃ st, (c, st) ∈ r.run ⟨u.isEmpty, c ++ w, caps⟩ := by
  induction h with
  | cls h => intro caps; exact ⟨_, by simp [run, h]; rfl⟩
  | eps => intro caps; exact ⟨_, by simp [run]; rfl⟩
  | @seq a b u c d w _ _ iha ihb =>
    intro caps
    obtain ⟨s1, h1⟩ := iha caps
    have hs := run_sound a _ _ h1
    obtain ⟨s2, h2⟩ := ihb s1.caps
    have e : s1 = ⟨(u ++ c).isEmpty, d ++ w, s1.caps⟩ := by
      obtain ⟨b1, r1, c1⟩ := s1
      have := List.append_cancel_left hs.1
      simp only [isEmpty_append]
      simp_all
    refine ⟨s2, ?_⟩
    simp only [run, List.mem_flatMap, List.mem_map]
    rw [List.append_assoc]
    exact ⟨(c, s1), h1, (d, s2), by rw [e]; exact h2, rfl⟩
  | left _ ih => intro caps; obtain ⟨s, h⟩ := ih caps; exact ⟨s, by simp [run, h]⟩
  | right _ ih => intro caps; obtain ⟨s, h⟩ := ih caps; exact ⟨s, by simp [run, h]⟩
  | none => intro caps; exact ⟨_, by rw [run_star]; simp; exact Or.inr rfl⟩
  | noneLazy => intro caps; exact ⟨_, by rw [run_starLazy]; simp; exact Or.inl rfl⟩
  | @more a u c d w _ _ iha ihb =>
    intro caps
    by_cases hc : c = []
    · subst hc
      obtain ⟨s2, h2⟩ := ihb caps
      exact ⟨s2, by simpa using h2⟩
    · obtain ⟨s1, h1⟩ := iha caps
      have hs := run_sound a _ _ h1
      obtain ⟨s2, h2⟩ := ihb s1.caps
      have e : s1 = ⟨(u ++ c).isEmpty, d ++ w, s1.caps⟩ := by
        obtain ⟨b1, r1, c1⟩ := s1
        have := List.append_cancel_left hs.1
        simp only [isEmpty_append]
        simp_all
      refine ⟨s2, ?_⟩
      rw [run_star, List.append_assoc]
      simp only [List.mem_append, List.mem_flatMap, List.mem_map, List.mem_filter]
      exact Or.inl ⟨(c, s1), ⟨h1, by simpa using hc⟩, (d, s2), by rw [e]; exact h2, rfl⟩
  | @moreLazy a u c d w _ _ iha ihb =>
    intro caps
    by_cases hc : c = []
    · subst hc
      obtain ⟨s2, h2⟩ := ihb caps
      exact ⟨s2, by simpa using h2⟩
    · obtain ⟨s1, h1⟩ := iha caps
      have hs := run_sound a _ _ h1
      obtain ⟨s2, h2⟩ := ihb s1.caps
      have e : s1 = ⟨(u ++ c).isEmpty, d ++ w, s1.caps⟩ := by
        obtain ⟨b1, r1, c1⟩ := s1
        have := List.append_cancel_left hs.1
        simp only [isEmpty_append]
        simp_all
      refine ⟨s2, ?_⟩
      rw [run_starLazy, List.append_assoc]
      simp only [List.mem_cons, List.mem_flatMap, List.mem_map, List.mem_filter]
      exact Or.inr ⟨(c, s1), ⟨h1, by simpa using hc⟩, (d, s2), by rw [e]; exact h2, rfl⟩
  | grp _ ih =>
    intro caps
    obtain ⟨s, h⟩ := ih caps
    exact ⟨_, by simp only [run, List.mem_map]; exact ⟨(_, s), h, rfl⟩⟩
  | bos => intro caps; exact ⟨_, by simp [run]; rfl⟩
  | eos h => intro caps; exact ⟨_, by simp [run, h]; rfl⟩

/-- The matcher finds exactly the matches of the textbook meaning. -/
theorem re_match (r : Re) (u c w : Str) (caps : List (Nat × Str)) :
    (∃ st, (c, st) ∈ r.run ⟨u.isEmpty, c ++ w, caps⟩) ↔ Matches r u c w := by
  refine ⟨fun ⟨st, h⟩ => ?_, fun h => matches_run h caps⟩
  have h1 := run_matches r u ⟨u.isEmpty, c ++ w, caps⟩ (c, st) rfl h
  have h2 := (run_sound r _ _ h).1
  have : w = st.rest := List.append_cancel_left h2
  rw [this]; exact h1

/-- `pattern.match(s)` succeeds if and only if some beginning of the string is a match; what it
gives is one. -/
theorem re_match? (r : Re) (s : Str) : (∀ c st, r.match? s = some (c, st) → s = c ++ st.rest ∧ Matches r [] c st.rest) ∧
    (r.match? s = none ↔ ∀ c w, s = c ++ w → ¬ Matches r [] c w) := by
  refine ⟨fun c st h => ?_, fun h c w e hm => ?_, fun h => ?_⟩
  · have hm := List.mem_of_mem_head? h
    exact ⟨(run_sound r _ _ hm).1, run_matches r [] _ _ rfl hm⟩
  · obtain ⟨st, h1⟩ := matches_run hm []
    rw [match?_eq, first_none] at h
    rw [e] at h
    simp only [List.isEmpty_nil] at h1
    rw [h] at h1; cases h1
  · rw [match?_eq, first_none]
    cases hr : r.run ⟨true, s, []⟩ with
    | nil => rfl
    | cons x xs =>
      have hm : x ∈ r.run ⟨true, s, []⟩ := by rw [hr]; simp
      exact absurd (run_matches r [] _ _ rfl hm) (h _ _ (run_sound r _ _ hm).1)

/-- The matches in a text from left to right, after the part `u` already done: before each match
no match begins anywhere in the text skipped, and after the last one none. -/
inductive Leftmost (r : Re) : Str → Str → List Str → Prop
  | done {u s : Str} : (∀ a c w, s = a ++ c ++ w → ¬ Matches r (u ++ a) c w) → Leftmost r u s []
  | found {u g m s : Str} {ms : List Str} :
    (∀ a b, g = a ++ b → b ≠ [] → ∀ c w, b ++ m ++ s = c ++ w → ¬ Matches r (u ++ a) c w) →
    Matches r (u ++ g) m s → Leftmost r (u ++ g ++ m) s ms → Leftmost r u (g ++ m ++ s) (m :: ms)

theorem leftmost_skip {r : Re} {u : Str} {x : Char} {xs : Str} {ms : List Str}
    (h0 : ∀ c w, x :: xs = c ++ w → ¬ Matches r u c w) (h : Leftmost r (u ++ [x]) xs ms) : Leftmost r u (x :: xs) ms := by
  cases h with
  | done h =>
    refine .done fun a c w e hm => ?_
    cases a with
    | nil => exact h0 c w (by simpa using e) (by simpa using hm)
    | cons y ys =>
      simp only [List.cons_append] at e
      obtain ⟨rfl, e'⟩ := List.cons.inj e
      exact h ys c w e' (by simpa using hm)
  | @found _ g m s ms h1 h2 h3 =>
    refine .found (g := x :: g) (fun a b e hb c w e2 hm => ?_) (by simpa using h2) (by simpa using h3)
    cases a with
    | nil =>
      simp only [List.nil_append] at e
      subst e
      exact h0 c w e2 (by simpa using hm)
    | cons y ys =>
      simp only [List.cons_append] at e
      obtain ⟨rfl, e'⟩ := List.cons.inj e
      exact h1 ys b e' hb c w e2 (by simpa using hm)

/-- cannot match the empty string (computed) -/
def pos : Re → Bool
  | .cls _ => true
  | .seq a b => a.pos || b.pos
  | .alt a b => a.pos && b.pos
  | .grp _ a => a.pos
  | _ => false

theorem pos_ne {r : Re} {u c w : Str} (h : Matches r u c w) : r.pos = true → c ≠ [] := by
  induction h with
  | cls => intro _; simp
  | seq _ _ iha ihb =>
    intro hp
    simp only [pos, Bool.or_eq_true] at hp
    rcases hp with h | h
    · simp [iha h]
    · simp [ihb h]
  | left _ ih => intro hp; simp only [pos, Bool.and_eq_true] at hp; exact ih hp.1
  | right _ ih => intro hp; simp only [pos, Bool.and_eq_true] at hp; exact ih hp.2
  | grp _ ih => intro hp; exact ih hp
  | _ => intro hp; simp [pos] at hp

/-- `re_findall` for patterns of which it is plain that they never match the empty string -/
theorem pos_never {r : Re} (h : r.pos = true) : ∀ u w, ¬ Matches r u [] w := fun _ _ hm => pos_ne hm h rfl

/-- a match of one or more characters is not empty -/
theorem plus_cls_ne {p : Char → Bool} {u c w : Str} (h : Matches (plus (cls p)) u c w) : c ≠ [] := by
  cases h with
  | seq h1 h2 => cases h1; simp

theorem matchAt_none_iff {r : Re} (hr : ∀ u w, ¬ Matches r u [] w) {u s : Str} {must : Bool} (h : r.matchAt u.isEmpty s must = none) :
    ∀ c w, s = c ++ w → ¬ Matches r u c w := by
  intro c w e hm
  obtain ⟨st, h1⟩ := matches_run hm []
  unfold matchAt at h
  rw [List.head?_eq_none_iff, List.filter_eq_nil_iff] at h
  rw [e] at h
  refine h _ h1 ?_
  cases c with
  | nil => exact absurd hm (hr _ _)
  | cons => simp

theorem found_leftmost {r : Re} (hr : ∀ u w, ¬ Matches r u [] w) : ∀ bol s must, ∀ u : Str, bol = u.isEmpty →
    Leftmost r u s ((found r bol s must).map (·.1)) := by
  apply scan_induct r
  · intro bol s must c st h ih u hb
    subst hb
    rw [found_matchAt h]
    have hs := matchAt_sound h
    have hm : (c, st) ∈ r.run ⟨u.isEmpty, s, []⟩ := matchAt_mem h
    have h2 := run_matches r u _ _ rfl hm
    rw [hs.1]
    refine Leftmost.found (g := []) (m := c) (s := st.rest) ?_ (by simpa using h2) ?_
    · intro a b e hb; simp at e; exact absurd e.2 hb
    · simp only [List.append_nil]
      exact ih (u ++ c) (isEmpty_append u c).symm
  · intro bol must h u hb
    subst hb
    rw [found_nil h]
    refine .done fun a c w e => ?_
    simp only [List.nil_eq, List.append_eq_nil_iff] at e
    obtain ⟨⟨rfl, rfl⟩, rfl⟩ := e
    exact hr _ _
  · intro bol x xs must h ih u hb
    subst hb
    rw [found_skip h]
    exact leftmost_skip (matchAt_none_iff hr h) (ih (u ++ [x]) (by simp))

/-- `pattern.findall(s)` (the texts matched) of a pattern that never matches the empty string: the
matches from left to right. -/
theorem re_findall (r : Re) (hr : ∀ u w, ¬ Matches r u [] w) (s : Str) : Leftmost r [] s ((r.findAll s).map (·.1)) := by
  rw [findAll_eq]
  exact found_leftmost hr _ _ _ [] rfl

/-- non-vacuous: digits in a text -/
example : Leftmost (plus (cls Char.isDigit)) [] (lit! "a12b3") [lit! "12", lit! "3"] := by
  exact re_findall (plus (cls Char.isDigit)) (fun u w h => plus_cls_ne h rfl) (lit! "a12b3")

end Re
end Xigt
