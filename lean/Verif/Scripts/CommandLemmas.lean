import Verif.Scripts.Command
import Verif.RegexLemmas
import Verif.DictLemmas
/-
C152: what the command line of `xigt` calls, /repo/xigt/main.py; with lemmas on argparse for C153 to C155.
-/

set_option linter.unusedSectionVars false

namespace Xigt.Cmd
open Re

/-! ### Positional arguments -/

theorem first_dashes {b : Bool} {s : Str} {caps} (h : s.head? ≠ some '-') : first (star (chr '-')) ⟨b, s, caps⟩ = some ([], ⟨b, s, caps⟩) := by
  rw [chr, first_star_cls]
  cases s with
  | nil => simp
  | cons c s =>
    have : (c == '-') = false := by simpa using h
    simp [this]

/-- one positional argument: dashes on both sides are taken with it -/
theorem first_one {n : Nat} {b : Bool} {d w : Str} {caps} (hd : d = [] ∨ d = ['-']) (hw : w.head? ≠ some '-') :
    ∃ b', first (nargsRe n .one) ⟨b, d ++ 'A' :: w, caps⟩ = some (d ++ ['A'], ⟨b', w, (n, d ++ ['A']) :: caps⟩) := by
  refine ⟨false, ?_⟩
  simp only [nargsRe, first_grp, cat]
  rw [first_seq_of (x := (d, ⟨b && d.isEmpty, 'A' :: w, caps⟩)) (y := (['A'], ⟨false, w, caps⟩))]
  · rfl
  · rcases hd with rfl | rfl
    · rw [List.nil_append, first_dashes (by simp)]; simp
    · rw [chr, first_star_cls]; simp
  · rw [first_seq_of (x := (['A'], ⟨false, w, caps⟩)) (y := ([], ⟨false, w, caps⟩))]
    · rfl
    · rw [first_chr_cons]; rfl
    · exact first_dashes hw

theorem first_one_dash {n : Nat} {b : Bool} {w : Str} {caps} (hw : w.head? ≠ some '-') :
    ∃ b', first (nargsRe n .one) ⟨b, 'A' :: '-' :: w, caps⟩ = some (['A', '-'], ⟨b', w, (n, ['A', '-']) :: caps⟩) := by
  refine ⟨false, ?_⟩
  simp only [nargsRe, first_grp, cat]
  rw [first_seq_of (x := ([], ⟨b, 'A' :: '-' :: w, caps⟩)) (y := (['A', '-'], ⟨false, w, caps⟩))]
  · rfl
  · exact first_dashes (by simp)
  · rw [first_seq_of (x := (['A'], ⟨false, '-' :: w, caps⟩)) (y := (['-'], ⟨false, w, caps⟩))]
    · rfl
    · rw [first_chr_cons]; rfl
    · rw [chr, first_star_cls]
      cases w with
      | nil => simp
      | cons c w =>
        have : (c == '-') = false := by simpa using hw
        simp [this]

/-- as many arguments as there are -/
theorem first_all {n k : Nat} {b : Bool} {w : Str} {caps} (hw : w.head? ≠ some 'A' ∧ w.head? ≠ some '-') :
    ∃ b', first (nargsRe n .star) ⟨b, List.replicate k 'A' ++ w, caps⟩ = some (List.replicate k 'A', ⟨b', w, (n, List.replicate k 'A') :: caps⟩) := by
  have hp : ∀ b, first (star (cls fun c => c == 'A' || c == '-')) ⟨b, List.replicate k 'A' ++ w, caps⟩ =
      some (List.replicate k 'A', ⟨b && (List.replicate k 'A').isEmpty, w, caps⟩) := by
    intro b
    rw [first_star_cls]
    have ht : (List.replicate k 'A' ++ w).takeWhile (fun c => c == 'A' || c == '-') = List.replicate k 'A' := by
      rw [List.takeWhile_append_of_pos (by simp)]
      cases w with
      | nil => simp
      | cons c w => simp at hw; simp [hw]
    have hd : (List.replicate k 'A' ++ w).dropWhile (fun c => c == 'A' || c == '-') = w := by
      rw [List.dropWhile_append_of_pos (by simp)]
      cases w with
      | nil => simp
      | cons c w => simp at hw; simp [hw]
    rw [ht, hd]
  refine ⟨b && (List.replicate k 'A').isEmpty, ?_⟩
  simp only [nargsRe, first_grp, cat]
  rw [first_seq_of (first_dashes ?_) (hp _)]
  · rfl
  · cases k with
    | zero => simpa using hw.2
    | succ k => simp [List.replicate_succ]

theorem first_some {n k : Nat} {b : Bool} {d w : Str} {caps} (hd : d = [] ∨ d = ['-']) (hw : w.head? ≠ some 'A' ∧ w.head? ≠ some '-') :
    ∃ b', first (nargsRe n .plus) ⟨b, d ++ 'A' :: (List.replicate k 'A' ++ w), caps⟩ =
      some (d ++ 'A' :: List.replicate k 'A', ⟨b', w, (n, d ++ 'A' :: List.replicate k 'A') :: caps⟩) := by
  have hp : ∀ b, first (star (cls fun c => c == 'A' || c == '-')) ⟨b, List.replicate k 'A' ++ w, caps⟩ =
      some (List.replicate k 'A', ⟨b && (List.replicate k 'A').isEmpty, w, caps⟩) := by
    intro b
    rw [first_star_cls]
    have ht : (List.replicate k 'A' ++ w).takeWhile (fun c => c == 'A' || c == '-') = List.replicate k 'A' := by
      rw [List.takeWhile_append_of_pos (by simp)]
      cases w with
      | nil => simp
      | cons c w => simp at hw; simp [hw]
    have hd : (List.replicate k 'A' ++ w).dropWhile (fun c => c == 'A' || c == '-') = w := by
      rw [List.dropWhile_append_of_pos (by simp)]
      cases w with
      | nil => simp
      | cons c w => simp at hw; simp [hw]
    rw [ht, hd]
  refine ⟨false, ?_⟩
  simp only [nargsRe, first_grp, cat]
  rw [first_seq_of (x := (d, ⟨b && d.isEmpty, 'A' :: (List.replicate k 'A' ++ w), caps⟩)) (y := ('A' :: List.replicate k 'A', ⟨false, w, caps⟩))]
  · rfl
  · rcases hd with rfl | rfl
    · rw [List.nil_append, first_dashes (by simp)]; simp
    · rw [chr, first_star_cls]; simp
  · rw [first_seq_of (x := (['A'], ⟨false, _, caps⟩)) (y := (List.replicate k 'A', ⟨false, w, caps⟩))]
    · rfl
    · rw [first_chr_cons]; rfl
    · rw [hp]; rfl

theorem first_rest {n : Nat} {b : Bool} {w : Str} {caps} (hw : ∀ c ∈ w, c = 'A' ∨ c = 'O' ∨ c = '-') :
    ∃ b', first (nargsRe n .remainder) ⟨b, w, caps⟩ = some (w, ⟨b', [], (n, w) :: caps⟩) := by
  refine ⟨b && w.isEmpty, ?_⟩
  have hp : ∀ c ∈ w, (c == '-' || c == 'A' || c == 'O') = true := by
    intro c hc
    rcases hw c hc with rfl | rfl | rfl <;> rfl
  rw [nargsRe, first_grp, first_star_cls]
  have ht : w.takeWhile (fun c => c == '-' || c == 'A' || c == 'O') = w := by
    have := List.takeWhile_append_of_pos (l₂ := []) hp; simpa using this
  have hd : w.dropWhile (fun c => c == '-' || c == 'A' || c == 'O') = [] := by
    have := List.dropWhile_append_of_pos (l₂ := []) hp; simpa using this
  rw [ht, hd]
  rfl

/-! #### The numbers of arguments -/

theorem match_one {d w : Str} (hd : d = [] ∨ d = ['-']) (hw : w.head? ≠ some '-') : matchPartial [.one] (d ++ 'A' :: w) 1 = [d.length + 1] := by
  obtain ⟨b, hb⟩ := first_one (n := 0) (b := true) (caps := []) hd hw
  simp only [matchPartial, List.take, List.zipIdx, List.map, cat, match?_eq, hb]
  rcases hd with rfl | rfl <;> rfl

theorem match_plus {k : Nat} {d w : Str} (hd : d = [] ∨ d = ['-']) (hw : w.head? ≠ some 'A' ∧ w.head? ≠ some '-') :
    matchPartial [.plus] (d ++ 'A' :: (List.replicate k 'A' ++ w)) 1 = [d.length + (k + 1)] := by
  obtain ⟨b, hb⟩ := first_some (n := 0) (k := k) (b := true) (caps := []) hd hw
  simp only [matchPartial, List.take, List.zipIdx, List.map, cat, match?_eq, hb]
  simp [List.range, List.range.loop, MSt.group]

theorem match_one_star {k : Nat} {d w : Str} (hd : d = [] ∨ d = ['-']) (hw : w.head? ≠ some 'A' ∧ w.head? ≠ some '-') :
    matchPartial [.one, .star] (d ++ 'A' :: (List.replicate k 'A' ++ w)) 2 = [d.length + 1, k] := by
  have hk : (List.replicate k 'A' ++ w).head? ≠ some '-' := by
    cases k with
    | zero => simpa using hw.2
    | succ k => simp [List.replicate_succ]
  obtain ⟨b, hb⟩ := first_one (n := 0) (b := true) (caps := []) hd hk
  obtain ⟨b2, hb2⟩ := first_all (n := 1) (k := k) (b := b) (caps := [(0, d ++ ['A'])]) hw
  simp only [matchPartial, List.take, List.zipIdx, List.map, cat, match?_eq, first_seq_of hb hb2]
  simp [List.range, List.range.loop, MSt.group]

theorem match_main {d w : Str} (hd : d = [] ∨ d = ['-']) (hw : ∀ c ∈ w, c = 'A' ∨ c = 'O' ∨ c = '-') (hh : w.head? ≠ some '-') :
    matchPartial [.one, .remainder] (d ++ 'A' :: w) 2 = [d.length + 1, w.length] := by
  obtain ⟨b, hb⟩ := first_one (n := 0) (b := true) (caps := []) hd hh
  obtain ⟨b2, hb2⟩ := first_rest (n := 1) (b := b) (caps := [(0, d ++ ['A'])]) hw
  simp only [matchPartial, List.take, List.zipIdx, List.map, cat, match?_eq, first_seq_of hb hb2]
  simp [List.range, List.range.loop, MSt.group]

theorem match_main_dash {w : Str} (hw : ∀ c ∈ w, c = 'A' ∨ c = 'O' ∨ c = '-') (hh : w.head? ≠ some '-') :
    matchPartial [.one, .remainder] ('A' :: '-' :: w) 2 = [2, w.length] := by
  obtain ⟨b, hb⟩ := first_one_dash (n := 0) (b := true) (caps := []) hh
  obtain ⟨b2, hb2⟩ := first_rest (n := 1) (b := b) (caps := [(0, ['A', '-'])]) hw
  simp only [matchPartial, List.take, List.zipIdx, List.map, cat, match?_eq, first_seq_of hb hb2]
  simp [List.range, List.range.loop, MSt.group]

/-! ### What was not recognised stays -/

theorem run_ok {α β : Type} {x : Run α} {f : α → Run β} {y : β} (h : (x >>= f) = .ok y) : ∃ a, x = .ok a ∧ f a = .ok y := by
  cases x with
  | error e => cases h
  | ok a => exact ⟨a, rfl, h⟩

theorem takeAction_extras {P : Parser} {st st' : St} {i args} (h : takeAction P st i args = .ok st') : st'.extras = st.extras := by
  unfold takeAction at h
  split at h
  · cases h
  · obtain ⟨v, _, h⟩ := run_ok h
    split at h
    · cases h
    · obtain ⟨ns, _, h⟩ := run_ok h
      cases h
      rfl

theorem takeAll_extras {P : Parser} {l} : ∀ {st st' : St}, takeAll P st l = .ok st' → st'.extras = st.extras := by
  induction l with
  | nil => intro st st' h; cases h; rfl
  | cons a l ih =>
    intro st st' h
    obtain ⟨i, args⟩ := a
    obtain ⟨s1, h1, h⟩ := run_ok h
    rw [ih h, takeAction_extras h1]

theorem takePositionals_extras {P : Parser} {l} : ∀ {st : St} {ts r}, takePositionals P st l ts = .ok r → r.1.extras = st.extras := by
  induction l with
  | nil => intro st ts r h; cases h; rfl
  | cons a l ih =>
    intro st ts r h
    obtain ⟨i, n⟩ := a
    obtain ⟨s1, h1, h⟩ := run_ok h
    rw [ih h, takeAction_extras h1]

theorem consumePositionals_extras {P : Parser} {st : St} {ts r} (h : consumePositionals P st ts = .ok r) : r.1.extras = st.extras := by
  unfold consumePositionals at h
  have := takePositionals_extras h
  exact this

theorem consumeOptional_extras {P : Parser} {st : St} {s t ts r} (h : consumeOptional P st s t ts = .ok r) (he : st.extras ≠ []) : r.1.extras ≠ [] := by
  unfold consumeOptional at h
  split at h
  · cases h; simp
  · obtain ⟨g, _, h⟩ := run_ok h
    split at h
    · obtain ⟨s1, h1, h⟩ := run_ok h
      cases h
      have := takeAll_extras h1
      simp only at this ⊢
      rw [this]
      simp [he]
    · split at h
      · cases h
      · obtain ⟨s1, h1, h⟩ := run_ok h
        cases h
        have := takeAll_extras h1
        simp only at this ⊢
        rw [this]
        exact he

theorem optionLoop_extras {P : Parser} : ∀ {fuel} {st : St} {ts r}, optionLoop P fuel st ts = .ok r → st.extras ≠ [] → r.1.extras ≠ [] := by
  intro fuel
  induction fuel with
  | zero => intro st ts r h he; cases h; exact he
  | succ fuel ih =>
    intro st ts r h he
    unfold optionLoop at h
    split at h
    · split at h
      · obtain ⟨r1, h1, h⟩ := run_ok h
        exact ih h (consumeOptional_extras h1 he)
      · obtain ⟨r1, h1, h⟩ := run_ok h
        have h2 := consumePositionals_extras h1
        split at h
        · exact ih h (by rw [h2]; exact he)
        · simp only at h
          split at h
          · obtain ⟨r3, h3, h⟩ := run_ok h
            exact ih h (consumeOptional_extras h3 (by simp [h2, he]))
          · cases h
            simp [h2, he]
    · cases h; exact he

/-! ### The arguments as they are taken -/

section
variable [Uni]

theorem classify_text {P : Parser} : ∀ {argv : List Str} {ts}, classify P argv = .ok ts → ts.map Tok.text = argv := by
  intro argv
  induction argv with
  | nil => intro ts h; cases h; rfl
  | cons s ss ih =>
    intro ts h
    unfold classify at h
    split at h
    · rename_i hs
      cases h
      simp [Tok.text, hs, Function.comp_def]
    · obtain ⟨t, _, h⟩ := run_ok h
      obtain ⟨ts', h2, h⟩ := run_ok h
      cases h
      have := ih h2
      cases t <;> simp [Tok.text, this]

theorem letter_mem {ts : List Tok} : ∀ c ∈ ts.map Tok.letter, c = 'A' ∨ c = 'O' ∨ c = '-' := by
  intro c hc
  obtain ⟨t, _, rfl⟩ := List.mem_map.1 hc
  cases t <;> simp [Tok.letter]

theorem main_table : mainParser.table = [(lit! "-h", 0), (lit! "--help", 0)] := rfl

theorem main_find {s : Str} {i} (h : mainParser.find s = some i) : i = 0 := by
  unfold Parser.find at h
  obtain ⟨p, hp, rfl⟩ := Option.map_eq_some_iff.1 h
  have := List.mem_of_find?_eq_some hp
  rw [main_table] at this
  simp at this
  rcases this with rfl | rfl <;> rfl

theorem partitionEq_prefix {s : Str} : (partitionEq ('-' :: '-' :: s)).1 = '-' :: '-' :: (partitionEq s).1 := by
  simp [partitionEq]

theorem main_tuples (s : Str) (h2 : 2 ≤ s.length) : optionTuples mainParser s = [] ∨ ∃ t, optionTuples mainParser s = [t] ∧ t.action = some 0 := by
  unfold optionTuples
  rw [main_table]
  match s, h2 with
  | a :: b :: s, _ =>
    by_cases ha : a = '-' ∧ b = '-'
    · obtain ⟨rfl, rfl⟩ := ha
      have h0 : ('-' :: '-' :: (partitionEq s).1).isPrefixOf (lit! "-h") = false := rfl
      simp only [partitionEq_prefix, List.filter, h0]
      by_cases hp : ('-' :: '-' :: (partitionEq s).1).isPrefixOf (lit! "--help") = true
      · simp [hp]
      · simp [hp]
    · have h1 : (lit! "--").isPrefixOf (a :: b :: s) = false := by
        simp [List.isPrefixOf]
        exact fun x y => ha ⟨x.symm, y.symm⟩
      simp only [h1, List.filterMap]
      have h3 : (a :: b :: s).isPrefixOf (lit! "--help") = false := by
        simp only [List.isPrefixOf, Bool.and_eq_false_iff, beq_eq_false_iff_ne]
        by_cases hx : a = '-'
        · exact .inr (.inl fun hy => ha ⟨hx, hy⟩)
        · exact .inl hx
      have h4 : ¬ lit! "--help" = (a :: b :: s).take 2 := by simp
      simp only [h3, if_neg h4, Bool.false_eq_true, if_false]
      by_cases h5 : lit! "-h" = (a :: b :: s).take 2
      · simp only [if_pos h5]; right; exact ⟨_, rfl, rfl⟩
      · simp only [if_neg h5]
        by_cases h6 : (a :: b :: s).isPrefixOf (lit! "-h") = true
        · simp only [if_pos h6]; right; exact ⟨_, rfl, rfl⟩
        · simp only [if_neg h6]; left; trivial

theorem main_optional (s : Str) : parseOptional mainParser s = .ok none ∨ ∃ t, parseOptional mainParser s = .ok (some t) ∧ (t.action = none ∨ t.action = some 0) := by
  unfold parseOptional
  split
  · exact .inl rfl
  · rename_i hs
    split
    · rename_i i hi
      right; exact ⟨_, rfl, .inr (by rw [main_find hi])⟩
    · split
      · exact .inl rfl
      · rename_i hl
        split
        · rename_i t ht
          right
          obtain ⟨e, _, ht⟩ := Option.bind_eq_some_iff.1 ht
          obtain ⟨i, hi, rfl⟩ := Option.map_eq_some_iff.1 ht
          exact ⟨_, rfl, .inr (by rw [main_find hi])⟩
        · have h2 : 2 ≤ s.length := by
            cases s with
            | nil => simp at hs
            | cons a s => cases s with
              | nil => simp at hl
              | cons b s => simp
          rcases main_tuples s h2 with h | ⟨t, h, ha⟩
          · rw [h]
            simp only
            split
            · exact .inl rfl
            · split
              · exact .inl rfl
              · right; exact ⟨_, rfl, .inl rfl⟩
          · rw [h]
            right; exact ⟨_, rfl, .inr ha⟩

theorem main_classify (argv : List Str) : ∃ ts, classify mainParser argv = .ok ts := by
  induction argv with
  | nil => exact ⟨_, rfl⟩
  | cons s ss ih =>
    obtain ⟨ts, ih⟩ := ih
    unfold classify
    split
    · exact ⟨_, rfl⟩
    · rcases main_optional s with h | ⟨t, h, _⟩ <;> rw [h, ih] <;> exact ⟨_, rfl⟩

end

/-! ### What `xigt` calls -/

/-- the name of a script (spec) -/
def Script.word : Script → Str
  | .export => lit! "export"
  | .import => lit! "import"
  | .partition => lit! "partition"
  | .process => lit! "process"
  | .sort => lit! "sort"
  | .query => lit! "query"
  | .validate => lit! "validate"

theorem cmdmap_word {c : Str} {s : Script} : Dict.get? cmdmap c = some s ↔ c = s.word := by
  constructor
  · intro h
    have := Dict.get?_mem h
    simp [cmdmap] at this
    rcases this with ⟨rfl, rfl⟩ | ⟨rfl, rfl⟩ | ⟨rfl, rfl⟩ | ⟨rfl, rfl⟩ | ⟨rfl, rfl⟩ | ⟨rfl, rfl⟩ | ⟨rfl, rfl⟩ <;> rfl
  · rintro rfl
    cases s <;> rfl

theorem cmdmap_mem {c : Str} (h : c ∈ cmdmap.map Prod.fst) : ∃ s, Dict.get? cmdmap c = some s := by
  simp [cmdmap] at h
  rcases h with rfl | rfl | rfl | rfl | rfl | rfl | rfl <;> exact ⟨_, rfl⟩

theorem word_mem (s : Script) : s.word ∈ cmdmap.map Prod.fst := by cases s <;> decide

section
variable [Uni]

/-- the command and its arguments are taken -/
theorem main_taken {ts : List Tok} {n m : Nat} (hm : matchPartial [.one, .remainder] (ts.map Tok.letter) 2 = [n, m]) (hl : n + m = ts.length)
    {c : Str} (hc : ((ts.take n).map Tok.text).erase (lit! "--") = [c]) (st : St) (hp : st.pos = [1, 2]) :
    consumePositionals mainParser st ts = if c ∈ cmdmap.map Prod.fst then
      .ok (⟨(st.ns.set (lit! "command") (.str c)).set (lit! "args") (.list ((ts.drop n).map Tok.text)), 2 :: 1 :: st.seen, [], st.extras⟩, []) else .error .usage := by
  have hd : ((ts.drop n).take m) = ts.drop n := List.take_of_length_le (by simp; omega)
  have hd2 : (ts.drop n).drop m = [] := List.drop_eq_nil_of_le (by simp; omega)
  have hn : [1, 2].map mainParser.nargs = [.one, .remainder] := rfl
  have h2 : [1, 2].length = 2 := rfl
  unfold consumePositionals
  simp only [hp, hn, h2, hm, List.zip, List.zipWith, takePositionals, List.drop_succ_cons, List.length_cons, List.length_nil, List.drop_nil, List.drop_zero]
  have ha1 : ∀ st : St, takeAction mainParser st 1 ((ts.take n).map Tok.text) = if c ∈ cmdmap.map Prod.fst then
      .ok { st with ns := st.ns.set (lit! "command") (.str c), seen := 1 :: st.seen } else .error .usage := by
    intro st
    have : mainParser.actions[1]? = some { dest := lit! "command", choices := some (cmdmap.map Prod.fst) } := rfl
    unfold takeAction
    rw [this]
    simp only [getValues, ne_eq, reduceCtorEq, not_false_eq_true, and_self, if_true, hc]
    by_cases h : c ∈ cmdmap.map Prod.fst
    · simp only [decide_true, h, if_true]; rfl
    · simp only [h, decide_false, if_false]; rfl
  have ha2 : ∀ (st : St) l, takeAction mainParser st 2 l = .ok { st with ns := st.ns.set (lit! "args") (.list l), seen := 2 :: st.seen } := by
    intro st l
    rfl
  rw [ha1]
  by_cases h : c ∈ cmdmap.map Prod.fst
  · simp only [if_pos h, hd, hd2, bind, Except.bind, ha2]
  · simp only [if_neg h]
    rfl

/-- so `xigt` calls the script -/
theorem dispatch_taken {argv : List Str} {ts : List Tok} (ht : classify mainParser argv = .ok ts) {n m : Nat}
    (hm : matchPartial [.one, .remainder] (ts.map Tok.letter) 2 = [n, m]) (hl : n + m = ts.length) (hp : 0 < n + m)
    {c : Str} (hc : ((ts.take n).map Tok.text).erase (lit! "--") = [c]) (hne : ∀ s t ts', ts ≠ .opt s t :: ts') :
    dispatch argv = match Dict.get? cmdmap c with
      | some s => .ok (s, (ts.drop n).map Tok.text)
      | none => .error .usage := by
  have hparse : parseArgs mainParser argv = if c ∈ cmdmap.map Prod.fst then
      .ok ((mainParser.defaults.set (lit! "command") (.str c)).set (lit! "args") (.list ((ts.drop n).map Tok.text))) else .error .usage := by
    unfold parseArgs
    rw [ht]
    show (optionLoop mainParser ts.length ⟨mainParser.defaults, [], mainParser.positionals, []⟩ ts >>= fun r => _) = _
    have hpos : mainParser.positionals = [1, 2] := rfl
    have hg := main_taken hm hl hc ⟨mainParser.defaults, [], mainParser.positionals, []⟩ hpos
    by_cases ho : ts.any Tok.isOpt = true
    · obtain ⟨k, hk⟩ : ∃ k, ts.length = k + 1 := ⟨ts.length - 1, by omega⟩
      rw [hk]
      unfold optionLoop
      rw [if_pos ho]
      split
      · rename_i s t ts' _
        exact absurd rfl (hne _ _ _)
      · rw [hg]
        by_cases h : c ∈ cmdmap.map Prod.fst
        · simp only [if_pos h]
          show (if _ then _ else _ : Run _) >>= _ = _
          rw [if_pos (by show 0 < ts.length; omega)]
          have : ∀ st, optionLoop mainParser k st [] = .ok (st, []) := by
            intro st
            cases k <;> rfl
          rw [this]
          rfl
        · simp only [if_neg h]; rfl
    · have : ∀ fuel st, optionLoop mainParser fuel st ts = .ok (st, ts) := by
        intro fuel st
        cases fuel with
        | zero => rfl
        | succ fuel =>
          unfold optionLoop
          rw [if_neg ho]
      rw [this]
      show finish mainParser (_, ts) = _
      unfold finish
      simp only [hg]
      by_cases h : c ∈ cmdmap.map Prod.fst
      · simp only [if_pos h]; rfl
      · simp only [if_neg h]; rfl
  unfold dispatch
  rw [hparse]
  by_cases h : c ∈ cmdmap.map Prod.fst
  · simp only [if_pos h]
    have h1 : ¬ lit! "args" = lit! "command" := by decide
    simp only [bind, Except.bind, Dict.get?_set, if_neg h1, if_true]
    rfl
  · simp only [if_neg h]
    have : Dict.get? cmdmap c = none := by
      cases hs : Dict.get? cmdmap c with
      | none => rfl
      | some s => exact absurd (List.mem_map_of_mem (f := Prod.fst) (Dict.get?_mem hs)) h
    rw [this]
    rfl

/-- options before the command end the program -/
theorem dispatch_option {argv : List Str} {s t ts} (ht : classify mainParser argv = .ok (.opt s t :: ts)) (ha : t.action = none ∨ t.action = some 0) :
    ∀ r, dispatch argv ≠ .ok r := by
  intro r hr
  unfold dispatch at hr
  obtain ⟨ns, hp, _⟩ := run_ok hr
  unfold parseArgs at hp
  rw [ht] at hp
  obtain ⟨ts', h1, hp⟩ := run_ok hp
  cases h1
  obtain ⟨q, h2, hp⟩ := run_ok hp
  unfold finish at hp
  obtain ⟨q3, h3, hp⟩ := run_ok hp
  have hex : q3.1.extras = [] := by
    split at hp
    · cases hp
    · split at hp
      · rename_i he
        exact (List.append_eq_nil_iff.1 he).1
      · cases hp
  rw [consumePositionals_extras h3] at hex
  simp only [List.length_cons, optionLoop, List.any_cons, Tok.isOpt, Bool.true_or, if_true] at h2
  obtain ⟨q4, h4, h2⟩ := run_ok h2
  rcases ha with ha | ha
  · unfold consumeOptional at h4
    rw [ha] at h4
    cases h4
    exact optionLoop_extras h2 (by simp) hex
  · have hhelp : ∀ st l, takeAll mainParser st ((0, []) :: l) = .error .help := fun _ _ => rfl
    unfold consumeOptional at h4
    rw [ha] at h4
    obtain ⟨g, hg, h4⟩ := run_ok h4
    have hacts : (g.acts = [] ∧ g.open' = some 0) ∨ ∃ l, g.acts = (0, []) :: l := by
      have hnum : mainParser.number 0 = 0 := rfl
      unfold said at hg
      split at hg
      · cases hg; exact .inl ⟨rfl, rfl⟩
      · right
        unfold glued at hg
        rw [hnum] at hg
        split at hg
        · simp at hg
        · split at hg
          · simp at *
          · split at hg
            · cases hg
            · split at hg
              · cases hg
              · split at hg
                · cases hg; exact ⟨_, rfl⟩
                · split at hg
                  · cases hg; exact ⟨_, rfl⟩
                  · obtain ⟨g', _, hg⟩ := run_ok hg
                    cases hg; exact ⟨_, rfl⟩
                  · obtain ⟨g', _, hg⟩ := run_ok hg
                    cases hg; exact ⟨_, rfl⟩
    rcases hacts with ⟨h5, h6⟩ | ⟨l, h5⟩
    · rw [h6] at h4
      have : mainParser.number 0 = 0 := rfl
      simp only [this, takeArgs, h5, List.nil_append, hhelp] at h4
      cases h4
    · split at h4
      · rw [h5, hhelp] at h4; cases h4
      · split at h4
        · cases h4
        · rw [h5, List.cons_append, hhelp] at h4; cases h4

theorem word_optional (s : Script) : parseOptional mainParser s.word = .ok none ∧ s.word ≠ lit! "--" := by
  cases s <;> exact ⟨rfl, by decide⟩

theorem letters_dash {argv : List Str} {ts} (ht : classify mainParser argv = .ok ts) : (ts.map Tok.letter).head? = some '-' ↔ argv.head? = some (lit! "--") := by
  cases argv with
  | nil => cases ht; simp
  | cons s ss =>
    unfold classify at ht
    split at ht
    · rename_i hs
      cases ht
      simp [hs, Tok.letter]
    · rename_i hs
      obtain ⟨t, _, ht⟩ := run_ok ht
      obtain ⟨ts', _, ht⟩ := run_ok ht
      cases ht
      cases t <;> simp [Tok.letter, hs]

/-- C152: `xigt` calls a script with a list of arguments exactly if its name comes first and the arguments follow it; of
`--` before or after the name, the first one is left out. -/
theorem C152_iff (argv : List Str) (s : Script) (l : List Str) : dispatch argv = .ok (s, l) ↔
    (argv = s.word :: l ∧ l.head? ≠ some (lit! "--")) ∨ argv = s.word :: lit! "--" :: l ∨ argv = lit! "--" :: s.word :: l := by
  have hdash : ∀ c l, dispatch (lit! "--" :: c :: l) = match Dict.get? cmdmap c with
      | some s => .ok (s, l)
      | none => .error .usage := by
    intro c l
    have ht : classify mainParser (lit! "--" :: c :: l) = .ok (.dashes :: .arg c :: l.map .arg) := rfl
    have h := dispatch_taken ht (n := 2) (m := l.length) (c := c) (by
        have := match_main (d := ['-']) (w := (l.map Tok.arg).map Tok.letter) (.inr rfl) letter_mem (by
          cases l <;> simp [Tok.letter])
        simpa [Tok.letter] using this) (by simp; omega) (by omega) (by simp [Tok.text]) (by simp)
    rw [h]
    simp [Tok.text, Function.comp_def]
  have hplain : ∀ c l, c ≠ lit! "--" → parseOptional mainParser c = .ok none → dispatch (c :: l) = match Dict.get? cmdmap c with
      | some s => .ok (s, if l.head? = some (lit! "--") then l.drop 1 else l)
      | none => .error .usage := by
    intro c l hc ho
    obtain ⟨ts, hts⟩ := main_classify l
    have ht : classify mainParser (c :: l) = .ok (.arg c :: ts) := by
      unfold classify
      rw [if_neg hc, ho, hts]
      rfl
    have htext := classify_text hts
    by_cases hl : l.head? = some (lit! "--")
    · rw [if_pos hl]
      cases l with
      | nil => cases hl
      | cons x l =>
        cases hl
        have hts2 : ts = .dashes :: l.map .arg := by
          have : classify mainParser (lit! "--" :: l) = .ok (.dashes :: l.map .arg) := rfl
          rw [this] at hts
          cases hts; rfl
        subst hts2
        have h := dispatch_taken ht (n := 2) (m := l.length) (c := c) (by
            have := match_main_dash (w := (l.map Tok.arg).map Tok.letter) letter_mem (by
              cases l <;> simp [Tok.letter])
            simpa [Tok.letter] using this) (by simp; omega) (by omega) (by
              have : (c == lit! "--") = false := by simpa using hc
              simp [Tok.text, List.erase_cons, this]) (by simp)
        rw [h]
        simp [Tok.text, Function.comp_def]
    · rw [if_neg hl]
      have h := dispatch_taken ht (n := 1) (m := ts.length) (c := c) (by
          have := match_main (d := []) (w := ts.map Tok.letter) (.inl rfl) letter_mem (fun h => hl ((letters_dash hts).1 h))
          simpa [Tok.letter] using this) (by simp; omega) (by omega) (by
            have : (c == lit! "--") = false := by simpa using hc
            simp [Tok.text, List.erase_cons, this]) (by simp)
      rw [h]
      simp [htext]
  constructor
  · intro h
    match argv with
    | [] => cases h
    | c :: rest =>
      by_cases hc : c = lit! "--"
      · subst hc
        cases rest with
        | nil => cases h
        | cons c rest =>
          rw [hdash] at h
          split at h
          · rename_i s' hs
            cases h
            right; right
            rw [cmdmap_word.1 hs]
          · cases h
      · rcases main_optional c with ho | ⟨t, ho, ha⟩
        · rw [hplain c rest hc ho] at h
          split at h
          · rename_i s' hs
            cases h
            rw [cmdmap_word.1 hs]
            by_cases hl : rest.head? = some (lit! "--")
            · rw [if_pos hl]
              right; left
              cases rest with
              | nil => cases hl
              | cons x rest => cases hl; rfl
            · rw [if_neg hl]
              left; exact ⟨rfl, hl⟩
          · cases h
        · exfalso
          obtain ⟨ts, hts⟩ := main_classify rest
          have ht : classify mainParser (c :: rest) = .ok (.opt c t :: ts) := by
            unfold classify
            rw [if_neg hc, ho, hts]
            rfl
          exact dispatch_option ht ha _ h
  · have hw := word_optional s
    rintro (⟨rfl, hl⟩ | rfl | rfl)
    · rw [hplain _ _ hw.2 hw.1, cmdmap_word.2 rfl, if_neg hl]
    · rw [hplain _ _ hw.2 hw.1, cmdmap_word.2 rfl]; rfl
    · rw [hdash, cmdmap_word.2 rfl]

end
end Xigt.Cmd
