import Verif.Ref.Laws
/-
Properties C09, C13-C19: reference expressions (ref.py).
Every theorem holds for all Unicode tables (`Uni`), all strings / well-formed expressions.
-/

set_option linter.unusedSectionVars false

namespace Xigt
section
variable [Uni]

/-! ### C09: ids accepted by the model can be referred to -/

/-- C09 fails: the ID check is not anchored at the end, so `'a b'` is accepted as an ID although
no reference expression mentions it (`ids('a b') = ['a', 'b']`). -/
theorem C09_refuted : ∃ s : Str, idAccepted s = true ∧ ids s = [['a'], ['b']] ∧ s ∉ ids s := by
  have h : ids (lit! "a b") = [['a'], ['b']] := by
    apply ids_of_idSplit
    have ha : IdOK ['a'] := ⟨'a', [], rfl, by decide, by simp⟩
    have hb : IdOK ['b'] := ⟨'b', [], rfl, by decide, by simp⟩
    have hsp : isIdChar ' ' = false := by
      unfold isIdChar; rw [Uni.ascii_word _ (by decide)]; decide
    refine IdSplit.take (i := ['a']) (s := lit! " b") ha (by simp [idChar_eq, hsp]) ?_
    exact .skip (by decide) (IdSplit.take (i := ['b']) (s := []) hb (by simp) .nil)
  refine ⟨lit! "a b", (idAccepted_iff _).2 ⟨'a', [' ', 'b'], rfl, by decide⟩, h, ?_⟩
  rw [h]; decide

/-- C09 (what holds): a string is accepted iff it begins with an ASCII letter; an accepted string
is recovered by `ids` iff all its characters are ID characters, and then it is all of the result. -/
theorem C09_partial (s : Str) :
    (idAccepted s = true ↔ ∃ c cs, s = c :: cs ∧ isLetter c = true) ∧
    (s ∈ ids s ↔ IdOK s) ∧ (IdOK s → idAccepted s = true ∧ ids s = [s]) := by
  have h3 : IdOK s → idAccepted s = true ∧ ids s = [s] := by
    intro h
    refine ⟨?_, ?_⟩
    · obtain ⟨c, cs, e, hc, _⟩ := h
      exact (idAccepted_iff s).2 ⟨c, cs, e, hc⟩
    · apply ids_of_idSplit
      have := IdSplit.take (s := []) h (by simp) .nil
      simpa using this
  refine ⟨idAccepted_iff s, ⟨fun h => ?_, fun h => by rw [(h3 h).2]; simp⟩, h3⟩
  exact idSplit_ok ((ids_iff_idSplit s _).1 rfl) s h

/-! ### C13: ids() -/

/-- C13: on an expression whose separators keep the IDs apart, `ids` returns the IDs in order with
repetitions. -/
theorem C13_ids_of_expression (e : Expr)
    (h : e.head.OK ∧ ∀ p ∈ e.tail, IdSepOK p.1 ∧ p.2.OK) : ids e.render = e.ids :=
  ids_of_idSplit (idSplit_expr h)

/-- C13 for every string: the result is the left-to-right list of maximal IDs, and nothing else. -/
theorem C13_ids_all_strings (s : Str) (l : List Str) : ids s = l ↔ IdSplit s l :=
  ids_iff_idSplit s l

/-- C13: everything returned is an ID occurring in the string. -/
theorem C13_ids_occur (s : Str) (i : Str) (hi : i ∈ ids s) : IdOK i ∧ i <:+: s := by
  have h : IdSplit s (ids s) := (ids_iff_idSplit s _).1 rfl
  refine ⟨idSplit_ok h i hi, ?_⟩
  generalize ids s = l at h hi
  induction h with
  | nil => cases hi
  | skip _ _ ih => exact (ih hi).trans (List.suffix_cons _ _).isInfix
  | take _ _ _ ih =>
    rcases List.mem_cons.1 hi with rfl | hi
    · exact (List.prefix_append _ _).isInfix
    · exact (ih hi).trans (List.suffix_append _ _).isInfix

/-! ### C14: selections() -/

/-- one piece of a string as seen by `selections`: a delimiter (maybe empty) and a selection
(empty, an ID, or an ID with a bracketed part) -/
structure SelPiece where
  delim : Str
  sel : Str

def SelPiece.OK (p : SelPiece) : Prop :=
  p.sel = [] ∨ IdOK p.sel ∨ ∃ i r, IdOK i ∧ r ≠ [] ∧ p.sel = i ++ '[' :: (r ++ [']'])

/-- C14: every newline-free string is cut into delimiters and selections without loss;
`selections(s)` lists the non-empty pieces, `selections(s, False)` only the selections. -/
theorem C14_selections_lossless (s : Str) (hnl : '\n' ∉ s) :
    (selections s).flatten = s ∧
    ∃ ps : List SelPiece, (∀ p ∈ ps, p.OK) ∧ s = ps.flatMap (fun p => p.delim ++ p.sel) ∧
      selections s = (ps.flatMap fun p => [p.delim, p.sel]).filter (· ≠ []) ∧
      selections s false = (ps.map SelPiece.sel).filter (· ≠ []) := by
  have hnl' : ∀ c ∈ s, c ≠ '\n' := fun c hc e => hnl (e ▸ hc)
  obtain ⟨ps, hok, hm, hs⟩ := robust_pieces true s false hnl' (Or.inl rfl)
  have hT : findTriples robustRefRe s = ps.map fun p => (p.pre, p.id, p.rng) := by
    rw [findTriples_eq]; exact hm
  have htok : ∀ p : Piece, p.OK → (if p.id ≠ [] then [if p.rng ≠ [] then
      p.id ++ '[' :: (p.rng ++ [']']) else p.id] else []) = [p.sel].filter (· ≠ []) := by
    intro p hp
    unfold Piece.sel
    by_cases h1 : p.id = []
    · simp [h1, hp.2 h1]
    · by_cases h2 : p.rng = [] <;> simp [h1, h2]
  have htrue : selections s = (ps.flatMap fun p => [p.pre, p.sel]).filter (· ≠ []) := by
    rw [selections, hT, List.flatMap_map]
    clear hm hs hT
    induction ps with
    | nil => rfl
    | cons p ps ih =>
      rw [List.flatMap_cons, List.flatMap_cons, List.filter_append, ← ih (fun q hq => hok q (by simp [hq]))]
      congr 1
      have := htok p (hok p (by simp))
      simp only [true_and]
      rw [this]
      by_cases h1 : p.pre = [] <;> simp [List.filter_cons, h1]
  have hfalse : selections s false = (ps.map Piece.sel).filter (· ≠ []) := by
    rw [selections, hT, List.flatMap_map]
    clear hm hs hT htrue
    induction ps with
    | nil => rfl
    | cons p ps ih =>
      rw [List.flatMap_cons, ih (fun q hq => hok q (by simp [hq]))]
      have := htok p (hok p (by simp))
      simp only [Bool.false_eq_true, false_and, if_false, List.nil_append]
      rw [this, List.map_cons, List.filter_cons, List.filter_cons]
      by_cases h1 : p.sel = [] <;> simp [h1]
  refine ⟨?_, ps.map (fun p => ⟨p.pre, p.sel⟩), ?_, ?_, ?_, ?_⟩
  · rw [htrue]
    conv => rhs; rw [hs]
    clear hm hs hT htrue hfalse hok
    induction ps with
    | nil => rfl
    | cons p ps ih =>
      rw [List.flatMap_cons, List.flatMap_cons, List.filter_append, List.flatten_append, ih]
      congr 1
      by_cases h1 : p.pre = [] <;> by_cases h2 : p.sel = [] <;> simp [List.filter_cons, h1, h2]
  · intro q hq
    obtain ⟨p, hp, rfl⟩ := List.mem_map.1 hq
    have h := hok p hp
    simp only [SelPiece.OK, Piece.sel]
    by_cases h2 : p.rng = []
    · rw [if_pos h2]
      rcases h.1 with h1 | h1
      · exact Or.inl h1
      · exact Or.inr (Or.inl h1)
    · rw [if_neg h2]
      rcases h.1 with h1 | h1
      · exact absurd (h.2 h1) h2
      · exact Or.inr (Or.inr ⟨p.id, p.rng, h1, h2, rfl⟩)
  · rw [List.flatMap_map]; exact hs
  · rw [List.flatMap_map]; exact htrue
  · rw [List.map_map]; exact hfalse

/-- C14 on well-formed expressions: exactly the selections and the separators between them. -/
theorem C14_selections_of_expression (e : Expr) (h : e.OK) :
    selections e.render = e.tokens ∧ selections e.render false = e.sels.map Sel.render :=
  ⟨selections_render h, selections_render_nodelim h⟩

/-! ### C15: expand() and compress() -/

/-- C15, meaning of `expand`: every selection split into single spans. -/
theorem C15_expand_splits (e : Expr) (h : e.OK) :
    ∃ e' : Expr, expand e.render = e'.render ∧ e' = e.split ∧ e'.OK ∧ e'.IsSplit :=
  ⟨e.split, expand_render h, rfl, e.split_ok h, e.split_isSplit⟩

/-- C15, meaning of `compress`: adjacent span selections of one ID merged, none left. -/
theorem C15_compress_merges (e : Expr) (h : e.WF) :
    ∃ e' : Expr, compress e.render = e'.render ∧ e' = e.merge ∧ e'.WF ∧ e'.IsMerged :=
  ⟨e.merge, compress_render h, rfl, e.merge_wf h, e.merge_isMerged h⟩

/-- C15: `expand` is idempotent. -/
theorem C15_expand_idempotent (e : Expr) (h : e.OK) :
    expand (expand e.render) = expand e.render := by
  rw [expand_render h, expand_render (e.split_ok h), Expr.split_of_isSplit e.split_isSplit]

/-- C15: `compress` is idempotent. -/
theorem C15_compress_idempotent (e : Expr) (h : e.WF) :
    compress (compress e.render) = compress e.render := by
  rw [compress_render h, compress_render (e.merge_wf h), Expr.merge_merge h]

/-- C15: `expand` undoes `compress`. -/
theorem C15_expand_compress (e : Expr) (h : e.WF) :
    expand (compress e.render) = expand e.render := by
  rw [compress_render h, expand_render (e.merge_ok h), expand_render h.1, Expr.merge_split h]

/-- C15: `compress` undoes `expand`. -/
theorem C15_compress_expand (e : Expr) (h : e.WF) :
    compress (expand e.render) = compress e.render := by
  rw [expand_render h.1, compress_render (e.split_wf h), compress_render h, Expr.split_merge h]

/-- C15: an expression with one span per selection is a fixed point of `expand`; one without
mergeable neighbours is a fixed point of `compress`. -/
theorem C15_fixed_points (e : Expr) (h : e.OK) :
    (e.IsSplit → expand e.render = e.render) ∧ (e.IsMerged → compress e.render = e.render) := by
  constructor
  · intro hs; rw [expand_render h, Expr.split_of_isSplit hs]
  · intro hm
    rw [compress_render ⟨h, JoinOK.of_merged _ _ hm⟩, Expr.merge, mergeTail_of_merged _ _ hm]

/-! ### C16: spans() -/

/-- C16: `spans` lists every span as `id[a:b]` (or the bare ID) with the delimiters between;
without delimiters just the spans. -/
theorem C16_spans (e : Expr) (h : e.OK) :
    spans e.render = e.split.tokens ∧ spans e.render false = e.split.sels.map Sel.render := by
  unfold spans
  rw [expand_render h]
  exact ⟨selections_render (e.split_ok h), selections_render_nodelim (e.split_ok h)⟩

/-! ### C17-C19: resolve() -/

/-- C17: `resolve` computes the denotation: selected substrings of the items' values in order,
`,` as a space and any other delimiter as nothing, absent values as empty. -/
theorem C17_resolve (get : Str → Option (Py (Option Str))) (e : Expr) (h : e.Simple) :
    resolve get e.render = e.denote get :=
  resolve_render get h

/-- C17, the successful case spelled out: if all referred items have values `val i`, the result is
the text of the selections joined by the delimiter texts. -/
theorem C17_resolve_ok (val : Str → Str) (get : Str → Option (Py (Option Str))) (e : Expr)
    (h : e.Simple) (hv : ∀ s ∈ e.sels, get s.id = some (.ok (some (val s.id))) ∨
      (get s.id = some (.ok none) ∧ val s.id = [])) :
    resolve get e.render = .ok (e.head.select (val e.head.id) ++
      e.tail.flatMap fun p => sepText p.1 ++ p.2.select (val p.2.id)) := by
  rw [resolve_render get h]
  have one : ∀ s ∈ e.sels, s.denote get = .ok (s.select (val s.id)) := by
    intro s hs
    rcases hv s hs with h1 | ⟨h1, h2⟩
    · simp [Sel.denote, h1]
    · simp [Sel.denote, h1, h2]
  have tl : ∀ l : List (Str × Sel), (∀ p ∈ l, p.2 ∈ e.sels) → denoteTail get l =
      .ok (l.flatMap fun p => sepText p.1 ++ p.2.select (val p.2.id)) := by
    intro l
    induction l with
    | nil => intro _; rfl
    | cons p ps ih =>
      intro hp
      rw [denoteTail, one p.2 (hp p (by simp)), ih (fun q hq => hp q (by simp [hq]))]
      simp [bind, Except.bind]
  rw [Expr.denote, one e.head (by simp [Expr.sels]), tl e.tail (fun p hp => by
    simp only [Expr.sels, List.mem_cons, List.mem_map]; exact Or.inr ⟨p, hp, rfl⟩)]
  rfl

/-- C18: expanding or compressing never changes the resolved string nor the error. -/
theorem C18_expand_compress_resolve (get : Str → Option (Py (Option Str))) (e : Expr)
    (h : e.Simple) : resolve get (expand e.render) = resolve get e.render ∧
      resolve get (compress e.render) = resolve get e.render := by
  rw [expand_render h.ok, compress_render h.wf, resolve_render get h,
    resolve_render get (e.split_simple h), resolve_render get (e.merge_simple h),
    denote_split, denote_merge get h]
  exact ⟨rfl, rfl⟩

/-- C19: if some referred ID is missing and all earlier selections resolve, the result is a
structure error. -/
theorem C19_dangling (get : Str → Option (Py (Option Str))) (e : Expr) (h : e.Simple)
    (pre post : List Sel) (s : Sel) (hs : e.sels = pre ++ s :: post)
    (hpre : ∀ t ∈ pre, ∃ v, get t.id = some (.ok v)) (hmiss : get s.id = none) :
    resolve get e.render = .error .xigtStructureError := by
  rw [resolve_render get h]
  have one : ∀ t : Sel, (∃ v, get t.id = some (.ok v)) → ∃ x, t.denote get = .ok x := by
    rintro t ⟨v, hv⟩; exact ⟨t.select (v.getD []), by simp only [Sel.denote, hv]⟩
  have bad : s.denote get = .error .xigtStructureError := by simp [Sel.denote, hmiss]
  have tl : ∀ (l : List (Str × Sel)) (pre : List Sel), (∀ t ∈ pre, ∃ v, get t.id = some (.ok v)) →
      l.map Prod.snd = pre ++ s :: post → denoteTail get l = .error .xigtStructureError := by
    intro l
    induction l with
    | nil => intro pre _ h; simp at h
    | cons p ps ih =>
      intro pre hpre hl
      rw [denoteTail]
      cases pre with
      | nil =>
        simp only [List.map_cons, List.nil_append, List.cons.injEq] at hl
        rw [hl.1, bad]; rfl
      | cons t ts =>
        simp only [List.map_cons, List.cons_append, List.cons.injEq] at hl
        obtain ⟨x, hx⟩ := one t (hpre t (by simp))
        rw [hl.1, hx, ih ts (fun u hu => hpre u (by simp [hu])) hl.2]
        rfl
  rw [Expr.denote]
  cases pre with
  | nil =>
    simp only [Expr.sels, List.nil_append, List.cons.injEq] at hs
    rw [hs.1, bad]; rfl
  | cons t ts =>
    simp only [Expr.sels, List.cons_append, List.cons.injEq] at hs
    obtain ⟨x, hx⟩ := one t (hpre t (by simp))
    rw [hs.1, hx, tl e.tail ts (fun u hu => hpre u (by simp [hu])) hs.2]
    rfl

/-- C19: a result is never partial: when `resolve` succeeds on a well-formed expression, every
referred ID exists (and its value was computed). -/
theorem C19_no_partial_result (get : Str → Option (Py (Option Str))) (e : Expr) (h : e.Simple)
    (r : Str) (hr : resolve get e.render = .ok r) : ∀ s ∈ e.sels, ∃ v, get s.id = some (.ok v) := by
  rw [resolve_render get h] at hr
  have one : ∀ (t : Sel) x, t.denote get = .ok x → ∃ v, get t.id = some (.ok v) := by
    intro t x hx
    unfold Sel.denote at hx
    split at hx
    · cases hx
    · cases hx
    · exact ⟨_, by assumption⟩
  have tl : ∀ (l : List (Str × Sel)) x, denoteTail get l = .ok x →
      ∀ p ∈ l, ∃ v, get p.2.id = some (.ok v) := by
    intro l
    induction l with
    | nil => intro x _ p hp; cases hp
    | cons p ps ih =>
      intro x hx q hq
      rw [denoteTail] at hx
      cases hd : p.2.denote get with
      | error e => rw [hd] at hx; cases hx
      | ok a =>
        rw [hd] at hx
        cases ht : denoteTail get ps with
        | error e => rw [ht] at hx; cases hx
        | ok b =>
          rcases List.mem_cons.1 hq with rfl | hq
          · exact one _ _ hd
          · exact ih b ht q hq
  rw [Expr.denote] at hr
  cases hd : e.head.denote get with
  | error e => rw [hd] at hr; cases hr
  | ok a =>
    rw [hd] at hr
    cases ht : denoteTail get e.tail with
    | error e => rw [ht] at hr; cases hr
    | ok b =>
      intro s hs
      simp only [Expr.sels, List.mem_cons, List.mem_map] at hs
      rcases hs with rfl | ⟨p, hp, rfl⟩
      · exact one _ _ hd
      · exact tl _ _ ht p hp

end

/-! ### Non-vacuity: a concrete expression -/

attribute [local instance] asciiUni

/-- `a1[3:5+6:-7],b[0:2],b[4:9]+c` -/
def exampleExpr : Expr :=
  ⟨⟨lit! "a1", some ⟨⟨⟨false, ['3']⟩, ⟨false, ['5']⟩⟩, [('+', ⟨⟨false, ['6']⟩, ⟨true, ['7']⟩⟩)]⟩⟩,
   [([','], ⟨lit! "b", some ⟨⟨⟨false, ['0']⟩, ⟨false, ['2']⟩⟩, []⟩⟩),
    ([','], ⟨lit! "b", some ⟨⟨⟨false, ['4']⟩, ⟨false, ['9']⟩⟩, []⟩⟩),
    (['+'], ⟨lit! "c", none⟩)]⟩

theorem exampleExpr_simple : exampleExpr.Simple := by
  have n1 : ∀ (b : Bool) (c : Char), (Uni.digit c).isSome = true → (⟨b, [c]⟩ : Num).OK := by
    intro b c h; exact ⟨by simp, by simpa using h⟩
  have d1 : DelimOK ',' := ⟨by decide, by decide, by decide, by decide, by decide⟩
  have d2 : DelimOK '+' := ⟨by decide, by decide, by decide, by decide, by decide⟩
  have idb : IdOK (lit! "b") := ⟨'b', [], rfl, by decide, by simp⟩
  refine ⟨⟨⟨'a', ['1'], rfl, by decide, by decide⟩, ?_⟩, ?_⟩
  · intro r hr
    simp only [exampleExpr, Option.some.injEq] at hr
    subst hr
    refine ⟨⟨n1 _ _ (by decide), n1 _ _ (by decide)⟩, ?_⟩
    intro p hp
    simp only [List.mem_cons, List.not_mem_nil, or_false] at hp
    subst hp
    exact ⟨d2, n1 _ _ (by decide), n1 _ _ (by decide)⟩
  · intro p hp
    simp only [exampleExpr, List.mem_cons, List.not_mem_nil, or_false] at hp
    rcases hp with rfl | rfl | rfl
    · refine ⟨⟨',', rfl, d1⟩, idb, ?_⟩
      intro r hr; simp only [Option.some.injEq] at hr; subst hr
      exact ⟨⟨n1 _ _ (by decide), n1 _ _ (by decide)⟩, by simp⟩
    · refine ⟨⟨',', rfl, d1⟩, idb, ?_⟩
      intro r hr; simp only [Option.some.injEq] at hr; subst hr
      exact ⟨⟨n1 _ _ (by decide), n1 _ _ (by decide)⟩, by simp⟩
    · exact ⟨⟨'+', rfl, d2⟩, ⟨'c', [], rfl, by decide, by simp⟩, by simp⟩

example : exampleExpr.render = lit! "a1[3:5+6:-7],b[0:2],b[4:9]+c" := by decide
example : ids exampleExpr.render = [lit! "a1", lit! "b", lit! "b", lit! "c"] := by decide +kernel
example : selections exampleExpr.render = [lit! "a1[3:5+6:-7]", [','], lit! "b[0:2]", [','],
    lit! "b[4:9]", ['+'], lit! "c"] := by decide +kernel
example : expand exampleExpr.render = lit! "a1[3:5]+a1[6:-7],b[0:2],b[4:9]+c" := by decide +kernel
example : compress exampleExpr.render = lit! "a1[3:5+6:-7],b[0:2,4:9]+c" := by decide +kernel
example : spans exampleExpr.render false = [lit! "a1[3:5]", lit! "a1[6:-7]", lit! "b[0:2]",
    lit! "b[4:9]", lit! "c"] := by decide +kernel

/-- a container with values for `a1`, `b` and an empty item `c` -/
def exampleGet (i : Str) : Option (Py (Option Str)) :=
  if i = lit! "a1" then some (.ok (some (lit! "abcdefghijklmno")))
  else if i = lit! "b" then some (.ok (some (lit! "uvwxyz")))
  else if i = lit! "c" then some (.ok none) else none

example : resolve exampleGet exampleExpr.render = .ok (lit! "degh uv yz") := by decide +kernel
example : resolve exampleGet (lit! "a1[0:1]+d") = .error .xigtStructureError := by decide +kernel
/-- a space separated list with a newline meets the hypotheses of `C13_ids_of_expression` -/
example : (fun e : Expr => (e.head.OK ∧ ∀ p ∈ e.tail, IdSepOK p.1 ∧ p.2.OK) ∧ e.render = lit! "a \n b")
    ⟨⟨['a'], none⟩, [(lit! " \n ", ⟨['b'], none⟩)]⟩ := by
  refine ⟨⟨⟨⟨'a', [], rfl, by decide, by simp⟩, by simp⟩, ?_⟩, by decide⟩
  intro p hp
  simp only [List.mem_cons, List.not_mem_nil, or_false] at hp
  subst hp
  exact ⟨⟨⟨' ', _, rfl, by decide⟩, by decide⟩, ⟨'b', [], rfl, by decide, by simp⟩, by simp⟩
/-- the newline restriction of C14 is needed: `selections('a1\n')` drops the newline -/
example : (selections (lit! "a1\n")).flatten = lit! "a1" := by decide +kernel
/-- well-formedness in C15 is needed: text is lost on `a1[3:56:7]` -/
example : expand (lit! "a1[3:56:7]") ≠ lit! "a1[3:56:7]" := by decide +kernel

end Xigt
