import Verif.Export.LatexGrid
import Verif.Export.LatexEscape
/-
C79: the lines that are exported for an IGT.
-/
set_option linter.unusedSectionVars false

namespace Xigt.Ltx

/-! ### Specification -/

/-- the text of a group up to its closing brace, and what follows.  A backslash takes the next character with it;
there are no groups in a group -/
def scanIn (acc : Str) : Str → Option (Str × Str)
  | [] => none
  | c :: s =>
    if c = '\\' then
      match s with
      | [] => none
      | d :: s' => scanIn (acc ++ [c, d]) s'
    else if c = '}' then some (acc, s)
    else if c = '{' then none
    else scanIn (acc ++ [c]) s

/-- a line of groups, separated by spaces and ended by `\\` -/
inductive Reads : Str → List Str → Prop
  | last {s g} : scanIn [] s = some (g, lit! "\\\\") → Reads ('{' :: s) [g]
  | cons {s g r gs} : scanIn [] s = some (g, ' ' :: r) → Reads r gs → Reads ('{' :: s) (g :: gs)

/-- a line is read in one way only -/
theorem reads_unique {s : Str} {gs : List Str} (h : Reads s gs) : ∀ {gs'}, Reads s gs' → gs = gs' := by
  induction h with
  | last h =>
    intro gs' h'
    cases h' with
    | last h' => rw [h] at h'; cases h'; rfl
    | cons h' _ => rw [h] at h'; cases h'
  | cons h _ ih =>
    intro gs' h'
    cases h' with
    | last h' => rw [h] at h'; cases h'
    | cons h' r => rw [h] at h'; cases h'; rw [ih r]

section
variable [Uni]

/-- how an item is shown: its text, escaped, and braces if there is none -/
def shownAs (fuel : Nat) (igt tier x : Obj) : Str :=
  match value fuel (some igt) (some tier) x with
  | .ok (some v) => if v = [] then lit! "\\{\\}" else escape v
  | _ => lit! "\\{\\}"

/-! ### Proofs -/

theorem scan_plain {c : Char} (h1 : c ≠ '\\') (h2 : c ≠ '}') (h3 : c ≠ '{') (acc s : Str) : scanIn acc (c :: s) = scanIn (acc ++ [c]) s := by
  rw [scanIn.eq_def]
  simp only [if_neg h1, if_neg h2, if_neg h3]

theorem scan_esc (d : Char) (acc s : Str) : scanIn acc ('\\' :: d :: s) = scanIn (acc ++ ['\\', d]) s := by
  rw [scanIn.eq_def]
  simp only [if_true]

theorem scan_close (acc s : Str) : scanIn acc ('}' :: s) = some (acc, s) := by
  rw [scanIn.eq_def]
  simp only [if_true]
  rw [if_neg (by decide)]

/-- letters of a control sequence -/
theorem scan_plains : ∀ (w acc s : Str), (w.all fun c => decide (c ≠ '\\' ∧ c ≠ '}' ∧ c ≠ '{')) = true → scanIn acc (w ++ s) = scanIn (acc ++ w) s := by
  intro w
  induction w with
  | nil => intro acc s _; simp
  | cons c w ih =>
    intro acc s h
    simp only [List.all_cons, Bool.and_eq_true, decide_eq_true_eq] at h
    rw [List.cons_append, scan_plain h.1.1 h.1.2.1 h.1.2.2, ih _ _ (by simpa using h.2), List.append_assoc, List.singleton_append]

theorem scan_escape (s acc r : Str) : scanIn acc (escape s ++ r) = scanIn (acc ++ escape s) r := by
  rw [escape_flatMap]
  induction s generalizing acc with
  | nil => simp
  | cons c s ih =>
    rw [List.flatMap_cons, List.append_assoc]
    have h1 : ∀ acc t, scanIn acc (esc1 c ++ t) = scanIn (acc ++ esc1 c) t := by
      intro acc t
      by_cases h : c ∈ (lit! "\\&%$#_{}~^")
      · simp only [List.mem_cons, List.not_mem_nil, or_false] at h
        have key : ∀ w : Str, ∀ d : Char, (w.all fun c => decide (c ≠ '\\' ∧ c ≠ '}' ∧ c ≠ '{')) = true →
            scanIn acc (('\\' :: d :: w) ++ t) = scanIn (acc ++ ('\\' :: d :: w)) t := by
          intro w d hw
          rw [List.cons_append, List.cons_append, scan_esc, scan_plains _ _ _ hw, List.append_assoc]
          rfl
        rcases h with rfl | rfl | rfl | rfl | rfl | rfl | rfl | rfl | rfl | rfl <;> exact key _ _ (by decide)
      · have hw : Written c [c] := .inr (.inr (.inr (.inr ⟨h, rfl⟩)))
        rw [← written_unique hw]
        simp only [List.mem_cons, List.not_mem_nil, or_false, not_or] at h
        rw [List.singleton_append]
        exact scan_plain h.1 h.2.2.2.2.2.2.2.1 h.2.2.2.2.2.2.1 _ _
    rw [h1, ih, List.append_assoc]

theorem scan_join {ts : List Str} (h : ∀ t ∈ ts, ∃ s, t = escape s) (acc r : Str) :
    scanIn acc (join [' '] ts ++ '}' :: r) = some (acc ++ join [' '] ts, r) := by
  induction ts generalizing acc with
  | nil =>
    simp only [join, List.nil_append, List.append_nil]
    exact scan_close _ _
  | cons t ts ih =>
    obtain ⟨s, hs⟩ := h t (by simp)
    cases ts with
    | nil =>
      simp only [join]
      rw [hs, scan_escape, scan_close]
    | cons u us =>
      simp only [join]
      rw [hs, List.append_assoc, List.append_assoc, scan_escape, List.singleton_append]
      have : scanIn (acc ++ escape s) (' ' :: (join [' '] (u :: us) ++ '}' :: r)) = scanIn (acc ++ escape s ++ [' ']) (join [' '] (u :: us) ++ '}' :: r) := by
        exact scan_plain (by decide) (by decide) (by decide) _ _
      rw [this, ih (fun t ht => h t (List.mem_cons_of_mem _ ht))]
      simp

theorem text_shown {fuel : Nat} {igt tier x : Obj} {v : Option Str} (h : value fuel (some igt) (some tier) x = .ok v) :
    text v = shownAs fuel igt tier x := by
  unfold shownAs
  rw [h]
  have hb : escape (lit! "{}") = lit! "\\{\\}" := by decide
  cases v with
  | none => exact hb
  | some v =>
    cases v with
    | nil => exact hb
    | cons c v => rfl

theorem text_escape (v : Option Str) : ∃ s, text v = escape s := by
  unfold text
  split
  · exact ⟨_, rfl⟩
  · exact ⟨_, rfl⟩

/-- the configuration has no substitutions -/
def Cfg.Plain (cfg : Cfg) : Prop := (∀ s t, cfg.itemSub s t = s) ∧ ∀ s t, cfg.tierSub s t = s

theorem rowTexts_ok {cfg : Cfg} (hp : cfg.Plain) {fuel : Nat} {igt tier : Obj} : ∀ {xs : List Obj},
    (∀ x ∈ xs, ∃ v, value fuel (some igt) (some tier) x = .ok v) → rowTexts cfg fuel igt tier xs = .ok (xs.map (shownAs fuel igt tier)) ∧
      ∀ t ∈ xs.map (shownAs fuel igt tier), ∃ s, t = escape s := by
  intro xs
  induction xs with
  | nil => intro _; exact ⟨rfl, by simp⟩
  | cons x xs ih =>
    intro h
    obtain ⟨v, hv⟩ := h x (by simp)
    obtain ⟨h1, h2⟩ := ih (fun y hy => h y (List.mem_cons_of_mem _ hy))
    constructor
    · simp only [rowTexts, hv, h1, bind, Except.bind, hp.1, text_shown hv, List.map_cons]
    · intro t ht
      rcases List.mem_cons.1 ht with rfl | ht
      · rw [← text_shown hv]
        exact text_escape v
      · exact h2 t ht

/-- the texts of a row of a column -/
def part (fuel : Nat) (igt tier : Obj) (i : Nat) (c : Col) : Str := join [' '] ((c.getD i []).map (shownAs fuel igt tier))

theorem cells_ok {cfg : Cfg} (hp : cfg.Plain) {fuel : Nat} {igt tier : Obj} {i : Nat} : ∀ {T : Trellis},
    (∀ c ∈ T, i < c.length) → (∀ x ∈ rowOf T i, ∃ v, value fuel (some igt) (some tier) x = .ok v) →
    cells cfg fuel igt tier i T = .ok (T.map fun c => '{' :: part fuel igt tier i c ++ ['}']) ∧
    (T ≠ [] → Reads (join [' '] (T.map fun c => '{' :: part fuel igt tier i c ++ ['}']) ++ lit! "\\\\") (T.map (part fuel igt tier i))) := by
  intro T
  induction T with
  | nil => intro _ _; exact ⟨rfl, fun h => absurd rfl h⟩
  | cons c T ih =>
    intro hl hv
    have hrow : rowOf (c :: T) i = c.getD i [] ++ rowOf T i := by simp [rowOf]
    obtain ⟨h1, h2⟩ := ih (fun c hc => hl c (List.mem_cons_of_mem _ hc)) (fun x hx => hv x (by rw [hrow]; exact List.mem_append_right _ hx))
    obtain ⟨k1, k2⟩ := rowTexts_ok hp (xs := c.getD i []) (fun x hx => hv x (by rw [hrow]; exact List.mem_append_left _ hx))
    have hc : c[i]? = some (c.getD i []) := by
      rw [List.getD_eq_getElem?_getD, List.getElem?_eq_getElem (hl c (by simp))]
      rfl
    constructor
    · simp only [cells, cell, hc, k1, h1, bind, Except.bind, List.map_cons, part]
    · intro _
      cases T with
      | nil =>
        simp only [List.map_cons, List.map_nil, join]
        have : '{' :: part fuel igt tier i c ++ ['}'] ++ lit! "\\\\" = '{' :: (part fuel igt tier i c ++ '}' :: lit! "\\\\") := by simp
        rw [this]
        refine .last ?_
        unfold part
        rw [scan_join k2]
        rfl
      | cons d T =>
        have h3 := h2 (by simp)
        simp only [List.map_cons, join] at h3 ⊢
        have : ∀ z : Str, '{' :: part fuel igt tier i c ++ ['}'] ++ [' '] ++ z ++ lit! "\\\\" = '{' :: (part fuel igt tier i c ++ '}' :: (' ' :: (z ++ lit! "\\\\"))) := by
          intro z; simp
        rw [this]
        refine .cons (r := _) ?_ h3
        unfold part
        rw [scan_join k2]
        rfl

theorem rowLines_ok {cfg : Cfg} (hp : cfg.Plain) {fuel : Nat} {igt : Obj} {tiers : List Obj} {T : Trellis} (hT : T ≠ [])
    (hl : ∀ c ∈ T, c.length = tiers.length) (hr : ∀ (j : Nat) (t : Obj), tiers[j]? = some t → rowOf T j = t.kids)
    (hv : ∀ t ∈ tiers, ∀ x ∈ t.kids, ∃ v, value fuel (some igt) (some t) x = .ok v) :
    ∀ (n i : Nat), i + n = tiers.length → ∃ rows, rowLines cfg fuel igt tiers T n i = .ok rows ∧ rows.length = n ∧
      ∀ (j : Nat) (t : Obj) (row : Str), tiers[i + j]? = some t → rows[j]? = some row → Reads row (T.map (part fuel igt t (i + j))) := by
  intro n
  induction n with
  | zero => intro i _; exact ⟨[], rfl, rfl, by simp⟩
  | succ n ih =>
    intro i hi
    obtain ⟨rows, h1, h2, h3⟩ := ih (i + 1) (by omega)
    have ht : tiers[i]? = some tiers[i] := List.getElem?_eq_getElem (by omega)
    generalize hti : tiers[i] = t at ht
    obtain ⟨k1, k2⟩ := cells_ok hp (fuel := fuel) (igt := igt) (tier := t) (i := i) (T := T) (fun c hc => by rw [hl c hc]; omega)
      (by rw [hr i t ht]; exact hv t (List.mem_of_getElem? ht))
    refine ⟨(join [' '] (T.map fun c => '{' :: part fuel igt t i c ++ ['}']) ++ lit! "\\\\") :: rows, ?_, by simp [h2], ?_⟩
    · simp only [rowLines, ht, k1, h1, bind, Except.bind, hp.2]
    · intro j u row hu hrow
      cases j with
      | zero =>
        rw [Nat.add_zero, ht] at hu
        cases hu
        cases hrow
        exact k2 hT
      | succ j =>
        rw [List.getElem?_cons_succ] at hrow
        rw [show i + (j + 1) = i + 1 + j by omega] at hu ⊢
        exact h3 j u row hu hrow

/-- the lines of translations: one for each tier of translations with items -/
def transSpec (fuel : Nat) (igt : Obj) : List Str :=
  (igt.kids.filter fun t => decide (t.data.type = some (lit! "translations"))).filterMap fun t =>
    t.kids.head?.map fun x => lit! "\\trans " ++ shownAs fuel igt t x

theorem transLines_ok {cfg : Cfg} (hp : cfg.Plain) {fuel : Nat} {igt : Obj} : ∀ {ts : List Obj},
    (∀ t ∈ ts, t.data.type = some (lit! "translations") → ∀ x, t.kids.head? = some x → ∃ v, value fuel (some igt) (some t) x = .ok v) →
    transLines cfg fuel igt ts = .ok ((ts.filter fun t => decide (t.data.type = some (lit! "translations"))).filterMap fun t =>
      t.kids.head?.map fun x => lit! "\\trans " ++ shownAs fuel igt t x) := by
  intro ts
  induction ts with
  | nil => intro _; rfl
  | cons t ts ih =>
    intro h
    have ih := ih (fun u hu => h u (List.mem_cons_of_mem _ hu))
    unfold transLines
    by_cases hty : t.data.type = some (lit! "translations")
    · rw [List.filter_cons_of_pos (by simp [hty])]
      cases hk : t.kids with
      | nil =>
        simp only [hty, decide_true, ih]
        rw [List.filterMap_cons_none (by rw [hk]; rfl)]
      | cons x xs =>
        obtain ⟨v, hv⟩ := h t (by simp) hty x (by rw [hk]; rfl)
        simp only [hty, decide_true, hv, ih, bind, Except.bind, hp.2]
        rw [List.filterMap_cons_some (by rw [hk]; rfl), text_shown hv]
    · rw [List.filter_cons_of_neg (by simp [hty])]
      simp only [decide_eq_false hty, ih]

/-- C79 (partial: for tiers as in `C60_partial`, without substitutions): the block has a line for each tier of the wanted
types; the groups of each line are the parts of its tier in the columns of the grid (so by C60 all its items in order, and by C78
one above another as they are aligned), each item as its escaped text; then follow the first items of the translations -/
theorem C79_partial {cfg : Cfg} (hp : cfg.Plain) {fuel : Nat} {igt : Obj} (h2 : 2 ≤ (igt.kids.filter (wanted cfg)).length)
    (hid : ∀ t ∈ igt.kids, t.data.id.isSome = true) (hf : Fit (igt.kids.filter (wanted cfg)))
    (hv : ∀ t ∈ igt.kids, ∀ x ∈ t.kids, ∃ v, value fuel (some igt) (some t) x = .ok v) :
    ∃ T rows, groupAlignments (igt.kids.filter (wanted cfg)) = .ok T ∧ rows.length = (igt.kids.filter (wanted cfg)).length ∧
      exportIgt cfg fuel igt = .ok (join ['\n'] ([lit! "\\begin{exe}\\small", lit! "\\ex\\g" ++ List.replicate rows.length 'l'] ++ rows ++
        transSpec fuel igt ++ [lit! "\\end{exe}"])) ∧
      ∀ (j : Nat) (t : Obj) (row : Str), (igt.kids.filter (wanted cfg))[j]? = some t → rows[j]? = some row →
        Reads row (T.map fun c => join [' '] ((c.getD j []).map (shownAs fuel igt t))) := by
  obtain ⟨T, g1, g2, g3⟩ := C60_partial hf
  have hT : T ≠ [] := by
    intro e
    have h0 : (igt.kids.filter (wanted cfg))[0]? = some (igt.kids.filter (wanted cfg))[0] := List.getElem?_eq_getElem (by omega)
    have hr := g3 0 _ h0
    rw [e] at hr
    exact hf.first _ h0 hr.symm
  obtain ⟨rows, r1, r2, r3⟩ := rowLines_ok hp (fuel := fuel) (igt := igt) hT g2 g3 (fun t ht => hv t (List.mem_filter.1 ht).1) _ 0 (Nat.zero_add _)
  have htr := transLines_ok hp (fuel := fuel) (igt := igt) (ts := igt.kids) (fun t ht _ x hx => hv t ht x (List.mem_of_head? hx))
  refine ⟨T, rows, g1, r2, ?_, ?_⟩
  · have hall : (igt.kids.filter (wanted cfg)).all (fun t => t.data.id.isSome) = true :=
      List.all_eq_true.2 (fun t ht => hid t (List.mem_filter.1 ht).1)
    obtain ⟨c, cs, rfl⟩ := List.exists_cons_of_ne_nil hT
    have hc := g2 c (by simp)
    simp only [exportIgt]
    rw [if_neg (by omega), if_pos hall]
    simp only [g1, bind, Except.bind, block, hc, r1, htr, r2, transSpec]
  · intro j t row ht hrow
    have := r3 j t row (by rw [Nat.zero_add]; exact ht) hrow
    rw [Nat.zero_add] at this
    exact this

/-- C79: an IGT with fewer than two tiers of the wanted types is exported as a comment -/
theorem C79_comment (cfg : Cfg) (fuel : Nat) (igt : Obj) (h : (igt.kids.filter (wanted cfg)).length < 2) :
    exportIgt cfg fuel igt = .ok (lit! "%\n% cannot export IGT " ++ igt.data.id.getD (lit! "None") ++ lit! "\n%") := by
  simp only [exportIgt, if_pos h]

end

end Xigt.Ltx
