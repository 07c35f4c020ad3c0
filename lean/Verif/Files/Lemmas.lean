import Verif.Files.Model
import Verif.DictLemmas
/- Lemmas about paths and single operations. -/

set_option linter.unusedSectionVars false

namespace Xigt.Files

theorem bind_ok {α β : Type} {m : Act α} {f : α → Act β} {fs fs' : FS} {a : α} (h : m fs = (.ok a, fs')) : (m >>= f) fs = f a fs' := by
  show (match m fs with | (.ok a, fs') => f a fs' | (.error e, fs') => (.error e, fs')) = _
  rw [h]

theorem bind_error {α β : Type} {m : Act α} {f : α → Act β} {fs fs' : FS} {e : FErr} (h : m fs = (.error e, fs')) :
    (m >>= f) fs = (.error e, fs') := by
  show (match m fs with | (.ok a, fs') => f a fs' | (.error e, fs') => (.error e, fs')) = _
  rw [h]

theorem pure_run {α : Type} (a : α) (fs : FS) : (pure a : Act α) fs = (.ok a, fs) := rfl

/-- where a string leads depends on directories only -/
theorem foldl_step {fs fs' : FS} (hd : fs'.dirs = fs.dirs) (ws : List Str) : ∀ p, ws.foldl (step fs') p = ws.foldl (step fs) p := by
  induction ws with
  | nil => intro p; rfl
  | cons w ws ih =>
    intro p
    simp only [List.foldl_cons]
    rw [ih]
    congr 1
    unfold step
    rw [hd]

theorem resolve_congr {fs fs' : FS} (hd : fs'.dirs = fs.dirs) (hc : fs'.cwd = fs.cwd) (s : Str) : resolve fs' s = resolve fs s := by
  unfold resolve
  rw [foldl_step hd, foldl_step hd, hc]

theorem writable_congr {fs fs' : FS} (hd : fs'.dirs = fs.dirs) (hc : fs'.cwd = fs.cwd) (s : Str) : writable fs' s = writable fs s := by
  unfold writable
  rw [resolve_congr hd hc, hd]

theorem splitSlash_ne (s : Str) : splitSlash s ≠ [] := by
  cases s with
  | nil => simp [splitSlash]
  | cons c s =>
    simp only [splitSlash]
    split
    · simp
    · split <;> simp

theorem splitSlash_plain {s : Str} (h : '/' ∉ s) : splitSlash s = [s] := by
  induction s with
  | nil => rfl
  | cons c s ih =>
    simp only [List.mem_cons, not_or] at h
    rw [splitSlash, if_neg (fun e => h.1 e.symm), ih h.2]

theorem splitSlash_app (a b : Str) : splitSlash (a ++ '/' :: b) = splitSlash a ++ splitSlash b := by
  induction a with
  | nil => simp [splitSlash]
  | cons c a ih =>
    rw [List.cons_append, splitSlash, splitSlash, ih]
    split
    · rfl
    · cases h : splitSlash a with
      | nil => exact absurd h (splitSlash_ne a)
      | cons w ws => rfl

/-- a name of a file -/
structure Name (n : Str) : Prop where
  slash : '/' ∉ n
  ne : n ≠ []
  dot : n ≠ ['.']
  dots : n ≠ ['.', '.']

theorem step_name {fs : FS} {d : Path} {n : Str} (hd : d ∈ fs.dirs) (hn : Name n) : step fs (some d) n = some (d ++ [n]) := by
  show (if d ∈ fs.dirs then _ else _) = _
  rw [if_pos hd, if_neg (fun h => h.elim hn.ne hn.dot), if_neg hn.dots]

theorem step_nil {fs : FS} {d : Path} (hd : d ∈ fs.dirs) : step fs (some d) [] = some d := by
  show (if d ∈ fs.dirs then _ else _) = _
  rw [if_pos hd, if_pos (.inl rfl)]

/-- `step` on nothing, or below a file, gives nothing -/
theorem step_some {fs : FS} {p : Option Path} {c : Str} {q : Path} (h : step fs p c = some q) : ∃ d, p = some d ∧ d ∈ fs.dirs := by
  cases p with
  | none => cases h
  | some d =>
    refine ⟨d, rfl, ?_⟩
    apply Classical.byContradiction
    intro hd
    rw [show step fs (some d) c = if d ∈ fs.dirs then _ else _ from rfl, if_neg hd] at h
    cases h

/-- a name in a directory -/
theorem resolve_join {fs : FS} {s n : Str} {d : Path} (hr : resolve fs s = some d) (hd : d ∈ fs.dirs) (hn : Name n) :
    resolve fs (Part.pathJoin s n) = some (d ++ [n]) := by
  have hs : s ≠ [] := by
    rintro rfl
    rw [resolve, if_pos rfl] at hr; cases hr
  have hh : n.head? ≠ some '/' := fun h => hn.slash (List.mem_of_mem_head? h)
  have key : ∀ p, ((splitSlash s).foldl (step fs) p = some d) → (splitSlash (Part.pathJoin s n)).foldl (step fs) p = some (d ++ [n]) := by
    intro p hp
    rw [Part.pathJoin, if_neg hh]
    split
    · next h =>
      rcases h with h | h
      · exact absurd h hs
      · obtain ⟨q, hq⟩ : ∃ q, s = q ++ ['/'] := by
          obtain ⟨hne, hl⟩ := List.getLast?_eq_some_iff.1 h
          exact ⟨_, hl⟩
        subst hq
        rw [splitSlash_app, show splitSlash [] = [[]] from rfl, List.foldl_append] at hp
        rw [List.append_assoc, List.singleton_append, splitSlash_app, splitSlash_plain hn.slash, List.foldl_append]
        simp only [List.foldl_cons, List.foldl_nil] at hp ⊢
        obtain ⟨d', h1, h2⟩ := step_some hp
        rw [h1, step_nil h2] at hp
        cases hp
        rw [h1, step_name h2 hn]
    · rw [splitSlash_app, splitSlash_plain hn.slash, List.foldl_append, hp]
      exact step_name hd hn
  have e1 : Part.pathJoin s n ≠ [] := by
    rw [Part.pathJoin, if_neg hh]
    split
    · simp [hs]
    · simp
  have e2 : (Part.pathJoin s n).head? = s.head? := by
    rw [Part.pathJoin, if_neg hh]
    obtain ⟨c, s, rfl⟩ : ∃ c r, s = c :: r := by
      cases s with
      | nil => exact absurd rfl hs
      | cons c r => exact ⟨c, r, rfl⟩
    split <;> rfl
  rw [resolve, if_neg hs] at hr
  rw [resolve, if_neg e1, e2]
  split at hr
  · next h => rw [if_pos h]; exact key _ hr
  · next h => rw [if_neg h]; exact key _ hr

theorem contents_join {fs : FS} {s n : Str} {d : Path} (hr : resolve fs s = some d) (hd : d ∈ fs.dirs) (hn : Name n) :
    contents fs (Part.pathJoin s n) = Dict.get? fs.files (d ++ [n]) := by
  rw [contents, resolve_join hr hd hn, Option.bind_some]

theorem writable_join {fs : FS} {s n : Str} {d : Path} (hr : resolve fs s = some d) (hd : d ∈ fs.dirs) (hn : Name n) :
    writable fs (Part.pathJoin s n) = if d ++ [n] ∈ fs.dirs then none else some (d ++ [n]) := by
  rw [writable, resolve_join hr hd hn, Option.bind_some]
  by_cases h : d ++ [n] ∈ fs.dirs
  · rw [if_pos h, if_neg (fun e => e.1 h)]
  · rw [if_neg h, if_pos ⟨h, by simp, by simpa using hd⟩]

/-! ### One file -/

/-- the files with one of them replaced -/
def FS.put (fs : FS) (p : Path) (t : Str) : FS := { fs with files := Dict.set fs.files p t }

theorem get_put (fs : FS) (p q : Path) (t : Str) : Dict.get? (fs.put p t).files q = if p = q then some t else Dict.get? fs.files q :=
  Dict.get?_set _ _ _ _

theorem set_set (d : Dict Path Str) (p : Path) (s t : Str) : Dict.set (Dict.set d p s) p t = Dict.set d p t := by
  induction d with
  | nil => simp [Dict.set]
  | cons x d ih =>
    obtain ⟨k, v⟩ := x
    by_cases h : k = p
    · simp [Dict.set, h]
    · simp [Dict.set, h, ih]

theorem put_put (fs : FS) (p : Path) (s t : Str) : (fs.put p s).put p t = fs.put p t := by
  simp only [FS.put, set_set]

/-- what importing a file does: the input is read after the output was emptied -/
theorem importFile_eq (imp : Str → Py Str) (i o : Str) (fs : FS) : importFile imp i o fs =
    match contents fs i, writable fs o with
    | some t, some p => match imp (if resolve fs i = some p then [] else t) with
      | .ok u => (.ok (), fs.put p u)
      | .error e => (.error (.py e), fs.put p [])
    | _, _ => (.error .os, fs) := by
  unfold importFile
  cases hc : contents fs i with
  | none =>
    rw [bind_error (e := .os) (fs' := fs) (by simp only [readFile, hc])]
  | some t =>
    rw [bind_ok (a := t) (fs' := fs) (by simp only [readFile, hc])]
    cases hw : writable fs o with
    | none =>
      rw [bind_error (e := .os) (fs' := fs)]
      simp only [openW, hw]
    | some p =>
      rw [bind_ok (a := p) (fs' := fs.put p []) (by simp only [openW, hw, FS.put])]
      have hr : resolve (fs.put p []) i = resolve fs i := resolve_congr rfl rfl i
      have hc2 : contents (fs.put p []) i = some (if resolve fs i = some p then [] else t) := by
        rw [contents, hr]
        rw [contents] at hc
        cases hri : resolve fs i with
        | none => rw [hri] at hc; cases hc
        | some q =>
          rw [hri, Option.bind_some] at hc
          rw [Option.bind_some, get_put]
          by_cases e : p = q
          · subst e; rw [if_pos rfl, if_pos rfl]
          · rw [if_neg e, if_neg (fun h => e (Option.some.inj h).symm), hc]
      rw [bind_ok (a := if resolve fs i = some p then [] else t) (fs' := fs.put p []) (by simp only [readFile, hc2])]
      cases hi : imp (if resolve fs i = some p then [] else t) with
      | error e =>
        rw [bind_error (m := lift _) (e := .py e) (fs' := fs.put p []) rfl]
        simp only [hi]
      | ok u =>
        rw [bind_ok (m := lift (.ok u)) (a := u) (fs' := fs.put p []) rfl]
        show (Except.ok (), (fs.put p []).put p (((Dict.get? (fs.put p []).files p).getD []) ++ u)) = _
        rw [get_put, if_pos rfl, put_put]
        simp only [hi, Option.getD_some, List.nil_append]

/-! ### Names of the output -/

/-- a suffix none of whose characters but `.` is special in patterns, and which is not empty -/
def PlainSuffix (s : Str) : Prop := s ≠ [] ∧ ∀ c ∈ s, c ∉ lit! "\\^$*+?{}[]|()/\n"

theorem matchDots_self (p s : Str) (h : '\n' ∉ p) : matchDots p (p ++ s) = some s := by
  induction p with
  | nil => rfl
  | cons c p ih =>
    simp only [List.mem_cons, not_or] at h
    rw [List.cons_append, matchDots, ih h.2]
    split
    · rw [if_neg (fun e => h.1 e.symm)]
    · rw [if_pos rfl]

theorem matchDots_length : ∀ (p s r : Str), matchDots p s = some r → s.length = p.length + r.length := by
  intro p
  induction p with
  | nil => intro s r h; cases h; simp
  | cons c p ih =>
    intro s r h
    cases s with
    | nil => cases h
    | cons d s =>
      rw [matchDots] at h
      split at h
      · split at h
        · cases h
        · have := ih _ _ h; simp [this]; omega
      · split at h
        · have := ih _ _ h; simp [this]; omega
        · cases h

theorem matchDots_suffix : ∀ (p s r : Str), matchDots p s = some r → r <:+ s := by
  intro p
  induction p with
  | nil => intro s r h; cases h; exact List.suffix_refl _
  | cons c p ih =>
    intro s r h
    cases s with
    | nil => cases h
    | cons d s =>
      rw [matchDots] at h
      split at h
      · split at h
        · cases h
        · exact (ih _ _ h).trans (List.suffix_cons _ _)
      · split at h
        · exact (ih _ _ h).trans (List.suffix_cons _ _)
        · cases h

/-- only the suffix is replaced -/
theorem subSuffix_eq {suf : Str} (hs : PlainSuffix suf) (stem : Str) : subSuffix suf (stem ++ suf) = stem ++ lit! ".xml" := by
  have hnl : '\n' ∉ suf := fun h => hs.2 _ h (by decide)
  induction stem with
  | nil =>
    rw [List.nil_append, List.nil_append]
    obtain ⟨c, r, rfl⟩ : ∃ c r, suf = c :: r := by
      cases suf with
      | nil => exact absurd rfl hs.1
      | cons c r => exact ⟨c, r, rfl⟩
    rw [subSuffix]
    have := matchDots_self (c :: r) [] hnl
    rw [List.append_nil] at this
    rw [this]
    rfl
  | cons c stem ih =>
    rw [List.cons_append, subSuffix]
    cases hm : matchDots suf (c :: (stem ++ suf)) with
    | none => simp only [ih, List.cons_append]
    | some r =>
      simp only
      rw [if_neg, ih]
      · rfl
      · intro he
        have hl := matchDots_length _ _ _ hm
        have hsf := matchDots_suffix _ _ _ hm
        simp only [atEnd, Bool.or_eq_true, beq_iff_eq] at he
        rcases he with rfl | rfl
        · simp at hl; omega
        · have : '\n' ∈ suf := by
            have h1 : ['\n'] <:+ suf := by
              have h2 : suf <:+ c :: (stem ++ suf) := List.suffix_append (c :: stem) suf
              have h3 : 1 ≤ suf.length := by
                cases suf with
                | nil => exact absurd rfl hs.1
                | cons _ _ => simp
              exact List.suffix_of_suffix_length_le hsf h2 (by simpa using h3)
            exact h1.subset (by simp)
          exact hnl this

end Xigt.Files
