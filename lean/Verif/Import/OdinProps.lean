import Verif.Import.OdinModel
import Verif.Import.NumLemmas
import Verif.Xml.Indent
import Verif.Json.Lemmas
/-
C58: cleaning; C75: what the ODIN importer keeps.
-/
set_option linter.unusedSectionVars false

namespace Xigt.Odin

/-! ### C58 -/

/-- the characters of XML 1.0 (production 2) -/
def Legal (c : Char) : Prop :=
  c.toNat = 9 ∨ c.toNat = 10 ∨ c.toNat = 13 ∨ (0x20 ≤ c.toNat ∧ c.toNat ≤ 0xD7FF) ∨
  (0xE000 ≤ c.toNat ∧ c.toNat ≤ 0xFFFD) ∨ (0x10000 ≤ c.toNat ∧ c.toNat ≤ 0x10FFFF)

theorem invalid_iff (c : Char) : invalid c = false ↔ Legal c ∧ c.toNat ≤ 0xFFFF := by
  unfold invalid Legal
  simp only [Bool.not_eq_false', Bool.or_eq_true, Bool.and_eq_true, beq_iff_eq, decide_eq_true_eq]
  omega

theorem clean_map (s : Str) (r : Char) : clean s [r] = s.map fun c => if invalid c then r else c := by
  induction s with
  | nil => rfl
  | cons c s ih =>
    have : clean (c :: s) [r] = (if invalid c then [r] else [c]) ++ clean s [r] := rfl
    rw [this, ih]
    cases hc : invalid c <;> simp [hc]

/-- C58 for characters of the BMP: cleaned text has the same length and only legal characters, legal
characters (up to U+FFFF) are unchanged and illegal ones replaced. -/
theorem C58_partial (s : Str) (r : Char) (hr : Legal r) :
    (clean s [r]).length = s.length ∧ (∀ c ∈ clean s [r], Legal c) ∧
    ∀ (n : Nat) (c : Char), s[n]? = some c →
      (Legal c → c.toNat ≤ 0xFFFF → (clean s [r])[n]? = some c) ∧ (¬ Legal c → (clean s [r])[n]? = some r) := by
  rw [clean_map]
  refine ⟨by simp, ?_, ?_⟩
  · intro c hc
    obtain ⟨d, _, rfl⟩ := List.mem_map.1 hc
    cases hd : invalid d with
    | true => simpa using hr
    | false => simpa using ((invalid_iff d).1 hd).1
  · intro n c hc
    rw [List.getElem?_map, hc]
    constructor
    · intro h1 h2
      simp [(invalid_iff c).2 ⟨h1, h2⟩]
    · intro h1
      cases hd : invalid c with
      | true => simp [hd]
      | false => exact absurd ((invalid_iff c).1 hd).1 h1

/-- C58 is false outside the BMP: every such character is legal and is replaced. -/
theorem C58_refuted (c : Char) (h : 0x10000 ≤ c.toNat) (repl : Str) : Legal c ∧ clean [c] repl = repl := by
  have hle : c.toNat ≤ 0x10FFFF := by
    have := c.valid
    rcases this with h | h
    · have : c.toNat < 0xD800 := h
      omega
    · have : c.toNat < 0x110000 := h.2
      omega
  refine ⟨by unfold Legal; omega, ?_⟩
  have : invalid c = true := by
    cases hi : invalid c with
    | true => rfl
    | false =>
      have := ((invalid_iff c).1 hi).2
      omega
  simp [clean, this]

/-- cleaning twice is cleaning once -/
theorem C58_idempotent (s : Str) (r : Char) (hr : Legal r) (hb : r.toNat ≤ 0xFFFF) :
    clean (clean s [r]) [r] = clean s [r] := by
  rw [clean_map, clean_map, List.map_map]
  apply List.map_congr_left
  intro c _
  have hr' := (invalid_iff r).2 ⟨hr, hb⟩
  cases hc : invalid c <;> simp [hc, hr']

example : clean (lit! "a\x01b𝄞") (lit! "�") = lit! "a�b�" := by decide +kernel
example : Legal '�' := by unfold Legal; decide

/-! ### C75 -/

section
variable [Uni]

theorem splitGo_word : ∀ (t cur l : Str), (∀ c ∈ t, Uni.isSpace c = false) → splitGo cur (t ++ l) = splitGo (t.reverse ++ cur) l := by
  intro t
  induction t with
  | nil => intro cur l _; rfl
  | cons c t ih =>
    intro cur l h
    rw [List.cons_append, splitGo, h c (by simp)]
    simp only [Bool.false_eq_true, if_false]
    rw [ih _ _ (fun x hx => h x (by simp [hx]))]
    simp

theorem split_space : ∀ (w l : Str), (∀ c ∈ w, Uni.isSpace c = true) → split (w ++ l) = split l := by
  intro w
  induction w with
  | nil => intro l _; rfl
  | cons c w ih =>
    intro l h
    rw [split, List.cons_append, splitGo, h c (by simp)]
    simp only [if_true]
    exact ih _ (fun x hx => h x (by simp [hx]))

theorem split_nil : split [] = [] := rfl

/-- the first word, before white space or the end -/
theorem split_word {a : Str} (ha : a ≠ []) (sa : ∀ c ∈ a, Uni.isSpace c = false) (l : Str) (hl : ∀ c, l.head? = some c → Uni.isSpace c = true) :
    split (a ++ l) = a :: split l := by
  rw [split, splitGo_word a [] l sa, List.append_nil]
  cases l with
  | nil => simp [splitGo, split_nil, ha]
  | cons c l =>
    rw [splitGo, hl c rfl]
    simp only [if_true, List.reverse_eq_nil_iff, ha, if_false, List.reverse_reverse]
    congr 1
    exact (split_space [c] l (by simpa using hl c rfl)).symm

/-- any text is white space, or white space, a word, and white space or the end -/
theorem split_cases (s : Str) : (∀ c ∈ s, Uni.isSpace c = true) ∨ ∃ u a l, s = u ++ (a ++ l) ∧ (∀ c ∈ u, Uni.isSpace c = true) ∧ a ≠ [] ∧
    (∀ c ∈ a, Uni.isSpace c = false) ∧ ∀ c, l.head? = some c → Uni.isSpace c = true := by
  induction s with
  | nil => left; simp
  | cons c s ih =>
    cases hc : Uni.isSpace c with
    | true =>
      rcases ih with h | ⟨u, a, l, rfl, h1, h2, h3, h4⟩
      · left; intro x hx; rcases List.mem_cons.1 hx with rfl | hx; exact hc; exact h x hx
      · right
        refine ⟨c :: u, a, l, rfl, ?_, h2, h3, h4⟩
        intro x hx; rcases List.mem_cons.1 hx with rfl | hx; exact hc; exact h1 x hx
    | false =>
      right
      rcases ih with h | ⟨u, a, l, rfl, h1, h2, h3, h4⟩
      · refine ⟨[], [c], s, rfl, by simp, by simp, by simpa using hc, ?_⟩
        intro x hx
        exact h x (List.mem_of_mem_head? (by simpa using hx))
      · cases u with
        | nil => exact ⟨[], c :: a, l, rfl, by simp, by simp, by simpa [hc] using h3, h4⟩
        | cons d u =>
          refine ⟨[], [c], d :: u ++ (a ++ l), rfl, by simp, by simp, by simpa using hc, ?_⟩
          intro x hx
          cases hx
          exact h1 _ (by simp)

/-- two words and nothing else: `a` and `b`, with white space between them, perhaps more around them -/
def TwoWords (s a b : Str) : Prop :=
  ∃ u w v, s = u ++ a ++ w ++ b ++ v ∧ a ≠ [] ∧ b ≠ [] ∧ w ≠ [] ∧ (∀ c ∈ u ++ w ++ v, Uni.isSpace c = true) ∧ ∀ c ∈ a ++ b, Uni.isSpace c = false

theorem head_space {s : Str} (h : ∀ c ∈ s, Uni.isSpace c = true) : ∀ c, s.head? = some c → Uni.isSpace c = true :=
  fun c hc => h c (List.mem_of_mem_head? (by simpa using hc))

theorem split_blank {s : Str} (h : ∀ c ∈ s, Uni.isSpace c = true) : split s = [] := by
  have := split_space s [] h
  rwa [List.append_nil] at this

/-- `s.split()` gives two words exactly if there are two -/
theorem split_two (s a b : Str) : split s = [a, b] ↔ TwoWords s a b := by
  constructor
  · intro h
    rcases split_cases s with h0 | ⟨u, a', l, rfl, h1, h2, h3, h4⟩
    · rw [split_blank h0] at h; cases h
    rw [split_space _ _ h1, split_word h2 h3 _ h4] at h
    injection h with e1 h
    subst e1
    rcases split_cases l with h0 | ⟨w, b', v, rfl, k1, k2, k3, k4⟩
    · rw [split_blank h0] at h; cases h
    rw [split_space _ _ k1, split_word k2 k3 _ k4] at h
    injection h with e1 h
    subst e1
    rcases split_cases v with h0 | ⟨w', b', v', rfl, j1, j2, j3, j4⟩
    · refine ⟨u, w, v, by simp, h2, k2, ?_, ?_, ?_⟩
      · rintro rfl
        obtain ⟨c, b'', rfl⟩ := List.exists_cons_of_ne_nil k2
        have := h4 c rfl
        rw [k3 c (by simp)] at this
        cases this
      · intro c hc
        simp only [List.mem_append] at hc
        rcases hc with (hc | hc) | hc
        · exact h1 c hc
        · exact k1 c hc
        · exact h0 c hc
      · intro c hc
        rcases List.mem_append.1 hc with hc | hc
        · exact h3 c hc
        · exact k3 c hc
    · rw [split_space _ _ j1, split_word j2 j3 _ j4] at h; cases h
  · rintro ⟨u, w, v, rfl, ha, hb, hw, hs, hn⟩
    simp only [List.mem_append] at hs hn
    rw [List.append_assoc, List.append_assoc, List.append_assoc, split_space u _ (fun c h => hs c (.inl (.inl h))),
      split_word ha (fun c h => hn c (.inl h)), split_space w _ (fun c h => hs c (.inl (.inr h))), split_word hb (fun c h => hn c (.inr h)),
      split_blank (fun c h => hs c (.inr h))]
    · exact head_space fun c h => hs c (.inr h)
    · obtain ⟨c, w', rfl⟩ := List.exists_cons_of_ne_nil hw
      intro d hd
      cases hd
      exact hs _ (.inl (.inr (by simp)))

theorem nameOK_subject : nameOK (lit! "subject") = true := by
  simp [nameOK, nameChars, Uni.ascii_word, Uni.isDigit, Uni.ascii_digit]
theorem nameOK_language : nameOK (lit! "language") = true := by
  simp [nameOK, nameChars, Uni.ascii_word, Uni.isDigit, Uni.ascii_digit]

/-- the header as a Meta, if it is kept -/
def header (o : Opts) (b : Block) : List Obj :=
  if o.keepHeaders = true ∧ b.headerLines.getD [] ≠ [] then
    [.mk { cls := .metaC, id := some (lit! "meta1"), type := some (lit! "odin-header"), text := some (join ['\n'] (b.headerLines.getD [])) } [] []]
  else []

/-- a MetaChild with a language -/
def child (name code text : Str) : Obj :=
  .mk { cls := .metaChild, name := some name, text := some text, ns := some (lit! "http://purl.org/dc/elements/1.1/"),
        attrs := [(lit! "{http://www.w3.org/2001/XMLSchema-instance}type", lit! "olac:language"),
          (lit! "{http://www.language-archives.org/OLAC/1.1/}code", code)] } [] []

/-- the Meta with the languages -/
def langMeta (title : Str → Str) (n : Nat) (b : Block) : Obj :=
  .mk { cls := .metaC, id := some (lit! "meta" ++ natStr n) } []
    [child (lit! "subject") (strip (b.iso.getD (lit! "und"))) (title (strip (b.language.getD []))),
      child (lit! "language") (lit! "en") (lit! "English")]

/-- the metadata of an imported igt -/
def mdObj (title : Str → Str) (o : Opts) (b : Block) : Obj :=
  .mk { cls := .metadata } [] (header o b ++ [langMeta title ((header o b).length + 1) b])

theorem meta_id (n : Nat) : idAccepted (lit! "meta" ++ natStr n) = true :=
  (idAccepted_iff _).2 ⟨'m', lit! "eta" ++ natStr n, rfl, by decide⟩

theorem r_id (n : Nat) : idAccepted (lit! "r" ++ natStr n) = true :=
  (idAccepted_iff _).2 ⟨'r', natStr n, rfl, by decide⟩

theorem headerMeta_ok (o : Opts) (b : Block) : headerMeta o b = .ok (header o b) := by
  unfold headerMeta header
  split
  · rename_i h hs e
    rw [e]
    split
    · rename_i hk
      rw [construct_ok (by rintro i ⟨⟩; exact meta_id 1) (by rintro n ⟨⟩) (by simp) (by simp)]
      have h1 : natStr 1 = ['1'] := by decide
      simp [hk, bind, Except.bind, headerData, h1]
    · rename_i hk
      simp [hk]
  · rename_i hn
    rw [if_neg]
    rintro ⟨_, h⟩
    cases hl : b.headerLines with
    | none => rw [hl] at h; exact h rfl
    | some l =>
      cases l with
      | nil => rw [hl] at h; exact h rfl
      | cons x xs => exact hn x xs hl

theorem metadata_ok (title : Str → Str) (o : Opts) (b : Block) : metadata title o b = .ok (mdObj title o b) := by
  unfold metadata langChild
  rw [headerMeta_ok]
  simp only [bind, Except.bind]
  rw [construct_ok (by rintro i ⟨⟩) (by rintro n ⟨⟩; exact nameOK_subject) (by simp) (by simp)]
  simp only
  rw [construct_ok (by rintro i ⟨⟩) (by rintro n ⟨⟩; exact nameOK_language) (by simp) (by simp)]
  simp only
  rw [construct_ok (by rintro i ⟨⟩; exact meta_id _) (by rintro n ⟨⟩) (by simp) (by exact List.nodup_nil)]
  simp only
  rw [construct_ok (by rintro i ⟨⟩) (by rintro n ⟨⟩) (by exact List.nodup_nil) ?_]
  · rfl
  · unfold header
    split
    · simp only [List.cons_append, List.nil_append, List.filterMap_cons, Obj.data_mk, headerData, List.filterMap_nil,
        List.length_cons, List.length_nil, List.nodup_cons, List.mem_singleton, List.append_cancel_left_eq]
      refine ⟨?_, by simp⟩
      intro e
      simp only [List.cons.injEq, true_and] at e
      have h1 : natStr 1 = ['1'] := by decide
      have := natStr_inj (h1.trans e)
      omega
    · simp

theorem construct_inv {d : Data} {md kids : List Obj} {x : Obj} (h : construct d md kids = .ok x) :
    x = .mk d md kids ∧ (∀ i, d.id = some i → idAccepted i = true) := by
  unfold construct at h
  split at h
  · cases h
  rename_i h1
  split at h
  · cases h
  split at h
  · cases h
  cases h
  refine ⟨rfl, fun i hi => ?_⟩
  rw [hi] at h1
  simpa using h1

/-- `x` is the item of the line `l`, numbered `j` -/
structure Line (o : Opts) (l : Dict Str Str) (j : Nat) (x : Obj) : Prop where
  cls : x.cls = .item
  id : x.data.id = some (lit! "r" ++ natStr j)
  text : ∃ t, Dict.get? l (lit! "content") = some t ∧ x.data.text = some (clean t o.repl)
  attrs : l.WF → ∀ k, Dict.get? x.data.attrs k = if k = lit! "content" then none else Dict.get? l k
  leaf : x.md = [] ∧ x.kids = []

theorem rawItems_inv (o : Opts) : ∀ (ls : List (Dict Str Str)) (j : Nat) (xs : List Obj), rawItems o ls j = .ok xs →
    xs.length = ls.length ∧ ∀ (n : Nat) (l : Dict Str Str) (x : Obj), ls[n]? = some l → xs[n]? = some x → Line o l (j + n) x := by
  intro ls
  induction ls with
  | nil => intro j xs h; cases h; simp
  | cons l ls ih =>
    intro j xs h
    rw [rawItems] at h
    split at h
    · cases h
    rename_i t ht
    simp only [bind, Except.bind] at h
    split at h
    · cases h
    rename_i x hx
    split at h
    · cases h
    rename_i xs' hxs'
    cases h
    obtain ⟨rfl, _⟩ := construct_inv hx
    obtain ⟨e1, e2⟩ := ih _ _ hxs'
    refine ⟨by simp [e1], ?_⟩
    intro n l' x' hl hx'
    cases n with
    | zero =>
      simp only [List.getElem?_cons_zero, Option.some.injEq] at hl hx'
      subst hl hx'
      exact ⟨rfl, rfl, ⟨t, ht, rfl⟩, fun hw k => by
        rw [Obj.data_mk, itemData, Dict.get?_del hw]
        by_cases hk : k = lit! "content"
        · simp [hk]
        · simp [hk, Ne.symm hk], rfl, rfl⟩
    | succ n =>
      simp only [List.getElem?_cons_succ] at hl hx'
      have := e2 n l' x' hl hx'
      rwa [show j + 1 + n = j + (n + 1) by omega] at this

theorem rawItems_ok (o : Opts) : ∀ (ls : List (Dict Str Str)) (j : Nat),
    (∀ l ∈ ls, Dict.get? l (lit! "content") ≠ none) → ∃ xs, rawItems o ls j = .ok xs := by
  intro ls
  induction ls with
  | nil => intro j _; exact ⟨[], rfl⟩
  | cons l ls ih =>
    intro j h
    rw [rawItems]
    cases ht : Dict.get? l (lit! "content") with
    | none => exact absurd ht (h l (by simp))
    | some t =>
      obtain ⟨xs, hxs⟩ := ih (j + 1) (fun l hl => h l (by simp [hl]))
      simp only [bind, Except.bind]
      rw [construct_ok (by rintro i ⟨⟩; exact r_id j) (by rintro n ⟨⟩) (by simp) (by simp), hxs]
      exact ⟨_, rfl⟩

theorem rawItems_content {o : Opts} : ∀ {ls : List (Dict Str Str)} {j : Nat} {xs : List Obj}, rawItems o ls j = .ok xs →
    ∀ l ∈ ls, Dict.get? l (lit! "content") ≠ none := by
  intro ls
  induction ls with
  | nil => intro j xs _ l hl; cases hl
  | cons l ls ih =>
    intro j xs h l' hl
    rw [rawItems] at h
    split at h
    · cases h
    rename_i t ht
    simp only [bind, Except.bind] at h
    split at h
    · cases h
    split at h
    · cases h
    rename_i xs' hxs'
    rcases List.mem_cons.1 hl with rfl | hl
    · rw [ht]; simp
    · exact ih hxs' l' hl

/-- the IDs of the items are distinct -/
theorem rawItems_ids {o : Opts} : ∀ {ls : List (Dict Str Str)} {j : Nat} {xs : List Obj}, rawItems o ls j = .ok xs →
    xs.filterMap (fun x => x.data.id) = (List.range ls.length).map fun n => lit! "r" ++ natStr (j + n) := by
  intro ls
  induction ls with
  | nil => intro j xs h; cases h; rfl
  | cons l ls ih =>
    intro j xs h
    rw [rawItems] at h
    split at h
    · cases h
    rename_i t ht
    simp only [bind, Except.bind] at h
    split at h
    · cases h
    rename_i x hx
    split at h
    · cases h
    rename_i xs' hxs'
    cases h
    obtain ⟨rfl, _⟩ := construct_inv hx
    have := ih hxs'
    simp only [List.filterMap_cons, Obj.data_mk, itemData, this, List.length_cons, List.range_succ_eq_map, List.map_cons,
      Nat.add_zero, List.map_map]
    congr 1
    apply List.map_congr_left
    intro n _
    simp only [Function.comp]
    rw [show j + 1 + n = j + (n + 1) by omega]

theorem ids_nodup (j m : Nat) : ((List.range m).map fun n => lit! "r" ++ natStr (j + n)).Nodup := by
  rw [List.nodup_iff_pairwise_ne, List.pairwise_map]
  refine List.Pairwise.imp ?_ (List.nodup_iff_pairwise_ne.1 List.nodup_range)
  intro a b hab e
  have := natStr_inj (List.append_cancel_left e)
  omega

/-- What has to be in a block: a document, line types, a line range of two parts, a content of every
line; and its ID must be accepted. -/
structure Complete (b : Block) (doc first last types : Str) : Prop where
  doc : b.docId = some doc
  types : b.lineTypes = some types
  range : ∃ r, b.lineRange = some r ∧ TwoWords r first last
  lines : ∀ l ∈ b.lines.getD [], Dict.get? l (lit! "content") ≠ none
  id : ∀ i, b.igtId = some i → idAccepted i = true

/-- what is made of a block -/
structure Imported (title : Str → Str) (o : Opts) (b : Block) (doc first last types : Str) (x : Obj) : Prop where
  id : x.data.id = b.igtId
  attrs : x.data.attrs = [(lit! "doc-id", doc), (lit! "line-range", first ++ '-' :: last), (lit! "tag-types", types)]
  rest : x.cls = .igt ∧ x.data.type = none ∧ x.data.ns = none ∧ x.data.nsmap = none ∧ x.data.text = none ∧ x.data.name = none
  md : x.md = [mdObj title o b]
  tier : ∃ t, x.kids = [t] ∧ t.data = { cls := .tier, id := some (lit! "r"), type := some (lit! "odin"), attrs := [(lit! "state", lit! "raw")] } ∧ t.md = [] ∧ t.kids.length = (b.lines.getD []).length ∧
    ∀ (n : Nat) (l : Dict Str Str) (y : Obj), (b.lines.getD [])[n]? = some l → t.kids[n]? = some y → Line o l (n + 1) y

theorem rawTier_ok {o : Opts} {b : Block} (h : ∀ l ∈ b.lines.getD [], Dict.get? l (lit! "content") ≠ none) :
    ∃ xs, rawItems o (b.lines.getD []) 1 = .ok xs ∧ rawTier o b = .ok (.mk tierData [] xs) := by
  obtain ⟨xs, hxs⟩ := rawItems_ok o _ 1 h
  refine ⟨xs, hxs, ?_⟩
  unfold rawTier
  rw [hxs]
  simp only [bind, Except.bind]
  rw [construct_ok (by rintro i ⟨⟩; exact (idAccepted_iff _).2 ⟨'r', [], rfl, by decide⟩) (by rintro n ⟨⟩) (by simp)]
  rw [rawItems_ids hxs]
  exact ids_nodup _ _

theorem join_two (a b : Str) : join ['-'] [a, b] = a ++ '-' :: b := by simp [join]

/-- C75: a complete block is imported, with every line, in order, and everything else it says. -/
theorem C75_complete (title : Str → Str) (o : Opts) (b : Block) (doc first last types : Str)
    (h : Complete b doc first last types) :
    ∃ x, makeIgt title o b = .ok x ∧ Imported title o b doc first last types x := by
  obtain ⟨r, hr, hs⟩ := h.range
  rw [← split_two] at hs
  obtain ⟨xs, hxs, ht⟩ := rawTier_ok (o := o) h.lines
  unfold makeIgt attributes lineRange
  simp only [hr, hs, h.doc, h.types, metadata_ok, ht, bind, Except.bind, join_two]
  rw [construct_ok h.id (by rintro n ⟨⟩) (by exact List.nodup_nil) (by simp [tierData])]
  obtain ⟨e1, e2⟩ := rawItems_inv o _ _ _ hxs
  exact ⟨_, rfl, rfl, rfl, ⟨rfl, rfl, rfl, rfl, rfl, rfl⟩, rfl, _, rfl, rfl, rfl, e1, fun n l y hl hy => by
    have := e2 n l y hl hy
    rwa [Nat.add_comm] at this⟩

/-- C75: nothing is imported of any other block; an exception is raised instead. -/
theorem C75_incomplete (title : Str → Str) (o : Opts) (b : Block) (x : Obj) (h : makeIgt title o b = .ok x) :
    ∃ doc first last types, Complete b doc first last types := by
  unfold makeIgt attributes lineRange at h
  simp only [metadata_ok] at h
  cases hr : b.lineRange with
  | none => rw [hr] at h; cases h
  | some r =>
    rw [hr] at h
    simp only [bind, Except.bind] at h
    split at h
    · cases h
    rename_i as has
    split at has
    · cases has
    rename_i r' hr'
    split at hr'
    · rename_i a c hs
      split at has
      · rename_i d t hd ht
        split at h
        · cases h
        rename_i ti hti
        obtain ⟨_, hid⟩ := construct_inv h
        refine ⟨d, a, c, t, hd, ht, ⟨r, hr, (split_two _ _ _).1 hs⟩, ?_, hid⟩
        unfold rawTier at hti
        simp only [bind, Except.bind] at hti
        split at hti
        · cases hti
        rename_i xs hxs
        exact rawItems_content hxs
      · cases has
    · cases hr'

/-- C75: the corpus has one igt for each block, in order (the test of the tier `r` never fails). -/
theorem C75_all (title : Str → Str) (o : Opts) : ∀ (bs : List Block) (xs : List Obj),
    odinIgts title o bs = .ok xs ↔ All2 (fun b x => makeIgt title o b = .ok x) bs xs := by
  intro bs
  induction bs with
  | nil =>
    intro xs
    constructor
    · intro h; cases h; exact .nil
    · intro h; cases h; rfl
  | cons b bs ih =>
    intro xs
    have key : ∀ x, makeIgt title o b = .ok x → (contGet x.kids (lit! "r")).isSome = true := by
      intro x hx
      obtain ⟨d, f, l, t, hc⟩ := C75_incomplete title o b x hx
      obtain ⟨x', hx', hi⟩ := C75_complete title o b d f l t hc
      rw [hx'] at hx
      cases hx
      obtain ⟨t, ht, hd, _⟩ := hi.tier
      simp [ht, contGet, hd, tierData]
    constructor
    · intro h
      simp only [odinIgts, bind, Except.bind] at h
      split at h
      · cases h
      rename_i x hx
      split at h
      · cases h
      rename_i xs' hxs'
      rw [if_pos (key x hx)] at h
      cases h
      exact .cons hx ((ih xs').1 hxs')
    · intro h
      cases h with
      | cons hx hxs =>
        rename_i x xs'
        simp only [odinIgts, bind, Except.bind, hx, (ih xs').2 hxs, if_pos (key x hx)]

end

section
attribute [local instance] asciiUni

/-- a block with two lines -/
def exBlock : Block where
  igtId := some (lit! "igt1")
  docId := some (lit! "397")
  lineRange := some (lit! "959 961")
  lineTypes := some (lit! "L G T")
  language := some (lit! "french")
  lines := some [[(lit! "line", lit! "959"), (lit! "content", lit! "chiens\x01")], [(lit! "content", lit! "dogs"), (lit! "tag", lit! "G")]]

example : Complete exBlock (lit! "397") (lit! "959") (lit! "961") (lit! "L G T") :=
  ⟨rfl, rfl, ⟨_, rfl, (split_two _ _ _).1 (by decide +kernel)⟩, by decide, by intro i hi; cases hi; decide +kernel⟩

example : ((makeIgt id {} exBlock).toOption.map fun x => x.kids.map fun t => t.kids.map fun y => (y.data.id, y.data.text, y.data.attrs)) =
    some [[(some (lit! "r1"), some (lit! "chiens�"), [(lit! "line", lit! "959")]),
      (some (lit! "r2"), some (lit! "dogs"), [(lit! "tag", lit! "G")])]] := rfl

end
end Xigt.Odin
