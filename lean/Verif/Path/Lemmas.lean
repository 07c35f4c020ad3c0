import Verif.Path.Spec
import Verif.RegexLemmas
import Verif.Ref.Lemmas
/- Tokenizing what was written. -/

set_option linter.unusedSectionVars false

namespace Xigt.XP
open Re
section
variable [Uni]

/-! ### One token -/

/-- the tokenizer reads the token `t` before `more` -/
def Reads (t more : Str) : Prop := ∀ b, tokenRe.first ⟨b, t ++ more, []⟩ = some (t, ⟨false, more, []⟩)

theorem first_seq_chr {c d cs b} {r : Re} : first (seq (chr d) r) ⟨b, c :: cs, []⟩ =
    if c = d then (first r ⟨false, cs, []⟩).map (fun y => (c :: y.1, y.2)) else none := by
  by_cases h : c = d
  · subst h
    rw [first_seq_single (x := ([c], ⟨false, cs, []⟩)) (by simp [chr, Re.run])]
    simp
  · rw [if_neg h]
    exact first_seq_none_left (by rw [first_chr_cons, if_neg h])

theorem first_opt_chr {d : Char} {cs : Str} {b} : first (opt (chr d)) ⟨b, cs, []⟩ =
    if cs.head? = some d then some ([d], ⟨false, cs.drop 1, []⟩) else some ([], ⟨b, cs, []⟩) := by
  rw [first_opt]
  cases cs with
  | nil => rw [first_chr_nil]; simp
  | cons c cs =>
    rw [first_chr_cons]
    by_cases h : c = d <;> simp [h]

theorem first_str_nil {t : Str} {b} (h : t ≠ []) : first (Re.str t) ⟨b, [], []⟩ = none := by
  cases t with
  | nil => exact absurd rfl h
  | cons c t =>
    cases t with
    | nil => exact first_chr_nil
    | cons d t => exact first_seq_none_left first_chr_nil

theorem first_str_of {t : Str} : ∀ {more b}, t ≠ [] → first (Re.str t) ⟨b, t ++ more, []⟩ = some (t, ⟨false, more, []⟩) := by
  induction t with
  | nil => intro _ _ h; exact absurd rfl h
  | cons c t ih =>
    intro more b _
    cases t with
    | nil => simp [Re.str, first_chr_cons]
    | cons d t =>
      have := ih (more := more) (b := false) (by simp)
      simp only [Re.str, List.cons_append, first_seq_chr, if_true] at this ⊢
      rw [this]; rfl

theorem first_str_none {t : Str} : ∀ {s b}, t ≠ [] → ¬ t <+: s → first (Re.str t) ⟨b, s, []⟩ = none := by
  induction t with
  | nil => intro _ _ h; exact absurd rfl h
  | cons c t ih =>
    intro s b _ hp
    cases s with
    | nil => exact first_str_nil (by simp)
    | cons x s =>
      cases t with
      | nil =>
        simp only [Re.str, first_chr_cons]
        rw [if_neg]
        rintro rfl
        exact hp (by simp)
      | cons d t =>
        simp only [Re.str, first_seq_chr]
        split
        · rename_i h
          subst h
          rw [ih (by simp) (fun h => hp (by simpa using h))]; rfl
        · rfl

theorem reads_at {more} : Reads (lit! "@") more := by
  intro b; simp [tokenRe, altRe, quotedRe, Re.cat, Re.str, first_alt, first_seq_chr, first_chr_cons]
theorem reads_lbrack {more} : Reads (lit! "[") more := by
  intro b; simp [tokenRe, altRe, quotedRe, Re.cat, Re.str, first_alt, first_seq_chr, first_chr_cons]
theorem reads_rbrack {more} : Reads (lit! "]") more := by
  intro b; simp [tokenRe, altRe, quotedRe, Re.cat, Re.str, first_alt, first_seq_chr, first_chr_cons]
theorem reads_lparen {more} : Reads (lit! "(") more := by
  intro b; simp [tokenRe, altRe, quotedRe, Re.cat, Re.str, first_alt, first_seq_chr, first_chr_cons]
theorem reads_rparen {more} : Reads (lit! ")") more := by
  intro b; simp [tokenRe, altRe, quotedRe, Re.cat, Re.str, first_alt, first_seq_chr, first_chr_cons]
theorem reads_bar {more} : Reads (lit! "|") more := by
  intro b; simp [tokenRe, altRe, quotedRe, Re.cat, Re.str, first_alt, first_seq_chr, first_chr_cons]
theorem reads_eq {more} : Reads (lit! "=") more := by
  intro b; simp [tokenRe, altRe, quotedRe, Re.cat, Re.str, first_alt, first_seq_chr, first_chr_cons]
theorem reads_ne {more} : Reads (lit! "!=") more := by
  intro b; simp [tokenRe, altRe, quotedRe, Re.cat, Re.str, first_alt, first_seq_chr, first_chr_cons]
theorem reads_star {more} : Reads (lit! "*") more := by
  intro b; simp [tokenRe, altRe, quotedRe, Re.cat, Re.str, first_alt, first_seq_chr, first_chr_cons]
theorem reads_slash {more : Str} (h : more.head? ≠ some '/') : Reads (lit! "/") more := by
  intro b; simp [tokenRe, altRe, quotedRe, Re.cat, Re.str, first_alt, first_seq_chr, first_chr_cons, first_opt_chr, h]
theorem reads_slashes {more : Str} : Reads (lit! "//") more := by
  intro b; simp [tokenRe, altRe, quotedRe, Re.cat, Re.str, first_alt, first_seq_chr, first_chr_cons, first_opt_chr]
theorem reads_dot {more : Str} (h : more.head? ≠ some '.') : Reads (lit! ".") more := by
  intro b; simp [tokenRe, altRe, quotedRe, Re.cat, Re.str, first_alt, first_seq_chr, first_chr_cons, first_opt_chr, h]
theorem reads_dots {more : Str} : Reads (lit! "..") more := by
  intro b; simp [tokenRe, altRe, quotedRe, Re.cat, Re.str, first_alt, first_seq_chr, first_chr_cons, first_opt_chr]
theorem reads_kw {t more : Str} (h : t ∈ keywords) : Reads t more := by
  intro b
  simp only [keywords, List.mem_cons, List.not_mem_nil, or_false] at h
  rcases h with rfl | rfl | rfl | rfl <;>
    simp [tokenRe, altRe, quotedRe, Re.cat, Re.str, first_alt, first_seq_chr, first_chr_cons]

theorem first_body : ∀ (v : Str) {more b}, Quotable v →
    ∃ b', first (.star (.alt (.seq (.chr '\\') (.cls fun c => c != '\n')) (.cls fun c => c != '\\' && c != '"')))
      ⟨b, v ++ '"' :: more, []⟩ = some (v, ⟨b', '"' :: more, []⟩) := by
  intro v
  induction v with
  | nil =>
    intro more b _
    refine ⟨b, first_star_stop ?_⟩
    simp [first_alt, first_seq_chr, first_cls_cons]
  | cons c v ih =>
    intro more b h
    have h1 : c ≠ '"' := fun e => h.1 (by simp [e])
    have h2 : c ≠ '\\' := fun e => h.2 (by simp [e])
    obtain ⟨b', hb⟩ := ih (more := more) (b := false) ⟨fun e => h.1 (by simp [e]), fun e => h.2 (by simp [e])⟩
    refine ⟨b', ?_⟩
    rw [first_star_step (x := ([c], ⟨false, v ++ '"' :: more, []⟩)) _ (by simp) hb]
    · rfl
    · simp [first_alt, first_seq_chr, first_cls_cons, h1, h2]

theorem reads_quote {v more : Str} (h : Quotable v) : Reads (quote v) more := by
  intro b
  obtain ⟨b', hb⟩ := first_body v (more := more) (b := false) h
  have h2 := first_seq_of (b := chr '"') hb (y := (['"'], ⟨false, more, []⟩)) (by simp [first_chr_cons])
  have : first quotedRe ⟨b, quote v ++ more, []⟩ = some (quote v, ⟨false, more, []⟩) := by
    simp only [quotedRe, quote, Re.cat, List.cons_append, first_seq_chr, if_true, List.append_assoc, List.nil_append]
    rw [h2]; rfl
  rw [tokenRe, altRe]
  · rw [first_alt, this]; rfl
  · simp

/-- what comes after a name -/
def Stop (r : Str) : Prop := ∀ c, r.head? = some c → c = '/' ∨ c = '[' ∨ c = ']' ∨ c = ')' ∨ c = '(' ∨ c = '|' ∨ c = '=' ∨ c = '!'

theorem reads_name {n more : Str} (hn : PlainName n) (h : Stop more) : Reads n more := by
  intro b
  obtain ⟨c, cs, rfl, h1, h2, h3, _⟩ := hn.head
  have hc := hn.chars c (by simp)
  have hkw : ∀ k ∈ keywords, first (Re.str k) ⟨b, c :: (cs ++ more), []⟩ = none := by
    intro k hk
    refine first_str_none ?_ ?_
    · simp only [keywords, List.mem_cons, List.not_mem_nil, or_false] at hk
      rcases hk with rfl | rfl | rfl | rfl <;> simp
    · intro hp
      -- a keyword that reaches beyond the name would contain a character that ends names
      have hkc : ∀ x ∈ k, nameCh x = true := by
        simp only [keywords, List.mem_cons, List.not_mem_nil, or_false] at hk
        rcases hk with rfl | rfl | rfl | rfl <;> decide
      obtain ⟨r, hr⟩ := hp
      rw [← List.cons_append] at hr
      rcases List.append_eq_append_iff.1 hr with ⟨a, ha, hb⟩ | ⟨a, ha, hb⟩
      · exact hn.kw k hk ⟨a, ha.symm⟩
      · cases a with
        | nil => exact hn.kw k hk ⟨[], by simpa using ha⟩
        | cons x a =>
          have hx := hkc x (by rw [ha]; simp)
          have := h x (by rw [hb]; rfl)
          rcases this with rfl | rfl | rfl | rfl | rfl | rfl | rfl | rfl <;> revert hx <;> decide
  have hkw' := fun k hk => hkw k hk
  simp only [keywords, List.mem_cons, List.not_mem_nil, or_false, forall_eq_or_imp, forall_eq] at hkw'
  obtain ⟨k1, k2, k3, k4⟩ := hkw'
  have hne : c ≠ '.' ∧ c ≠ '/' ∧ c ≠ '[' ∧ c ≠ ']' ∧ c ≠ '!' ∧ c ≠ '=' ∧ c ≠ '|' ∧ c ≠ '(' ∧ c ≠ ')' := by
    refine ⟨?_, ?_, ?_, ?_, ?_, ?_, ?_, ?_, ?_⟩ <;> rintro rfl <;> revert hc <;> decide
  obtain ⟨n1, n2, n3, n4, n5, n6, n7, n8, n9⟩ := hne
  have hplus : first (.plus (.cls nameCh)) ⟨b, c :: (cs ++ more), []⟩ = some (c :: cs, ⟨false, more, []⟩) := by
    have hb : Brk nameCh more := by
      intro x xs e
      rcases h x (by rw [e]; rfl) with rfl | rfl | rfl | rfl | rfl | rfl | rfl | rfl <;> decide
    have := takeWhile_append_brk (a := c :: cs) hn.chars hb
    have h' := dropWhile_append_brk (a := c :: cs) hn.chars hb
    rw [first_plus_cls, ← List.cons_append, this, h']; simp
  simp only [tokenRe, altRe, first_alt, List.cons_append, k1, k2, k3, k4, hplus]
  simp [quotedRe, Re.cat, Re.str, first_seq_chr, first_chr_cons, h1, h2, h3, n1, n2, n3, n4, n5, n6, n7, n8, n9]

/-! ### All tokens -/

/-- the tokens are read one after the other -/
def TokOK : List Str → Prop
  | [] => True
  | t :: ts => Reads t ts.flatten ∧ strip t = t ∧ t ≠ [] ∧ TokOK ts

theorem found_toks : ∀ {ts : List Str} {b m}, TokOK ts → (found tokenRe b ts.flatten m).map (fun m => strip m.1) = ts := by
  intro ts
  induction ts with
  | nil =>
    intro b m _
    rw [List.flatten_nil, found_nil (matchAt_none_of_first _)]
    · rfl
    · have : ∀ (c : Char) (r : Re) (b : Bool), first (seq (chr c) r) ⟨b, [], []⟩ = none :=
        fun c r b => first_seq_none_left first_chr_nil
      simp [tokenRe, altRe, quotedRe, Re.cat, first_alt, first_str_nil, first_chr_nil, this, first_plus_cls]
  | cons t ts ih =>
    intro b m h
    obtain ⟨h1, h2, h3, h4⟩ := h
    rw [List.flatten_cons, found_first (h1 b) h3, List.map_cons, ih h4, h2]

theorem tokOK_ne : ∀ {ts : List Str}, TokOK ts → ∀ t ∈ ts, t ≠ [] := by
  intro ts
  induction ts with
  | nil => simp
  | cons t ts ih =>
    intro h x hx
    rcases List.mem_cons.1 hx with rfl | hx
    · exact h.2.2.1
    · exact ih h.2.2.2 x hx

theorem tokenize_toks {ts : List Str} (h : TokOK ts) : tokenize ts.flatten = ts := by
  rw [tokenize, findAll_eq, found_toks h, List.filter_eq_self]
  intro t ht
  simpa using tokOK_ne h t ht

theorem strip_ends {c d : Char} {cs ds t : Str} (h1 : t = c :: cs) (h2 : t = ds ++ [d]) (hc : Uni.isSpace c = false)
    (hd : Uni.isSpace d = false) : strip t = t := by
  have : lstrip t = t := by rw [h1]; simp [lstrip, hc]
  rw [strip, this, h2]
  simp [hd]

theorem space_graph {c : Char} (h : c.toNat < 128) (hb : 33 ≤ c.toNat) : Uni.isSpace c = false := by
  rw [Uni.ascii_space c h]
  simp only [Bool.or_eq_false_iff, Bool.and_eq_false_iff, decide_eq_false_iff_not]
  omega

theorem strip_name {n : Str} (h : PlainName n) : strip n = n := by
  obtain ⟨c, cs, e1, _, _, _, hc⟩ := h.head
  obtain ⟨d, ds, e2, hd⟩ := h.last
  exact strip_ends e1 e2 hc hd

theorem name_ne {n : Str} (h : PlainName n) : n ≠ [] := by
  obtain ⟨c, cs, rfl, _⟩ := h.head; simp

/-- the tokens that are the same in all paths -/
def symbols : List Str := [lit! "@", lit! "[", lit! "]", lit! "(", lit! ")", lit! "|", lit! "=", lit! "!=", lit! "*", lit! "/",
  lit! "//", lit! ".", lit! "..", lit! "text", lit! "value", lit! "referent", lit! "referrer"]

theorem strip_graph {c d : Char} {cs ds t : Str} (h1 : t = c :: cs) (h2 : t = ds ++ [d]) (hc : c.toNat < 128 ∧ 33 ≤ c.toNat)
    (hd : d.toNat < 128 ∧ 33 ≤ d.toNat) : strip t = t :=
  strip_ends h1 h2 (space_graph hc.1 hc.2) (space_graph hd.1 hd.2)

theorem strip_single {c : Char} (hc : c.toNat < 128 ∧ 33 ≤ c.toNat) : strip [c] = [c] :=
  strip_graph (cs := []) (ds := []) rfl rfl hc hc

theorem strip_sym {t : Str} (h : t ∈ symbols) : strip t = t ∧ t ≠ [] := by
  simp only [symbols, List.mem_cons, List.not_mem_nil, or_false] at h
  rcases h with rfl | rfl | rfl | rfl | rfl | rfl | rfl | rfl | rfl | rfl | rfl | rfl | rfl | rfl | rfl | rfl | rfl
  iterate 7 exact ⟨strip_single (by decide), by simp⟩
  · exact ⟨strip_graph (c := '!') (d := '=') (cs := ['=']) (ds := ['!']) rfl rfl (by decide) (by decide), by simp⟩
  iterate 2 exact ⟨strip_single (by decide), by simp⟩
  · exact ⟨strip_graph (c := '/') (d := '/') (cs := ['/']) (ds := ['/']) rfl rfl (by decide) (by decide), by simp⟩
  · exact ⟨strip_single (by decide), by simp⟩
  · exact ⟨strip_graph (c := '.') (d := '.') (cs := ['.']) (ds := ['.']) rfl rfl (by decide) (by decide), by simp⟩
  · exact ⟨strip_graph (c := 't') (d := 't') (cs := lit! "ext") (ds := lit! "tex") rfl rfl (by decide) (by decide), by simp⟩
  · exact ⟨strip_graph (c := 'v') (d := 'e') (cs := lit! "alue") (ds := lit! "valu") rfl rfl (by decide) (by decide), by simp⟩
  · exact ⟨strip_graph (c := 'r') (d := 't') (cs := lit! "eferent") (ds := lit! "referen") rfl rfl (by decide) (by decide), by simp⟩
  · exact ⟨strip_graph (c := 'r') (d := 'r') (cs := lit! "eferrer") (ds := lit! "referre") rfl rfl (by decide) (by decide), by simp⟩

theorem strip_quote {v : Str} : strip (quote v) = quote v :=
  strip_graph (c := '"') (d := '"') (cs := v ++ ['"']) (ds := '"' :: v) rfl rfl (by decide) (by decide)

theorem tokOK_sym {t : Str} {R : List Str} (ht : t ∈ symbols) (hr : Reads t R.flatten) (h : TokOK R) : TokOK (t :: R) :=
  ⟨hr, (strip_sym ht).1, (strip_sym ht).2, h⟩

theorem tokOK_name {n : Str} {R : List Str} (hn : PlainName n ∨ n = lit! "*") (hs : Stop R.flatten) (h : TokOK R) :
    TokOK (n :: R) := by
  rcases hn with hn | rfl
  · exact ⟨reads_name hn hs, strip_name hn, name_ne hn, h⟩
  · exact tokOK_sym (by decide) reads_star h

theorem tokOK_quote {v : Str} {R : List Str} (hv : Quotable v) (h : TokOK R) : TokOK (quote v :: R) :=
  ⟨reads_quote hv, strip_quote, by simp [quote], h⟩

theorem kw_sym {f : Str} (h : f ∈ keywords) : f ∈ symbols := by
  simp only [keywords, List.mem_cons, List.not_mem_nil, or_false] at h
  rcases h with rfl | rfl | rfl | rfl <;> decide

theorem stop_cons {c : Char} {cs : Str} {R : List Str} (h : c = '/' ∨ c = '[' ∨ c = ']' ∨ c = ')' ∨ c = '(' ∨ c = '|' ∨ c = '=' ∨ c = '!') :
    Stop ((c :: cs) :: R).flatten := by
  intro d hd
  simp at hd
  subst hd; exact h

theorem stop_nil : Stop [] := by intro d hd; simp at hd

theorem stop_dot {r : Str} (h : Stop r) : r.head? ≠ some '.' := by
  intro e
  have := h _ e
  revert this; decide

theorem name_slash {n : Str} {r : Str} (hn : PlainName n ∨ n = lit! "*") : (n ++ r).head? ≠ some '/' := by
  rcases hn with hn | rfl
  · obtain ⟨c, cs, rfl, _⟩ := hn.head
    have := hn.chars c (by simp)
    intro e
    simp at e
    subst e
    revert this; decide
  · simp

theorem head_node {n : PNode} {R : List Str} (h : n.Ok) (hd : n.isDesc = false) : (n.toks ++ R).flatten.head? ≠ some '/' := by
  cases n with
  | child n => simpa [PNode.toks] using name_slash (r := R.flatten) h
  | desc n => simp [PNode.isDesc] at hd
  | attr n => simp [PNode.toks]
  | parent => simp [PNode.toks]
  | self => simp [PNode.toks]
  | fn f a =>
    have hf : f ∈ keywords := by
      cases a with
      | none => exact h
      | some a => exact h.1
    simp only [keywords, List.mem_cons, List.not_mem_nil, or_false] at hf
    cases a <;> rcases hf with rfl | rfl | rfl | rfl <;> simp [PNode.toks]
  | alts a => simp [PNode.toks]

theorem head_steps {s : PSteps} {R : List Str} (h : s.Ok) (hd : s.first.isDesc = false) :
    (s.toks ++ R).flatten.head? ≠ some '/' := by
  cases s with
  | last n ps => rw [PSteps.toks, List.append_assoc]; exact head_node h.1 hd
  | more n ps r => rw [PSteps.toks, List.append_assoc]; exact head_node h.1 hd

theorem stop_sep {s : PSteps} {R : List Str} : Stop (sep s ++ (s.toks ++ R)).flatten := by
  rw [sep]
  split
  · rename_i h
    cases s with
    | last n ps =>
      cases n <;> simp [PSteps.first, PNode.isDesc] at h
      exact stop_cons (by simp)
    | more n ps r =>
      cases n <;> simp [PSteps.first, PNode.isDesc] at h
      exact stop_cons (by simp)
  · exact stop_cons (by simp)

theorem stop_preds {ps : PPreds} {R : List Str} (h : Stop R.flatten) : Stop (ps.toks ++ R).flatten := by
  cases ps with
  | nil => exact h
  | eq p v r => exact stop_cons (by simp)
  | ne p v r => exact stop_cons (by simp)
  | ex p r => exact stop_cons (by simp)

theorem toks_sep {s : PSteps} {R : List Str} (h : s.Ok) (ht : TokOK (s.toks ++ R)) : TokOK (sep s ++ (s.toks ++ R)) := by
  rw [sep]
  split
  · exact ht
  · rename_i hd
    exact tokOK_sym (by decide) (reads_slash (head_steps h (by simpa using hd))) ht

mutual
theorem toks_path : ∀ (p : PPath) {R}, p.Ok → TokOK R → Stop R.flatten → TokOK (p.toks ++ R)
  | .rel s, R, h, hR, hS => toks_steps s h.1 hR hS
  | .abs s, R, h, hR, hS => by
    rw [PPath.toks, List.append_assoc]
    exact toks_sep h (toks_steps s h hR hS)
  | .group a, R, h, hR, hS => by
    rw [PPath.toks, List.cons_append, List.append_assoc]
    exact tokOK_sym (by decide) reads_lparen
      (toks_alts a h (tokOK_sym (by decide) reads_rparen hR) (stop_cons (by simp)))
theorem toks_steps : ∀ (s : PSteps) {R}, s.Ok → TokOK R → Stop R.flatten → TokOK (s.toks ++ R)
  | .last n ps, R, h, hR, hS => by
    rw [PSteps.toks, List.append_assoc]
    exact toks_node n h.1 (toks_preds ps h.2 hR hS) (stop_preds hS)
  | .more n ps r, R, h, hR, hS => by
    rw [PSteps.toks, List.append_assoc, List.append_assoc, List.append_assoc]
    exact toks_node n h.1 (toks_preds ps h.2.1 (toks_sep h.2.2 (toks_steps r h.2.2 hR hS)) stop_sep) (stop_preds stop_sep)
theorem toks_node : ∀ (n : PNode) {R}, n.Ok → TokOK R → Stop R.flatten → TokOK (n.toks ++ R)
  | .child n, R, h, hR, hS => tokOK_name h hS hR
  | .desc n, R, h, hR, hS => tokOK_sym (by decide) reads_slashes (tokOK_name h hS hR)
  | .attr n, R, h, hR, hS => tokOK_sym (by decide) reads_at (tokOK_name h hS hR)
  | .parent, R, h, hR, hS => tokOK_sym (by decide) reads_dots hR
  | .self, R, h, hR, hS => tokOK_sym (by decide) (reads_dot (stop_dot hS)) hR
  | .fn f none, R, h, hR, hS => tokOK_sym (kw_sym h) (reads_kw h)
      (tokOK_sym (by decide) reads_lparen (tokOK_sym (by decide) reads_rparen hR))
  | .fn f (some a), R, h, hR, hS => tokOK_sym (kw_sym h.1) (reads_kw h.1)
      (tokOK_sym (by decide) reads_lparen (tokOK_quote h.2 (tokOK_sym (by decide) reads_rparen hR)))
  | .alts a, R, h, hR, hS => by
    rw [PNode.toks, List.cons_append, List.append_assoc]
    exact tokOK_sym (by decide) reads_lparen
      (toks_alts a h (tokOK_sym (by decide) reads_rparen hR) (stop_cons (by simp)))
theorem toks_alts : ∀ (a : PAlts) {R}, a.Ok → TokOK R → Stop R.flatten → TokOK (a.toks ++ R)
  | .one p, R, h, hR, hS => toks_path p h.1 hR hS
  | .more p r, R, h, hR, hS => by
    rw [PAlts.toks, List.append_assoc]
    exact toks_path p h.1 (tokOK_sym (by decide) reads_bar (toks_alts r h.2.2 hR hS)) (stop_cons (by simp))
theorem toks_preds : ∀ (ps : PPreds) {R}, ps.Ok → TokOK R → Stop R.flatten → TokOK (ps.toks ++ R)
  | .nil, R, h, hR, hS => hR
  | .eq p v r, R, h, hR, hS => by
    rw [PPreds.toks, List.cons_append, List.append_assoc]
    exact tokOK_sym (by decide) reads_lbrack (toks_path p h.1 (tokOK_sym (by decide) reads_eq (tokOK_quote h.2.2.1
      (tokOK_sym (by decide) reads_rbrack (toks_preds r h.2.2.2 hR hS)))) (stop_cons (by simp)))
  | .ne p v r, R, h, hR, hS => by
    rw [PPreds.toks, List.cons_append, List.append_assoc]
    exact tokOK_sym (by decide) reads_lbrack (toks_path p h.1 (tokOK_sym (by decide) reads_ne (tokOK_quote h.2.2.1
      (tokOK_sym (by decide) reads_rbrack (toks_preds r h.2.2.2 hR hS)))) (stop_cons (by simp)))
  | .ex p r, R, h, hR, hS => by
    rw [PPreds.toks, List.cons_append, List.append_assoc]
    exact tokOK_sym (by decide) reads_lbrack (toks_path p h.1
      (tokOK_sym (by decide) reads_rbrack (toks_preds r h.2.2 hR hS)) (stop_cons (by simp)))
end

/-- a written path is read as its tokens -/
theorem tokenize_render {p : PPath} (h : p.Ok) : tokenize p.render = p.toks := by
  have := toks_path p (R := []) h trivial stop_nil
  rw [List.append_nil] at this
  exact tokenize_toks this

/-! ### The end of a path -/

/-- the last character is not `/` -/
def Ends (s : Str) : Prop := ∃ pre c, s = pre ++ [c] ∧ c ≠ '/'

theorem ends_append {a b : Str} (h : Ends b) : Ends (a ++ b) := by
  obtain ⟨p, c, rfl, hc⟩ := h
  exact ⟨a ++ p, c, by simp, hc⟩

theorem ends_name {n : Str} (h : PlainName n ∨ n = lit! "*") : Ends n := by
  rcases h with h | rfl
  · obtain ⟨c, cs, rfl, _⟩ := h.last
    refine ⟨cs, c, rfl, ?_⟩
    rintro rfl
    have := h.chars '/' (by simp)
    revert this; decide
  · exact ⟨[], '*', rfl, by decide⟩

theorem ends_node {n : PNode} (h : n.Ok) : Ends n.toks.flatten := by
  cases n with
  | child n => simpa [PNode.toks] using ends_name h
  | desc n => simpa [PNode.toks] using ends_append (a := lit! "//") (ends_name h)
  | attr n => simpa [PNode.toks] using ends_append (a := lit! "@") (ends_name h)
  | parent => exact ⟨['.'], '.', rfl, by decide⟩
  | self => exact ⟨[], '.', rfl, by decide⟩
  | fn f a =>
    cases a with
    | none => exact ⟨f ++ ['('], ')', by simp [PNode.toks], by decide⟩
    | some a => exact ⟨f ++ '(' :: quote a, ')', by simp [PNode.toks], by decide⟩
  | alts a => exact ⟨'(' :: a.toks.flatten, ')', by simp [PNode.toks], by decide⟩

theorem ends_preds : ∀ (ps : PPreds) {s : Str}, Ends s → Ends (s ++ ps.toks.flatten)
  | .nil, s, h => by simpa [PPreds.toks] using h
  | .eq p v r, s, h => by
    have := ends_preds r (s := s ++ ('[' :: (p.toks.flatten ++ '=' :: (quote v ++ [']'])))) ⟨s ++ ('[' :: (p.toks.flatten ++ '=' :: quote v)), ']', by simp, by decide⟩
    simpa [PPreds.toks] using this
  | .ne p v r, s, h => by
    have := ends_preds r (s := s ++ ('[' :: (p.toks.flatten ++ '!' :: '=' :: (quote v ++ [']'])))) ⟨s ++ ('[' :: (p.toks.flatten ++ '!' :: '=' :: quote v)), ']', by simp, by decide⟩
    simpa [PPreds.toks] using this
  | .ex p r, s, h => by
    have := ends_preds r (s := s ++ ('[' :: (p.toks.flatten ++ [']']))) ⟨s ++ ('[' :: p.toks.flatten), ']', by simp, by decide⟩
    simpa [PPreds.toks] using this

theorem ends_steps : ∀ (s : PSteps), s.Ok → Ends s.toks.flatten
  | .last n ps, h => by simpa [PSteps.toks] using ends_preds ps (ends_node h.1)
  | .more n ps r, h => by
    rw [PSteps.toks, List.flatten_append, List.flatten_append, List.flatten_append]
    exact ends_append (ends_append (ends_append (ends_steps r h.2.2)))

theorem ends_path {p : PPath} (h : p.Ok) : Ends p.render := by
  cases p with
  | rel s => exact ends_steps s h.1
  | abs s =>
    rw [PPath.render, PPath.toks, List.flatten_append]
    exact ends_append (ends_steps s h)
  | group a => exact ⟨'(' :: a.toks.flatten, ')', by simp [PPath.render, PPath.toks], by decide⟩

theorem render_end {p : PPath} (h : p.Ok) : p.render.getLast? ≠ some '/' := by
  obtain ⟨pre, c, e, hc⟩ := ends_path h
  rw [e]; simp [hc]

theorem render_ne {p : PPath} (h : p.Ok) : p.render ≠ [] := by
  obtain ⟨pre, c, e, hc⟩ := ends_path h
  rw [e]; simp

end
end Xigt.XP
