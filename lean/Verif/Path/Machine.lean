import Verif.Path.Lemmas
import Verif.Xml.Indent
/- What a written path finds, by its structure. -/

set_option linter.unusedSectionVars false

namespace Xigt.XP
section
variable [Uni]

/-! ### Results by structure -/

/-- go through the objects at once -/
def force (f : PV → Py (List PV)) (g : Gen) : Gen :=
  .ofPy (do
    let ls ← mapPy f g.vals
    match g.err with
    | some e => .error e
    | none => .ok ls.flatten)

mutual
def denPath (c : PCfg) : PPath → PV → Gen
  | .rel s, v => denSteps c s ⟨[v], none⟩
  | .abs s, v =>
    match getCorpus v with
    | .error e => .fail e
    | .ok x => denSteps c s ⟨[x], none⟩
  | .group a, v => .ofPy (denAlts c a v)
def denSteps (c : PCfg) : PSteps → Gen → Gen
  | .last n ps, g => denPreds c ps (denNode c n g)
  | .more n ps r, g => denSteps c r (denPreds c ps (denNode c n g))
def denNode (c : PCfg) : PNode → Gen → Gen
  | .child n, g => g.bind fun v => .ofPy (findChild v n)
  | .desc n, g => g.bind fun v => descSelf v n
  | .attr n, g => g.bind fun v => .ofPy (findAttr v n)
  | .parent, g => g.bind fun v => .ofPy ((parentOf v).map fun p => [p])
  | .self, g => g
  | .fn f none, g => g.bind fun v => .ofPy (function c v f [])
  | .fn f (some a), g => g.bind fun v => .ofPy (function c v f [quote a])
  | .alts a, g => force (denAlts c a) g
def denAlts (c : PCfg) : PAlts → PV → Py (List PV)
  | .one p, v => (denPath c p v).toList
  | .more p r, v =>
    match (denPath c p v).toList with
    | .error e => .error e
    | .ok l => match denAlts c r v with
      | .error e => .error e
      | .ok l' => .ok (l ++ l')
def denPreds (c : PCfg) : PPreds → Gen → Gen
  | .nil, g => g
  | .eq p v r, g => denPreds c r (g.filter fun x => (denPath c p x).toList.map fun l => l.any (PV.isStr v))
  | .ne p v r, g => denPreds c r (g.filter fun x => (denPath c p x).toList.map fun l => l.all fun w => !PV.isStr v w)
  | .ex p r, g => denPreds c r (g.filter fun x => (denPath c p x).toList.bind fun _ => .error .typeError)
end

/-! ### Nothing to go through -/

def Dead (g : Gen) : Prop := g.vals = []

theorem force_dead {f : PV → Py (List PV)} {g : Gen} (h : g.vals = []) : force f g = g := by
  obtain ⟨vals, err⟩ := g
  simp only at h; subst h
  cases err <;> rfl

theorem denNode_dead {c} {n : PNode} {g : Gen} (h : g.vals = []) : denNode c n g = g := by
  obtain ⟨vals, err⟩ := g
  simp only at h; subst h
  cases n with
  | alts a => rw [denNode]; exact force_dead rfl
  | fn f a => cases a <;> rfl
  | _ => rfl

theorem denPreds_dead {c} : ∀ {ps : PPreds} {g : Gen}, g.vals = [] → denPreds c ps g = g
  | .nil, g, h => rfl
  | .eq p v r, g, h => by
    obtain ⟨vals, err⟩ := g
    simp only at h; subst h
    rw [denPreds, denPreds_dead (by rfl)]; rfl
  | .ne p v r, g, h => by
    obtain ⟨vals, err⟩ := g
    simp only at h; subst h
    rw [denPreds, denPreds_dead (by rfl)]; rfl
  | .ex p r, g, h => by
    obtain ⟨vals, err⟩ := g
    simp only at h; subst h
    rw [denPreds, denPreds_dead (by rfl)]; rfl

theorem denSteps_dead {c} : ∀ {s : PSteps} {g : Gen}, g.vals = [] → denSteps c s g = g
  | .last n ps, g, h => by rw [denSteps, denNode_dead h, denPreds_dead h]
  | .more n ps r, g, h => by rw [denSteps, denNode_dead h, denPreds_dead h, denSteps_dead h]

/-! ### Predicates -/

/-- `sub` finds what paths without predicates say -/
def SubOK (c : PCfg) (sub : PV → Str → Gen) : Prop := ∀ p : PPath, p.Ok → p.NoPred → ∀ v, sub v p.render = denPath c p v

/-- tokens inside of the path of a predicate -/
def Inner (t : Str) : Prop := predEnd t = false

theorem predEnd_cases {t : Str} : predEnd t = true ↔ t = lit! "]" ∨ t = lit! "=" ∨ t = lit! "!=" := by
  simp [predEnd, or_assoc]

theorem name_inner {n : Str} (h : PlainName n ∨ n = lit! "*") : predEnd n = false := by
  cases e : predEnd n with
  | false => rfl
  | true =>
    rw [predEnd_cases] at e
    rcases h with h | rfl
    · have hc := h.chars
      rcases e with rfl | rfl | rfl <;> revert hc <;> decide
    · revert e; decide

theorem kw_inner {f : Str} (h : f ∈ keywords) : predEnd f = false := by
  simp only [keywords, List.mem_cons, List.not_mem_nil, or_false] at h
  rcases h with rfl | rfl | rfl | rfl <;> decide

theorem quote_inner {v : Str} : predEnd (quote v) = false := by
  simp [predEnd, quote]

theorem isNil_toks {ps : PPreds} (h : ps.isNil = true) : ps.toks = [] := by
  cases ps <;> simp [PPreds.isNil] at h; rfl

theorem sep_inner {s : PSteps} {t} (h : t ∈ sep s) : predEnd t = false := by
  rw [sep] at h
  split at h
  · cases h
  · simp at h; subst h; decide

mutual
theorem inner_path : ∀ (p : PPath), p.Ok → p.NoPred → ∀ t ∈ p.toks, predEnd t = false
  | .rel s, h, hn, t, ht => inner_steps s h.1 hn t ht
  | .abs s, h, hn, t, ht => by
    rw [PPath.toks, List.mem_append] at ht
    rcases ht with ht | ht
    · exact sep_inner ht
    · exact inner_steps s h hn t ht
  | .group a, h, hn, t, ht => by
    rw [PPath.toks, List.mem_cons, List.mem_append, List.mem_singleton] at ht
    rcases ht with rfl | ht | rfl
    · decide
    · exact inner_alts a h hn t ht
    · decide
theorem inner_steps : ∀ (s : PSteps), s.Ok → s.NoPred → ∀ t ∈ s.toks, predEnd t = false
  | .last n ps, h, hn, t, ht => by
    rw [PSteps.toks, isNil_toks hn.2, List.append_nil] at ht
    exact inner_node n h.1 hn.1 t ht
  | .more n ps r, h, hn, t, ht => by
    rw [PSteps.toks, isNil_toks hn.2.1, List.nil_append, List.mem_append, List.mem_append] at ht
    rcases ht with ht | ht | ht
    · exact inner_node n h.1 hn.1 t ht
    · exact sep_inner ht
    · exact inner_steps r h.2.2 hn.2.2 t ht
theorem inner_node : ∀ (n : PNode), n.Ok → n.NoPred → ∀ t ∈ n.toks, predEnd t = false
  | .child n, h, hn, t, ht => by
    rw [PNode.toks, List.mem_singleton] at ht; subst ht; exact name_inner h
  | .desc n, h, hn, t, ht => by
    rw [PNode.toks, List.mem_cons, List.mem_singleton] at ht
    rcases ht with rfl | rfl
    · decide
    · exact name_inner h
  | .attr n, h, hn, t, ht => by
    rw [PNode.toks, List.mem_cons, List.mem_singleton] at ht
    rcases ht with rfl | rfl
    · decide
    · exact name_inner h
  | .parent, h, hn, t, ht => by rw [PNode.toks, List.mem_singleton] at ht; subst ht; decide
  | .self, h, hn, t, ht => by rw [PNode.toks, List.mem_singleton] at ht; subst ht; decide
  | .fn f none, h, hn, t, ht => by
    simp only [PNode.toks, List.mem_cons, List.not_mem_nil, or_false] at ht
    rcases ht with rfl | rfl | rfl
    · exact kw_inner h
    · decide
    · decide
  | .fn f (some a), h, hn, t, ht => by
    simp only [PNode.toks, List.mem_cons, List.not_mem_nil, or_false] at ht
    rcases ht with rfl | rfl | rfl | rfl
    · exact kw_inner h.1
    · decide
    · exact quote_inner
    · decide
  | .alts a, h, hn, t, ht => by
    rw [PNode.toks, List.mem_cons, List.mem_append, List.mem_singleton] at ht
    rcases ht with rfl | ht | rfl
    · decide
    · exact inner_alts a h hn t ht
    · decide
theorem inner_alts : ∀ (a : PAlts), a.Ok → a.NoPred → ∀ t ∈ a.toks, predEnd t = false
  | .one p, h, hn, t, ht => inner_path p h.1 hn t ht
  | .more p r, h, hn, t, ht => by
    rw [PAlts.toks, List.mem_append, List.mem_cons] at ht
    rcases ht with ht | rfl | ht
    · exact inner_path p h.1 hn.1 t ht
    · decide
    · exact inner_alts r h.2.2 hn.2 t ht
end

theorem takeWhile_all {α} {q : α → Bool} {l : List α} {e : α} {r : List α} (h : ∀ x ∈ l, q x = true) (he : q e = false) :
    (l ++ e :: r).takeWhile q = l ∧ (l ++ e :: r).dropWhile q = e :: r := by
  induction l with
  | nil => simp [he]
  | cons x l ih =>
    have := ih fun y hy => h y (by simp [hy])
    simp [h x (by simp), this]

theorem strip_quoted {v : Str} (h : Quotable v) : stripChars (lit! "\"") (quote v) = v := by
  have h1 : ∀ {w : Str} , '"' ∉ w → w.dropWhile (fun c => (lit! "\"").contains c) = w := by
    intro w hw
    cases w with
    | nil => rfl
    | cons c w =>
      have : c ≠ '"' := fun e => hw (by simp [e])
      simp [this]
  have h2 : (v ++ ['"']).dropWhile (fun c => (lit! "\"").contains c) = if v = [] then [] else v ++ ['"'] := by
    cases v with
    | nil => simp
    | cons c w =>
      have : c ≠ '"' := fun e => h.1 (by simp [e])
      simp [this]
  rw [stripChars, quote, List.dropWhile_cons_of_pos (by simp), h2]
  split
  · rename_i e; subst e; rfl
  · rw [List.reverse_append, List.reverse_singleton, List.singleton_append, List.dropWhile_cons_of_pos (by simp),
      h1 (by simpa using h.1), List.reverse_reverse]

theorem predsT {c} {sub} : ∀ (ps : PPreds) {n g R}, ps.Ok → (ps.isNil = true ∨ SubOK c sub) → R.head? ≠ some (lit! "[") →
    (ps.toks ++ R).length ≤ n → predLoop sub n g (ps.toks ++ R) = .ok (denPreds c ps g, R)
  | .nil, n, g, R, _, _, hR, hn => by
    rw [PPreds.toks, List.nil_append, denPreds]
    cases n with
    | zero =>
      cases R with
      | nil => rfl
      | cons t R => simp [PPreds.toks] at hn
    | succ n =>
      cases R with
      | nil => rfl
      | cons t R =>
        have : t ≠ lit! "[" := by simpa using hR
        rw [predLoop, if_neg this]
  | .eq p v r, n, g, R, hok, hs, hR, hn => by
    have hs' : SubOK c sub := by rcases hs with h | h; · simp [PPreds.isNil] at h
                                 exact h
    obtain ⟨h1, h2, h3, h4⟩ := hok
    cases n with
    | zero => simp [PPreds.toks] at hn
    | succ n =>
      have hw := takeWhile_all (q := fun t => !predEnd t) (l := p.toks) (e := lit! "=") (r := quote v :: lit! "]" :: (r.toks ++ R))
        (fun t ht => by simp [inner_path p h1 h2 t ht]) (by decide)
      have e : PPreds.toks (.eq p v r) ++ R = lit! "[" :: (p.toks ++ lit! "=" :: quote v :: lit! "]" :: (r.toks ++ R)) := by
        simp [PPreds.toks]
      have hl : (r.toks ++ R).length ≤ n := by rw [e] at hn; simp at hn ⊢; omega
      rw [e, predLoop, if_pos rfl]
      simp only [predTest, hw.1, hw.2]
      rw [if_neg (by decide), if_pos trivial, strip_quoted h3]
      show predLoop sub n _ _ = _
      rw [predsT r h4 (Or.inr hs') hR hl, denPreds]
      congr 3
      congr 1
      funext x
      have := hs' p h1 h2 x
      rw [PPath.render] at this
      simp only [this]
      cases (denPath c p x).toList <;> rfl
  | .ne p v r, n, g, R, hok, hs, hR, hn => by
    have hs' : SubOK c sub := by rcases hs with h | h; · simp [PPreds.isNil] at h
                                 exact h
    obtain ⟨h1, h2, h3, h4⟩ := hok
    cases n with
    | zero => simp [PPreds.toks] at hn
    | succ n =>
      have hw := takeWhile_all (q := fun t => !predEnd t) (l := p.toks) (e := lit! "!=") (r := quote v :: lit! "]" :: (r.toks ++ R))
        (fun t ht => by simp [inner_path p h1 h2 t ht]) (by decide)
      have e : PPreds.toks (.ne p v r) ++ R = lit! "[" :: (p.toks ++ lit! "!=" :: quote v :: lit! "]" :: (r.toks ++ R)) := by
        simp [PPreds.toks]
      have hl : (r.toks ++ R).length ≤ n := by rw [e] at hn; simp at hn ⊢; omega
      rw [e, predLoop, if_pos rfl]
      simp only [predTest, hw.1, hw.2]
      rw [if_neg (by decide), if_neg (by decide), strip_quoted h3]
      show predLoop sub n _ _ = _
      rw [predsT r h4 (Or.inr hs') hR hl, denPreds]
      congr 3
      congr 1
      funext x
      have := hs' p h1 h2 x
      rw [PPath.render] at this
      simp only [this]
      cases (denPath c p x).toList <;> rfl
  | .ex p r, n, g, R, hok, hs, hR, hn => by
    have hs' : SubOK c sub := by rcases hs with h | h; · simp [PPreds.isNil] at h
                                 exact h
    obtain ⟨h1, h2, h4⟩ := hok
    cases n with
    | zero => simp [PPreds.toks] at hn
    | succ n =>
      have hw := takeWhile_all (q := fun t => !predEnd t) (l := p.toks) (e := lit! "]") (r := r.toks ++ R)
        (fun t ht => by simp [inner_path p h1 h2 t ht]) (by decide)
      have e : PPreds.toks (.ex p r) ++ R = lit! "[" :: (p.toks ++ lit! "]" :: (r.toks ++ R)) := by
        simp [PPreds.toks]
      have hl : (r.toks ++ R).length ≤ n := by rw [e] at hn; simp at hn ⊢; omega
      rw [e, predLoop, if_pos rfl]
      simp only [predTest, hw.1, hw.2]
      rw [if_pos trivial]
      show predLoop sub n _ _ = _
      rw [predsT r h4 (Or.inr hs') hR hl, denPreds]
      congr 3
      congr 1
      funext x
      have := hs' p h1 h2 x
      rw [PPath.render] at this
      simp only [this]
      cases (denPath c p x).toList <;> rfl

/-! ### Steps -/

/-- what follows a path -/
def EndR (R : List Str) : Prop := R.head? ≠ some (lit! "[") ∧ R.head? ≠ some (lit! "/") ∧ R.head? ≠ some (lit! "//")

theorem endR_nil : EndR [] := by simp [EndR]
theorem endR_cons {t : Str} {R : List Str} (h : t ≠ lit! "[" ∧ t ≠ lit! "/" ∧ t ≠ lit! "//") : EndR (t :: R) := by
  simpa [EndR] using h

/-- xigtpath.py:141-146: after the predicates -/
def cont (c : PCfg) (sub : PV → Str → Gen) (n : Nat) (g : Gen) : List Str → Gen × List Str
  | [] => (g, [])
  | t :: ts =>
    if t = lit! "/" then step c sub n g ts
    else if t = lit! "//" then step c sub n g (t :: ts)
    else (g, t :: ts)

theorem cont_end {c sub n g} {R : List Str} (h : EndR R) : cont c sub n g R = (g, R) := by
  cases R with
  | nil => rfl
  | cons t R =>
    obtain ⟨_, h2, h3⟩ := h
    simp only [List.head?_cons, ne_eq, Option.some.injEq] at h2 h3
    rw [cont, if_neg h2, if_neg h3]

theorem sep_head {s : PSteps} {R : List Str} : (sep s ++ (s.toks ++ R)).head? ≠ some (lit! "[") := by
  rw [sep]
  split
  · rename_i h
    cases s with
    | last n ps =>
      cases n <;> simp [PSteps.first, PNode.isDesc] at h
      simp [PSteps.toks, PNode.toks]
    | more n ps r =>
      cases n <;> simp [PSteps.first, PNode.isDesc] at h
      simp [PSteps.toks, PNode.toks]
  · simp

theorem cont_sep {c sub n g} {s : PSteps} {R : List Str} : cont c sub n g (sep s ++ (s.toks ++ R)) = step c sub n g (s.toks ++ R) := by
  rw [sep]
  split
  · rename_i h
    cases s with
    | last n ps =>
      cases n <;> simp [PSteps.first, PNode.isDesc] at h
      simp [PSteps.toks, PNode.toks, cont]
    | more n ps r =>
      cases n <;> simp [PSteps.first, PNode.isDesc] at h
      simp [PSteps.toks, PNode.toks, cont]
  · simp [cont]

theorem step_eq {c sub n g t ts g1} {ps : PPreds} {R : List Str} (h : node c (altLoop c sub n) g t ts = .ok (g1, ps.toks ++ R))
    (hok : ps.Ok) (hs : ps.isNil = true ∨ SubOK c sub) (hR : R.head? ≠ some (lit! "[")) :
    step c sub (n + 1) g (t :: ts) = cont c sub n (denPreds c ps g1) R := by
  rw [step]
  simp only [h, predsT ps hok hs hR (Nat.le_refl _)]
  cases R <;> rfl

theorem name_ne_sym {n t : Str} (h : PlainName n ∨ n = lit! "*") (ht : t ∈ symbols) (hs : t ≠ lit! "*") : n ≠ t := by
  rintro rfl
  rcases h with h | h
  · have h1 := h.kw
    have h2 := h.chars
    obtain ⟨c, cs, e, h3, h4, h5, _⟩ := h.head
    simp only [symbols, List.mem_cons, List.not_mem_nil, or_false] at ht
    rcases ht with rfl | rfl | rfl | rfl | rfl | rfl | rfl | rfl | rfl | rfl | rfl | rfl | rfl | rfl | rfl | rfl | rfl
    · cases e; exact h4 rfl
    iterate 7 revert h2; decide
    · exact hs rfl
    iterate 4 revert h2; decide
    iterate 4 revert h1; decide
  · exact hs h

/-- a step that is not a disjunction -/
theorem nodeT {c alt g} {n : PNode} {R : List Str} (h : n.Ok) (ha : n.isAlts = false) :
    ∃ t ts, n.toks ++ R = t :: ts ∧ node c alt g t ts = .ok (denNode c n g, R) := by
  cases n with
  | child n =>
    refine ⟨n, R, rfl, ?_⟩
    have := fun t => name_ne_sym (n := n) (t := t) h
    rw [node.eq_def, if_neg (this _ (by decide) (by decide)), if_neg (this _ (by decide) (by decide)),
      if_neg (this _ (by decide) (by decide)), if_neg (this _ (by decide) (by decide)),
      if_neg (this _ (by decide) (by decide)), if_neg, denNode]
    simp [this (lit! "text") (by decide) (by decide), this (lit! "value") (by decide) (by decide),
      this (lit! "referent") (by decide) (by decide), this (lit! "referrer") (by decide) (by decide)]
  | desc n => exact ⟨lit! "//", n :: R, rfl, rfl⟩
  | attr n => exact ⟨lit! "@", n :: R, rfl, rfl⟩
  | parent => exact ⟨lit! "..", R, rfl, rfl⟩
  | self => exact ⟨lit! ".", R, rfl, rfl⟩
  | alts a => simp [PNode.isAlts] at ha
  | fn f a =>
    have hf : f ∈ keywords := by
      cases a with
      | none => exact h
      | some a => exact h.1
    simp only [keywords, List.mem_cons, List.not_mem_nil, or_false] at hf
    cases a with
    | none =>
      refine ⟨f, lit! "(" :: lit! ")" :: R, rfl, ?_⟩
      rcases hf with rfl | rfl | rfl | rfl <;> rfl
    | some a =>
      refine ⟨f, lit! "(" :: quote a :: lit! ")" :: R, rfl, ?_⟩
      have hq : quote a ≠ lit! ")" := by simp [quote]
      rcases hf with rfl | rfl | rfl | rfl <;> simp [node, hq, denNode]

theorem preds_sub {c sub} {n : PNode} {ps : PPreds} (hs : PSteps.NoPred (.last n ps) ∨ SubOK c sub) : ps.isNil = true ∨ SubOK c sub := by
  rcases hs with h | h
  · exact Or.inl h.2
  · exact Or.inr h
theorem preds_sub' {c sub} {n : PNode} {ps : PPreds} {r} (hs : PSteps.NoPred (.more n ps r) ∨ SubOK c sub) : ps.isNil = true ∨ SubOK c sub := by
  rcases hs with h | h
  · exact Or.inl h.2.1
  · exact Or.inr h
theorem rest_sub {c sub} {n : PNode} {ps : PPreds} {r} (hs : PSteps.NoPred (.more n ps r) ∨ SubOK c sub) : r.NoPred ∨ SubOK c sub := by
  rcases hs with h | h
  · exact Or.inl h.2.2
  · exact Or.inr h

theorem sep_length {s : PSteps} : (sep s).length ≤ 1 := by rw [sep]; split <;> simp

theorem node_len {n : PNode} : 1 ≤ n.toks.length := by
  rcases n with _ | _ | _ | _ | _ | ⟨_, _ | _⟩ | _ <;> simp [PNode.toks]

/-- steps without disjunctions -/
theorem plainT {c sub} : ∀ (s : PSteps) {n g R}, s.Ok → s.NoAlts → (s.NoPred ∨ SubOK c sub) → EndR R →
    3 * (s.toks ++ R).length + 1 ≤ n → step c sub n g (s.toks ++ R) = (denSteps c s g, R)
  | .last nd ps, 0, g, R, h, ha, hs, hR, hn => by omega
  | .last nd ps, n + 1, g, R, h, ha, hs, hR, hn => by
    obtain ⟨t, ts, e, hnode⟩ := nodeT (c := c) (alt := altLoop c sub n) (g := g) (R := ps.toks ++ R) h.1 ha
    rw [PSteps.toks, List.append_assoc, e, step_eq hnode h.2 (preds_sub hs) hR.1, cont_end hR, denSteps]
  | .more nd ps r, 0, g, R, h, ha, hs, hR, hn => by omega
  | .more nd ps r, n + 1, g, R, h, ha, hs, hR, hn => by
    obtain ⟨t, ts, e, hnode⟩ := nodeT (c := c) (alt := altLoop c sub n) (g := g) (R := ps.toks ++ (sep r ++ (r.toks ++ R))) h.1 ha.1
    have e' : PSteps.toks (.more nd ps r) ++ R = nd.toks ++ (ps.toks ++ (sep r ++ (r.toks ++ R))) := by simp [PSteps.toks]
    have hl : 3 * (r.toks ++ R).length + 1 ≤ n := by
      rw [e'] at hn
      have := node_len (n := nd)
      simp only [List.length_append] at hn ⊢; omega
    rw [e', e, step_eq hnode h.2.1 (preds_sub' hs) sep_head, cont_sep, plainT r h.2.2 ha.2 (rest_sub hs) hR hl, denSteps]

/-! ### Disjunctions -/

theorem disj_of {alt : PV → List Str → Py (List PV × List Str)} {f : PV → Py (List PV)} {ts R : List Str} {g : Gen}
    (h : ∀ v, alt v ts = (f v).map fun l => (l, R)) (hg : g.vals ≠ []) :
    disj alt g ts = (do
      let ls ← mapPy f g.vals
      match g.err with
      | some e => Except.error e
      | none => .ok ls.flatten : Py (List PV)).map fun l => (l, R) := by
  obtain ⟨vals, err⟩ := g
  cases vals with
  | nil => exact absurd rfl hg
  | cons v vs =>
    have e : (fun w => (alt w ts).map Prod.fst) = f := by
      funext w; rw [h w]; cases f w <;> rfl
    simp only [disj, e, h v, mapPy]
    cases f v with
    | error x => rfl
    | ok l =>
      simp only [Except.map, bind, Except.bind]
      cases mapPy f vs with
      | error x => rfl
      | ok ls => cases err <;> rfl

/-- the disjunction as a step, with something to go through -/
theorem nodeAlts {c} {alt : PV → List Str → Py (List PV × List Str)} {a : PAlts} {ts R : List Str} {g : Gen}
    (h : ∀ v, alt v ts = (denAlts c a v).map fun l => (l, R)) (hg : g.vals ≠ []) :
    node c alt g (lit! "(") ts = .ok (denNode c (.alts a) g, R) ∨
      ∃ e, node c alt g (lit! "(") ts = .error e ∧ denNode c (.alts a) g = .fail e := by
  rw [node.eq_def, if_pos rfl, disj_of h hg, denNode, force]
  generalize (do
      let ls ← mapPy (denAlts c a) g.vals
      match g.err with
      | some e => Except.error e
      | none => .ok ls.flatten : Py (List PV)) = x
  cases x with
  | error e => exact Or.inr ⟨e, rfl, rfl⟩
  | ok l => exact Or.inl rfl

theorem fail_dead {e} : (Gen.fail e).vals = [] := rfl

theorem expr_paren {c sub n v ts} : expr c sub (n + 1) v (lit! "(" :: ts) =
    (match disj (altLoop c sub n) ⟨[v], none⟩ ts with
      | .error e => (Gen.fail e, [])
      | .ok (l, r) => (⟨l, none⟩, r)) := by
  rw [expr, if_pos rfl]
  rfl

theorem expr_abs {c sub n v R} {s : PSteps} : expr c sub (n + 1) v (sep s ++ (s.toks ++ R)) =
    (match getCorpus v with
      | .error e => (Gen.fail e, [])
      | .ok x => step c sub n ⟨[x], none⟩ (s.toks ++ R)) := by
  rw [sep]
  split
  · rename_i h
    cases s with
    | last nd ps =>
      cases nd <;> simp [PSteps.first, PNode.isDesc] at h
      simp only [PSteps.toks, PNode.toks, List.nil_append, List.cons_append]
      rw [expr, if_neg (by decide), if_pos (by decide), if_neg (by decide)]
      rfl
    | more nd ps r =>
      cases nd <;> simp [PSteps.first, PNode.isDesc] at h
      simp only [PSteps.toks, PNode.toks, List.nil_append, List.cons_append]
      rw [expr, if_neg (by decide), if_pos (by decide), if_neg (by decide)]
      rfl
  · rw [List.singleton_append, expr, if_neg (by decide), if_pos (by decide), if_pos rfl]
    rfl

/-- how steps begin -/
theorem node_head {n : PNode} {R : List Str} (h : n.Ok) (hd : n.isDesc = false) (ha : n.isAlts = false) :
    ∃ t ts, n.toks ++ R = t :: ts ∧ t ≠ lit! "(" ∧ t ≠ lit! "/" ∧ t ≠ lit! "//" ∧ t ≠ lit! "[" := by
  cases n with
  | child n =>
    have := fun t => name_ne_sym (n := n) (t := t) h
    exact ⟨n, R, rfl, this _ (by decide) (by decide), this _ (by decide) (by decide), this _ (by decide) (by decide),
      this _ (by decide) (by decide)⟩
  | desc n => simp [PNode.isDesc] at hd
  | alts n => simp [PNode.isAlts] at ha
  | attr n => exact ⟨lit! "@", n :: R, rfl, by decide, by decide, by decide, by decide⟩
  | parent => exact ⟨lit! "..", R, rfl, by decide, by decide, by decide, by decide⟩
  | self => exact ⟨lit! ".", R, rfl, by decide, by decide, by decide, by decide⟩
  | fn f a =>
    have hf : f ∈ keywords := by
      cases a with
      | none => exact h
      | some a => exact h.1
    have : f ≠ lit! "(" ∧ f ≠ lit! "/" ∧ f ≠ lit! "//" ∧ f ≠ lit! "[" := by
      simp only [keywords, List.mem_cons, List.not_mem_nil, or_false] at hf
      rcases hf with rfl | rfl | rfl | rfl <;> decide
    cases a with
    | none => exact ⟨f, _, rfl, this⟩
    | some a => exact ⟨f, _, rfl, this⟩

theorem steps_head {s : PSteps} {R : List Str} (h : s.Ok) (hd : s.first.isDesc = false) (ha : s.first.isAlts = false) :
    ∃ t ts, s.toks ++ R = t :: ts ∧ t ≠ lit! "(" ∧ t ≠ lit! "/" ∧ t ≠ lit! "//" ∧ t ≠ lit! "[" := by
  cases s with
  | last n ps => rw [PSteps.toks, List.append_assoc]; exact node_head h.1 hd ha
  | more n ps r => rw [PSteps.toks, List.append_assoc]; exact node_head h.1 hd ha

theorem expr_rel {c sub n v R} {s : PSteps} (h : s.Ok) (hd : s.first.isDesc = false) (ha : s.first.isAlts = false) :
    expr c sub (n + 1) v (s.toks ++ R) = step c sub n ⟨[v], none⟩ (s.toks ++ R) := by
  obtain ⟨t, ts, e, h1, h2, h3, _⟩ := steps_head (R := R) h hd ha
  rw [e, expr, if_neg h1, if_neg]
  simp [h2, h3]

theorem tight_noAlts {s : PSteps} (h : s.Tight) (ha : s.first.isAlts = false) : s.NoAlts := by
  cases s with
  | last n ps => exact ha
  | more n ps r => exact ⟨ha, h⟩

/-- what is found, and what is left unless there is an exception -/
def Is (x : Gen × List Str) (g : Gen) (R : List Str) : Prop := x.1 = g ∧ (g.err = none → x.2 = R)

theorem is_fail {e R} : Is (Gen.fail e, []) (Gen.fail e) R := ⟨rfl, fun h => by simp [Gen.fail] at h⟩

theorem alts_sub {c sub} {a : PAlts} {ps : PPreds} (hs : PSteps.NoPred (.last (.alts a) ps) ∨ SubOK c sub) : a.NoPred ∨ SubOK c sub := by
  rcases hs with h | h
  · exact Or.inl h.1
  · exact Or.inr h
theorem alts_sub' {c sub} {a : PAlts} {ps : PPreds} {r} (hs : PSteps.NoPred (.more (.alts a) ps r) ∨ SubOK c sub) : a.NoPred ∨ SubOK c sub := by
  rcases hs with h | h
  · exact Or.inl h.1
  · exact Or.inr h

theorem step_fail {c sub n g t ts e} (h : node c (altLoop c sub n) g t ts = .error e) : step c sub (n + 1) g (t :: ts) = (.fail e, []) := by
  rw [step]; simp only [h]

mutual
/-- the alternatives for one object -/
theorem altsT {c sub} : ∀ (a : PAlts) {n v R}, a.Ok → (a.NoPred ∨ SubOK c sub) → 3 * (a.toks ++ lit! ")" :: R).length + 3 ≤ n →
    altLoop c sub n v (a.toks ++ lit! ")" :: R) = (denAlts c a v).map fun l => (l, R)
  | _, 0, v, R, _, _, hn => by omega
  | .one p, n + 1, v, R, h, hs, hn => by
    have := pathT p (n := n) (v := v) (R := lit! ")" :: R) h.1 h.2 hs (endR_cons (by decide)) (by rw [PAlts.toks] at hn; omega)
    rw [altLoop, PAlts.toks, this.1, denAlts, Gen.toList]
    cases he : (denPath c p v).err with
    | some e => rfl
    | none => simp only [this.2 he]; rfl
  | .more p r, n + 1, v, R, h, hs, hn => by
    have e : PAlts.toks (.more p r) ++ lit! ")" :: R = p.toks ++ lit! "|" :: (r.toks ++ lit! ")" :: R) := by simp [PAlts.toks]
    rw [e] at hn
    have h1 := pathT p (n := n) (v := v) (R := lit! "|" :: (r.toks ++ lit! ")" :: R)) h.1 h.2.1
      (by rcases hs with h | h; · exact Or.inl h.1
          exact Or.inr h) (endR_cons (by decide)) (by omega)
    have h2 := altsT r (n := n) (v := v) (R := R) h.2.2
      (by rcases hs with h | h; · exact Or.inl h.2
          exact Or.inr h) (by simp only [List.length_append, List.length_cons] at hn ⊢; omega)
    rw [altLoop, e, h1.1, denAlts, Gen.toList]
    cases he : (denPath c p v).err with
    | some e => rfl
    | none =>
      simp only [h1.2 he, h2, if_true]
      cases denAlts c r v <;> rfl
theorem pathT {c sub} : ∀ (p : PPath) {n v R}, p.Ok → p.Tight → (p.NoPred ∨ SubOK c sub) → EndR R →
    3 * (p.toks ++ R).length + 2 ≤ n → Is (expr c sub n v (p.toks ++ R)) (denPath c p v) R
  | _, 0, v, R, _, _, _, _, hn => by omega
  | .rel s, n + 1, v, R, h, ht, hs, hR, hn => by
    rw [PPath.toks] at hn
    rw [PPath.toks, expr_rel h.1 h.2.1 h.2.2, plainT s h.1 (tight_noAlts ht h.2.2) hs hR (by omega), denPath]
    exact ⟨rfl, fun _ => rfl⟩
  | .abs s, n + 1, v, R, h, ht, hs, hR, hn => by
    rw [PPath.toks, List.append_assoc] at hn
    rw [PPath.toks, List.append_assoc, expr_abs, denPath]
    cases getCorpus v with
    | error e => exact is_fail
    | ok x => exact tightT s h ht hs hR (by simp) (by simp only [List.length_append] at hn ⊢; omega)
  | .group a, n + 1, v, R, h, ht, hs, hR, hn => by
    have e : PPath.toks (.group a) ++ R = lit! "(" :: (a.toks ++ lit! ")" :: R) := by simp [PPath.toks]
    rw [e] at hn ⊢
    have := fun w => altsT a (n := n) (v := w) (R := R) h hs (by simp only [List.length_cons] at hn; omega)
    rw [expr_paren, disj_of this (by simp), denPath]
    simp only [mapPy]
    cases denAlts c a v with
    | error e => exact is_fail
    | ok l =>
      refine ⟨?_, fun _ => rfl⟩
      simp [Gen.ofPy, Except.map, bind, Except.bind, pure, Except.pure]
theorem tightT {c sub} : ∀ (s : PSteps) {n g R}, s.Ok → s.Tight → (s.NoPred ∨ SubOK c sub) → EndR R → g.vals ≠ [] →
    3 * (s.toks ++ R).length + 1 ≤ n → Is (step c sub n g (s.toks ++ R)) (denSteps c s g) R
  | _, 0, v, R, _, _, _, _, _, hn => by omega
  | .last (.alts a) ps, n + 1, g, R, h, ht, hs, hR, hg, hn => by
    have e : PSteps.toks (.last (.alts a) ps) ++ R = lit! "(" :: (a.toks ++ lit! ")" :: (ps.toks ++ R)) := by
      simp [PSteps.toks, PNode.toks]
    rw [e] at hn ⊢
    have := fun w => altsT a (n := n) (v := w) (R := ps.toks ++ R) h.1 (alts_sub hs) (by simp only [List.length_cons] at hn; omega)
    rcases nodeAlts this hg with hnode | ⟨x, hnode, hf⟩
    · rw [step_eq hnode h.2 (preds_sub hs) hR.1, cont_end hR, denSteps]
      exact ⟨rfl, fun _ => rfl⟩
    · rw [step_fail hnode, denSteps, hf, denPreds_dead fail_dead]
      exact is_fail
  | .more (.alts a) ps r, n + 1, g, R, h, ht, hs, hR, hg, hn => by
    have e : PSteps.toks (.more (.alts a) ps r) ++ R = lit! "(" :: (a.toks ++ lit! ")" :: (ps.toks ++ (sep r ++ (r.toks ++ R)))) := by
      simp [PSteps.toks, PNode.toks]
    rw [e] at hn ⊢
    have := fun w => altsT a (n := n) (v := w) (R := ps.toks ++ (sep r ++ (r.toks ++ R))) h.1 (alts_sub' hs)
      (by simp only [List.length_cons] at hn; omega)
    rcases nodeAlts this hg with hnode | ⟨x, hnode, hf⟩
    · rw [step_eq hnode h.2.1 (preds_sub' hs) sep_head, cont_sep, denSteps,
        plainT r h.2.2 ht (rest_sub hs) hR (by simp only [List.length_append, List.length_cons] at hn ⊢; omega)]
      exact ⟨rfl, fun _ => rfl⟩
    · rw [step_fail hnode, denSteps, hf, denPreds_dead fail_dead, denSteps_dead fail_dead]
      exact is_fail
  | .last (.child m) ps, n + 1, g, R, h, ht, hs, hR, hg, hn => by
    rw [plainT _ h (tight_noAlts ht rfl) hs hR hn]; exact ⟨rfl, fun _ => rfl⟩
  | .last (.desc m) ps, n + 1, g, R, h, ht, hs, hR, hg, hn => by
    rw [plainT _ h (tight_noAlts ht rfl) hs hR hn]; exact ⟨rfl, fun _ => rfl⟩
  | .last (.attr m) ps, n + 1, g, R, h, ht, hs, hR, hg, hn => by
    rw [plainT _ h (tight_noAlts ht rfl) hs hR hn]; exact ⟨rfl, fun _ => rfl⟩
  | .last .parent ps, n + 1, g, R, h, ht, hs, hR, hg, hn => by
    rw [plainT _ h (tight_noAlts ht rfl) hs hR hn]; exact ⟨rfl, fun _ => rfl⟩
  | .last .self ps, n + 1, g, R, h, ht, hs, hR, hg, hn => by
    rw [plainT _ h (tight_noAlts ht rfl) hs hR hn]; exact ⟨rfl, fun _ => rfl⟩
  | .last (.fn _ _) ps, n + 1, g, R, h, ht, hs, hR, hg, hn => by
    rw [plainT _ h (tight_noAlts ht rfl) hs hR hn]; exact ⟨rfl, fun _ => rfl⟩
  | .more (.child m) ps r, n + 1, g, R, h, ht, hs, hR, hg, hn => by
    rw [plainT _ h (tight_noAlts ht rfl) hs hR hn]; exact ⟨rfl, fun _ => rfl⟩
  | .more (.desc m) ps r, n + 1, g, R, h, ht, hs, hR, hg, hn => by
    rw [plainT _ h (tight_noAlts ht rfl) hs hR hn]; exact ⟨rfl, fun _ => rfl⟩
  | .more (.attr m) ps r, n + 1, g, R, h, ht, hs, hR, hg, hn => by
    rw [plainT _ h (tight_noAlts ht rfl) hs hR hn]; exact ⟨rfl, fun _ => rfl⟩
  | .more .parent ps r, n + 1, g, R, h, ht, hs, hR, hg, hn => by
    rw [plainT _ h (tight_noAlts ht rfl) hs hR hn]; exact ⟨rfl, fun _ => rfl⟩
  | .more .self ps r, n + 1, g, R, h, ht, hs, hR, hg, hn => by
    rw [plainT _ h (tight_noAlts ht rfl) hs hR hn]; exact ⟨rfl, fun _ => rfl⟩
  | .more (.fn _ _) ps r, n + 1, g, R, h, ht, hs, hR, hg, hn => by
    rw [plainT _ h (tight_noAlts ht rfl) hs hR hn]; exact ⟨rfl, fun _ => rfl⟩
end

/-! ### Nothing left to go through -/

def deadG : Gen := ⟨[], none⟩

theorem nodeDead {c alt} {n : PNode} {R : List Str} (h : n.Ok) (ha : n.isAlts = false) :
    ∃ t ts, n.toks ++ R = t :: ts ∧ node c alt deadG t ts = .ok (deadG, R) := by
  obtain ⟨t, ts, e, h⟩ := nodeT (c := c) (alt := alt) (g := deadG) (R := R) h ha
  exact ⟨t, ts, e, by rw [h, denNode_dead rfl]⟩

theorem step_dead_alts {c sub n} {a : PAlts} {R : List Str} (ha : (a.toks ++ R).head? ≠ some (lit! "[")) :
    step c sub (n + 1) deadG (lit! "(" :: (a.toks ++ R)) = cont c sub n deadG (a.toks ++ R) :=
  step_eq (ps := .nil) (g1 := deadG) rfl trivial (Or.inl rfl) ha

theorem path_head {p : PPath} {R : List Str} (h : p.Ok) : (p.toks ++ R).head? ≠ some (lit! "[") := by
  cases p with
  | rel s =>
    obtain ⟨t, ts, e, _, _, _, h4⟩ := steps_head (R := R) h.1 h.2.1 h.2.2
    rw [PPath.toks, e]; simpa using h4
  | abs s => rw [PPath.toks, List.append_assoc]; exact sep_head
  | group a => simp [PPath.toks]

theorem alts_head {a : PAlts} {R : List Str} (h : a.Ok) : (a.toks ++ R).head? ≠ some (lit! "[") := by
  cases a with
  | one p => exact path_head h.1
  | more p r => rw [PAlts.toks, List.append_assoc]; exact path_head h.1

mutual
theorem deadAlts {c sub} : ∀ (a : PAlts) {n R}, a.Ok → (a.NoPred ∨ SubOK c sub) → 3 * (a.toks ++ lit! ")" :: R).length + 1 ≤ n →
    (cont c sub n deadG (a.toks ++ lit! ")" :: R)).1 = deadG
  | .one p, n, R, h, hs, hn => deadPath p h.1 hs (endR_cons (by decide)) hn
  | .more p r, n, R, h, hs, hn => by
    have e : PAlts.toks (.more p r) ++ lit! ")" :: R = p.toks ++ lit! "|" :: (r.toks ++ lit! ")" :: R) := by simp [PAlts.toks]
    rw [e] at hn ⊢
    exact deadPath p h.1 (by rcases hs with h | h; · exact Or.inl h.1
                             exact Or.inr h) (endR_cons (by decide)) hn
theorem deadPath {c sub} : ∀ (p : PPath) {n R}, p.Ok → (p.NoPred ∨ SubOK c sub) → EndR R → 3 * (p.toks ++ R).length + 1 ≤ n →
    (cont c sub n deadG (p.toks ++ R)).1 = deadG
  | .rel s, n, R, h, hs, hR, hn => by
    obtain ⟨t, ts, e, _, h2, h3, h4⟩ := steps_head (R := R) h.1 h.2.1 h.2.2
    rw [PPath.toks, e, cont_end (endR_cons ⟨h4, h2, h3⟩)]
  | .abs s, n, R, h, hs, hR, hn => by
    rw [PPath.toks, List.append_assoc] at hn ⊢
    rw [cont_sep]
    exact deadSteps s h hs hR (by simp only [List.length_append] at hn ⊢; omega)
  | .group a, n, R, h, hs, hR, hn => by
    rw [PPath.toks, List.cons_append, cont_end (endR_cons (by decide))]
theorem deadSteps {c sub} : ∀ (s : PSteps) {n R}, s.Ok → (s.NoPred ∨ SubOK c sub) → EndR R → 3 * (s.toks ++ R).length + 1 ≤ n →
    (step c sub n deadG (s.toks ++ R)).1 = deadG
  | _, 0, R, _, _, _, hn => by omega
  | .last nd ps, n + 1, R, h, hs, hR, hn => by
    by_cases ha : nd.isAlts = false
    · obtain ⟨t, ts, e, hnode⟩ := nodeDead (c := c) (alt := altLoop c sub n) (R := ps.toks ++ R) h.1 ha
      rw [PSteps.toks, List.append_assoc, e, step_eq hnode h.2 (preds_sub hs) hR.1, cont_end hR, denPreds_dead rfl]
    · match nd with
      | .alts a =>
        have e : PSteps.toks (.last (.alts a) ps) ++ R = lit! "(" :: (a.toks ++ lit! ")" :: (ps.toks ++ R)) := by
          simp [PSteps.toks, PNode.toks]
        rw [e] at hn ⊢
        rw [step_dead_alts (alts_head h.1)]
        exact deadAlts a h.1 (alts_sub hs) (by simp only [List.length_cons] at hn; omega)
      | .child _ | .desc _ | .attr _ | .parent | .self | .fn _ _ => exact absurd rfl ha
  | .more nd ps r, n + 1, R, h, hs, hR, hn => by
    by_cases ha : nd.isAlts = false
    · obtain ⟨t, ts, e, hnode⟩ := nodeDead (c := c) (alt := altLoop c sub n) (R := ps.toks ++ (sep r ++ (r.toks ++ R))) h.1 ha
      have e' : PSteps.toks (.more nd ps r) ++ R = nd.toks ++ (ps.toks ++ (sep r ++ (r.toks ++ R))) := by simp [PSteps.toks]
      have hl : 3 * (r.toks ++ R).length + 1 ≤ n := by
        rw [e'] at hn
        have := node_len (n := nd)
        simp only [List.length_append] at hn ⊢; omega
      rw [e', e, step_eq hnode h.2.1 (preds_sub' hs) sep_head, cont_sep, denPreds_dead rfl]
      exact deadSteps r h.2.2 (rest_sub hs) hR hl
    · match nd with
      | .alts a =>
        have e : PSteps.toks (.more (.alts a) ps r) ++ R = lit! "(" :: (a.toks ++ lit! ")" :: (ps.toks ++ (sep r ++ (r.toks ++ R)))) := by
          simp [PSteps.toks, PNode.toks]
        rw [e] at hn ⊢
        rw [step_dead_alts (alts_head h.1)]
        exact deadAlts a h.1 (alts_sub' hs) (by simp only [List.length_cons] at hn; omega)
      | .child _ | .desc _ | .attr _ | .parent | .self | .fn _ _ => exact absurd rfl ha
end

/-! ### All paths -/

theorem stepsT {c sub} : ∀ (s : PSteps) {n g R}, s.Ok → (s.NoPred ∨ SubOK c sub) → EndR R →
    3 * (s.toks ++ R).length + 1 ≤ n → (step c sub n g (s.toks ++ R)).1 = denSteps c s g
  | _, 0, g, R, _, _, _, hn => by omega
  | .last nd ps, n + 1, g, R, h, hs, hR, hn => by
    by_cases hg : g.vals = []
    · rw [denSteps_dead hg]
      obtain ⟨vals, err⟩ := g
      simp only at hg; subst hg
      cases err with
      | none => exact deadSteps _ h hs hR hn
      | some e =>
        by_cases ha : nd.isAlts = false
        · rw [plainT (.last nd ps) h ha hs hR hn, denSteps_dead rfl]
        · match nd with
          | .alts a =>
            have e' : PSteps.toks (.last (.alts a) ps) ++ R = lit! "(" :: (a.toks ++ lit! ")" :: (ps.toks ++ R)) := by
              simp [PSteps.toks, PNode.toks]
            rw [e', step_fail (e := e) rfl]; rfl
          | .child _ | .desc _ | .attr _ | .parent | .self | .fn _ _ => exact absurd rfl ha
    · exact (tightT (.last nd ps) h trivial hs hR hg hn).1
  | .more nd ps r, n + 1, g, R, h, hs, hR, hn => by
    have e' : PSteps.toks (.more nd ps r) ++ R = nd.toks ++ (ps.toks ++ (sep r ++ (r.toks ++ R))) := by simp [PSteps.toks]
    have hl : 3 * (r.toks ++ R).length + 1 ≤ n := by
      rw [e'] at hn
      have := node_len (n := nd)
      simp only [List.length_append] at hn ⊢; omega
    by_cases ha : nd.isAlts = false
    · obtain ⟨t, ts, e, hnode⟩ := nodeT (c := c) (alt := altLoop c sub n) (g := g) (R := ps.toks ++ (sep r ++ (r.toks ++ R))) h.1 ha
      rw [e', e, step_eq hnode h.2.1 (preds_sub' hs) sep_head, cont_sep, stepsT r h.2.2 (rest_sub hs) hR hl, denSteps]
    · match nd with
      | .alts a =>
        by_cases hg : g.vals = []
        · obtain ⟨vals, err⟩ := g
          simp only at hg; subst hg
          rw [denSteps_dead rfl]
          cases err with
          | none => exact deadSteps _ h hs hR hn
          | some e =>
            have e'' : PSteps.toks (.more (.alts a) ps r) ++ R = lit! "(" :: (a.toks ++ lit! ")" :: (ps.toks ++ (sep r ++ (r.toks ++ R)))) := by
              simp [PSteps.toks, PNode.toks]
            rw [e'', step_fail (e := e) rfl]; rfl
        · have e : PSteps.toks (.more (.alts a) ps r) ++ R = lit! "(" :: (a.toks ++ lit! ")" :: (ps.toks ++ (sep r ++ (r.toks ++ R)))) := by
            simp [PSteps.toks, PNode.toks]
          rw [e] at hn ⊢
          have := fun w => altsT a (n := n) (v := w) (R := ps.toks ++ (sep r ++ (r.toks ++ R))) h.1 (alts_sub' hs)
            (by simp only [List.length_cons] at hn; omega)
          rcases nodeAlts this hg with hnode | ⟨x, hnode, hf⟩
          · rw [step_eq hnode h.2.1 (preds_sub' hs) sep_head, cont_sep, denSteps, stepsT r h.2.2 (rest_sub hs) hR hl]
          · rw [step_fail hnode, denSteps, hf, denPreds_dead fail_dead, denSteps_dead fail_dead]
      | .child _ | .desc _ | .attr _ | .parent | .self | .fn _ _ => exact absurd rfl ha

theorem exprT {c sub} {p : PPath} {n v} (h : p.Ok) (hs : p.NoPred ∨ SubOK c sub) (hn : 3 * p.toks.length + 2 ≤ n) :
    (expr c sub n v p.toks).1 = denPath c p v := by
  cases p with
  | group a => simpa using (pathT (.group a) (R := []) h trivial hs endR_nil (by simpa using hn)).1
  | rel s =>
    cases n with
    | zero => omega
    | succ n =>
      have := expr_rel (c := c) (sub := sub) (n := n) (v := v) (R := []) h.1 h.2.1 h.2.2
      rw [List.append_nil] at this
      rw [PPath.toks] at hn ⊢
      rw [this, denPath]
      simpa using stepsT s (R := []) h.1 hs endR_nil (by simp; omega)
  | abs s =>
    cases n with
    | zero => omega
    | succ n =>
      have := expr_abs (c := c) (sub := sub) (n := n) (v := v) (R := []) (s := s)
      simp only [List.append_nil] at this
      rw [PPath.toks] at hn ⊢
      rw [this, denPath]
      cases getCorpus v with
      | error e => rfl
      | ok x => simpa using stepsT s (R := []) h hs endR_nil (by simp at hn ⊢; omega)

theorem iterfindN_render {c n} {p : PPath} {v} (h : p.Ok) (hs : p.NoPred ∨ SubOK c (iterfindN c n)) :
    iterfindN c (n + 1) v p.render = denPath c p v := by
  rw [iterfindN, if_neg (render_end h), tokenize_render h, ← exprT h hs (Nat.le_refl _)]
  have : p.toks ≠ [] := by
    intro e
    have := render_ne h
    rw [PPath.render, e] at this
    exact this rfl
  cases hp : p.toks with
  | nil => exact absurd hp this
  | cons t ts => rfl

theorem subOK {c n} : SubOK c (iterfindN c (n + 1)) := fun _ h hn _ => iterfindN_render h (Or.inl hn)

/-- what a written path finds -/
theorem iterfind_render {c} {p : PPath} {v} (h : p.Ok) : iterfind c v p.render = denPath c p v := by
  rw [iterfind]
  cases hl : p.render.length with
  | zero => exact absurd (List.length_eq_zero_iff.1 hl) (render_ne h)
  | succ k => exact iterfindN_render h (Or.inr subOK)

theorem findall_render {c} {p : PPath} {v} (h : p.Ok) : findall c v p.render = (denPath c p v).toList := by
  rw [findall, iterfind_render h]

end
end Xigt.XP
