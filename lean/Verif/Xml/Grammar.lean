import Verif.Xml.Document
/-
C113: nothing else is read.  If a text is read, it is a document.
-/

set_option linter.unusedSectionVars false

namespace Xigt.Mu

/-! ### Open elements -/

theorem filled_nil (f : Frame) : filled f [] = f := by
  simp only [filled, leadText, elems]
  split
  · rename_i h; cases f; simp at h; simp [h]
  · rename_i h; cases f; simp at h; simp [h, addTails_nil]

theorem filled_cons (f : Frame) (m : Node) (ms : List Node) : filled f (m :: ms) = filled (filled f [m]) ms := by
  cases hd : m.datum with
  | some t =>
    simp only [filled, leadText, elems, hd]
    cases hk : f.kids with
    | nil => simp
    | cons k ks => simp [addTails_append]
  | none =>
    obtain ⟨tag, attrs, text, kids, hm⟩ := elem'_tail m
    simp only [filled, leadText, elems, hd, hm]
    cases hk : f.kids with
    | nil => simp [withTail, addTails, someText]
    | cons k ks => simp [withTail, addTails, someText]

theorem filled_append (f : Frame) (a b : List Node) : filled f (a ++ b) = filled (filled f a) b := by
  induction a generalizing f with
  | nil => rw [filled_nil]; rfl
  | cons m a ih => rw [List.cons_append, filled_cons, ih, ← filled_cons]

theorem filled_datum (f : Frame) (m : Node) {t : Str} (h : m.datum = some t) : filled f [m] = f.adds t := by
  simp only [filled, leadText, elems, h]
  cases hk : f.kids with
  | nil => rw [Frame.adds_nil_kids f t hk]; simp [hk]
  | cons k ks => rw [Frame.adds_cons f t k ks hk]; simp

theorem filled_elem (f : Frame) (m : Node) (h : m.datum = none) : filled f [m] = { f with kids := m.elem' :: f.kids } := by
  obtain ⟨tag, attrs, text, kids, hm⟩ := elem'_tail m
  simp only [filled, leadText, elems, h, hm]
  cases hk : f.kids with
  | nil => simp [withTail, someText]
  | cons k ks => cases k; simp [withTail, someText, addTails]

theorem shows_append (a b : List Node) : shows (a ++ b) = shows a ++ shows b := by
  induction a with
  | nil => rfl
  | cons m a ih => simp [shows, ih]

/-- a start tag and the parts after it -/
structure Open where
  tag : Str
  attrs : List Att
  sp : Str
  kids : List Node

def Open.show (o : Open) : Str := '<' :: (o.tag ++ (o.attrs.flatMap Att.show ++ (o.sp ++ ('>' :: shows o.kids))))

structure Open.OK (o : Open) : Prop where
  tag : NameLike o.tag
  attrs : ∀ a ∈ o.attrs, a.OK
  keys : (o.attrs.map Att.key).Nodup
  sp : Spaces o.sp
  kids : ∀ k ∈ o.kids, k.OK

def Open.frame (o : Open) : Frame := filled ⟨o.tag, o.attrs.map Att.pair, [], []⟩ o.kids

/-- the reader is between the parts of a document, and this was read -/
inductive Pos : List Frame → Option Elem → Str → Prop
  | out {bs : List Node} : (∀ m ∈ bs, m.OK ∧ Misc m) → Pos [] none (shows bs)
  | done {bs : List Node} {m : Node} {as : List Node} : (∀ m ∈ bs, m.OK ∧ Misc m) → m.OK → m.datum = none → (∀ m ∈ as, m.OK ∧ Misc m) →
      Pos [] (some m.elem') (shows bs ++ (m.show ++ shows as))
  | within {st : List Frame} {u : Str} {o : Open} : Pos st none u → o.OK → Pos (o.frame :: st) none (u ++ o.show)

theorem Pos.noRoot {f : Frame} {st : List Frame} {root : Option Elem} {u : Str} (h : Pos (f :: st) root u) : root = none := by
  cases h; rfl

/-- something around the root -/
theorem Pos.around {root : Option Elem} {u : Str} (h : Pos [] root u) {m : Node} (hm : m.OK) (hmi : Misc m) : Pos [] root (u ++ m.show) := by
  cases h with
  | @out bs h =>
    have : shows bs ++ m.show = shows (bs ++ [m]) := by rw [shows_append]; simp [shows]
    rw [this]
    refine .out fun x hx => ?_
    rcases List.mem_append.1 hx with hx | hx
    · exact h x hx
    · cases List.mem_singleton.1 hx; exact ⟨hm, hmi⟩
  | @done bs n as h1 h2 h3 h4 =>
    have : shows bs ++ (n.show ++ shows as) ++ m.show = shows bs ++ (n.show ++ shows (as ++ [m])) := by rw [shows_append]; simp [shows]
    rw [this]
    refine .done h1 h2 h3 fun x hx => ?_
    rcases List.mem_append.1 hx with hx | hx
    · exact h4 x hx
    · cases List.mem_singleton.1 hx; exact ⟨hm, hmi⟩

theorem Pos.add {f : Frame} {st : List Frame} {root : Option Elem} {u : Str} (h : Pos (f :: st) root u) {m : Node} (hm : m.OK) :
    Pos (filled f [m] :: st) root (u ++ m.show) := by
  cases h with
  | @within _ v o h ho =>
    have e1 : (Open.mk o.tag o.attrs o.sp (o.kids ++ [m])).frame = filled o.frame [m] := by
      simp only [Open.frame]; rw [filled_append]
    have e2 : (v ++ o.show) ++ m.show = v ++ (Open.mk o.tag o.attrs o.sp (o.kids ++ [m])).show := by
      simp [Open.show, shows_append, shows]
    rw [e2, ← e1]
    refine .within h ⟨ho.tag, ho.attrs, ho.keys, ho.sp, fun x hx => ?_⟩
    rcases List.mem_append.1 hx with hx | hx
    · exact ho.kids x hx
    · cases List.mem_singleton.1 hx; exact hm

/-- character data -/
theorem Pos.datum {f : Frame} {st : List Frame} {root : Option Elem} {u : Str} (h : Pos (f :: st) root u) {m : Node} (hm : m.OK) {t : Str}
    (ht : m.datum = some t) : Pos (f.adds t :: st) root (u ++ m.show) := by
  rw [← filled_datum f m ht]; exact h.add hm

/-- comments and processing instructions -/
theorem Pos.misc {st : List Frame} {root : Option Elem} {u : Str} (h : Pos st root u) {m : Node} (hm : m.OK) (hmi : Misc m)
    (ht : m.datum = some []) : Pos st root (u ++ m.show) := by
  cases st with
  | nil => exact h.around hm hmi
  | cons f st => exact h.datum hm ht

/-- an element -/
theorem Pos.elem {st : List Frame} {root : Option Elem} {u : Str} (h : Pos st root u) (h0 : st = [] → root = none) {m : Node} (hm : m.OK)
    (ht : m.datum = none) (mode : RdMode) :
    Pos (Rd.attach ⟨mode, st, root⟩ m.elem').stack (Rd.attach ⟨mode, st, root⟩ m.elem').root (u ++ m.show) := by
  cases st with
  | nil =>
    cases h0 rfl
    cases h with
    | @out bs h =>
      have := Pos.done h hm ht (as := []) (by intro m hm; cases hm)
      simpa [Rd.attach, shows] using this
  | cons f st =>
    have := h.add hm
    rw [filled_elem f m ht] at this
    exact this

/-! ### What was read -/

/-- a start tag, up to white space after the last attribute -/
def InTag (st : List Frame) (root : Option Elem) (n : Str) (as : Dict Str Str) (sp u : Str) : Prop :=
  ∃ (v : Str) (atts : List Att), Pos st root v ∧ (st = [] → root = none) ∧ NameLike n ∧ (∀ a ∈ atts, Att.OK a) ∧ as = atts.map Att.pair ∧ Spaces sp ∧
    u = v ++ ('<' :: (n ++ (atts.flatMap Att.show ++ sp)))

def InAtt (st : List Frame) (root : Option Elem) (n : Str) (as : Dict Str Str) (k u : Str) : Prop :=
  ∃ sp, InTag st root n as sp u ∧ sp ≠ [] ∧ NameLike k

/-- the text that brings the reader where it is -/
def At (r : Rd) (u : Str) : Prop :=
  match r.mode with
  | .content => Pos r.stack r.root u
  | .ref s => ∃ v, Pos r.stack r.root v ∧ r.stack ≠ [] ∧ ';' ∉ s ∧ u = v ++ ('&' :: s)
  | .lt => ∃ v, Pos r.stack r.root v ∧ u = v ++ ['<']
  | .name n => InTag r.stack r.root n [] [] u
  | .tag n as w => ∃ sp, InTag r.stack r.root n as sp u ∧ (w = true → sp ≠ [])
  | .attr n as k => ∃ v, InAtt r.stack r.root n as k v ∧ u = v ++ k
  | .eq n as k => ∃ v s1, InAtt r.stack r.root n as k v ∧ Spaces s1 ∧ u = v ++ (k ++ s1)
  | .quote n as k => ∃ v s1 s2, InAtt r.stack r.root n as k v ∧ Spaces s1 ∧ Spaces s2 ∧ u = v ++ (k ++ (s1 ++ ('=' :: s2)))
  | .value n as k q w => ∃ (v s1 s2 : Str) (vs : List VPart), InAtt r.stack r.root n as k v ∧ Spaces s1 ∧ Spaces s2 ∧ (q = '"' ∨ q = '\'') ∧ (∀ x ∈ vs, VPart.OK q x) ∧
      w = vs.flatMap VPart.value ∧ u = v ++ (k ++ (s1 ++ ('=' :: (s2 ++ (q :: vs.flatMap VPart.show)))))
  | .vref n as k q w s => ∃ (v s1 s2 : Str) (vs : List VPart), InAtt r.stack r.root n as k v ∧ Spaces s1 ∧ Spaces s2 ∧ (q = '"' ∨ q = '\'') ∧ (∀ x ∈ vs, VPart.OK q x) ∧
      w = vs.flatMap VPart.value ∧ ';' ∉ s ∧ u = v ++ (k ++ (s1 ++ ('=' :: (s2 ++ (q :: (vs.flatMap VPart.show ++ ('&' :: s)))))))
  | .empty n as => ∃ sp v, InTag r.stack r.root n as sp v ∧ u = v ++ ['/']
  | .close n => ∃ v, Pos r.stack r.root v ∧ u = v ++ ('<' :: '/' :: n)
  | .closed n => ∃ v sp, Pos r.stack r.root v ∧ Spaces sp ∧ u = v ++ ('<' :: '/' :: (n ++ sp))
  | .bang s => ∃ v, Pos r.stack r.root v ∧ u = v ++ ('<' :: '!' :: s)
  | .comment d => ∃ v s, Pos r.stack r.root v ∧ d ≤ 2 ∧ Chars s ∧ ¬ lit! "--" <:+: s ++ ['-'] ∧ u = v ++ (lit! "<!--" ++ (s ++ List.replicate d '-'))
  | .cdata d => ∃ v f st s, Pos (f :: st) r.root v ∧ r.stack = f.adds s :: st ∧ d ≤ 2 ∧ Chars s ∧ ¬ lit! "]]>" <:+: s ∧
      (d < 2 → s.getLast? ≠ some ']') ∧ u = v ++ (lit! "<![CDATA[" ++ (s ++ List.replicate d ']'))
  | .target t => ∃ v, Pos r.stack r.root v ∧ (∀ c ∈ t, nameEnd c = false) ∧ u = v ++ ('<' :: '?' :: t)
  | .pi q => ∃ v t s, Pos r.stack r.root v ∧ NameLike t ∧ targetOK t = true ∧ Chars s ∧ ¬ lit! "?>" <:+: s ∧
      (∃ c s', s = c :: s' ∧ xmlSpace c = true) ∧ (q = true → s.getLast? = some '?') ∧ (q = false → s.getLast? ≠ some '?') ∧ u = v ++ ('<' :: '?' :: (t ++ s))
  | .piEnd => ∃ v t, Pos r.stack r.root v ∧ NameLike t ∧ targetOK t = true ∧ u = v ++ ('<' :: '?' :: (t ++ ['?']))

/-! ### Adding a character at the end -/

theorem vac {α : Type} {P : α → Prop} : ∀ x ∈ ([] : List α), P x := by intro _ h; cases h

theorem spaces_snoc {s : Str} {c : Char} (hs : Spaces s) (hc : xmlSpace c = true) : Spaces (s ++ [c]) := by
  intro d hd
  rcases List.mem_append.1 hd with h | h
  · exact hs d h
  · cases List.mem_singleton.1 h; exact hc

theorem chars_snoc {s : Str} {c : Char} (hs : Chars s) (hc : isXmlChar c = true) : Chars (s ++ [c]) := by
  intro d hd
  rcases List.mem_append.1 hd with h | h
  · exact hs d h
  · cases List.mem_singleton.1 h; exact hc

theorem nameLike_snoc {s : Str} {c : Char} (hs : ∀ d ∈ s, nameEnd d = false) (hc : nameEnd c = false) : NameLike (s ++ [c]) := by
  refine ⟨by simp, fun d hd => ?_⟩
  rcases List.mem_append.1 hd with h | h
  · exact hs d h
  · cases List.mem_singleton.1 h; exact hc

/-- what is new is at the end -/
theorem infix_snoc {a s : Str} {c : Char} (h : a <:+: s ++ [c]) : a <:+: s ∨ a <:+ s ++ [c] := by
  obtain ⟨x, y, e⟩ := h
  rcases List.eq_nil_or_concat y with rfl | ⟨y', d, rfl⟩
  · exact .inr ⟨x, by simpa using e⟩
  · left
    rw [List.concat_eq_append, ← List.append_assoc] at e
    exact ⟨x, y', (List.append_inj' e rfl).1⟩

theorem suffix_pair {a b c : Char} {s : Str} (h : [a, b] <:+ s ++ [c]) : b = c ∧ s.getLast? = some a := by
  obtain ⟨x, e⟩ := h
  have e' : (x ++ [a]) ++ [b] = s ++ [c] := by simpa using e
  obtain ⟨h1, h2⟩ := List.append_inj' e' rfl
  refine ⟨by simpa using h2, ?_⟩
  rw [← h1]; simp

theorem suffix_three {a b d c : Char} {s : Str} (h : [a, b, d] <:+ s ++ [c]) : d = c ∧ [a, b] <:+ s := by
  obtain ⟨x, e⟩ := h
  have e' : (x ++ [a, b]) ++ [d] = s ++ [c] := by simpa using e
  obtain ⟨h1, h2⟩ := List.append_inj' e' rfl
  exact ⟨by simpa using h2, x, h1⟩

/-! ### One character -/

theorem step_tag {st : List Frame} {root : Option Elem} {m : RdMode} {n : Str} {as : Dict Str Str} {w : Bool} {sp u : Str} {c : Char} {r' : Rd}
    (h : InTag st root n as sp u) (hw : w = true → sp ≠ []) (hs : Rd.inTag ⟨m, st, root⟩ n as w c = .ok r') : At r' (u ++ [c]) := by
  unfold Rd.inTag at hs
  obtain ⟨v, atts, h1, h2, h3, h4, h5, h6, rfl⟩ := id h
  split at hs
  · cases hs
    rename_i hc
    refine ⟨sp ++ [c], ⟨v, atts, h1, h2, h3, h4, h5, spaces_snoc h6 hc, by simp⟩, by simp⟩
  split at hs
  · rename_i hc
    subst hc
    split at hs
    · cases hs
      rename_i hk
      show Pos _ _ _
      have h0 : root = none := by
        cases st with
        | nil => exact h2 rfl
        | cons f st => exact h1.noRoot
      subst h0
      have := Pos.within (o := ⟨n, atts, sp, []⟩) h1 ⟨h3, h4, by rw [← att_keys, ← h5]; exact hk, h6, vac⟩
      rw [Open.frame, filled_nil] at this
      simp only [← h5, Open.show, shows] at this
      simpa using this
    · cases hs
  split at hs
  · cases hs
    rename_i hc
    subst hc
    exact ⟨sp, _, h, rfl⟩
  split at hs
  · cases hs
    rename_i hc
    rw [Bool.and_eq_true] at hc
    refine ⟨_, ⟨sp, h, hw hc.1, by simp, ?_⟩, rfl⟩
    intro d hd
    cases List.mem_singleton.1 hd
    simpa using hc.2
  · cases hs

theorem end_pos {st : List Frame} {root : Option Elem} {m : RdMode} {n sp v : Str} {r' : Rd}
    (h : Pos st root v) (hsp : Spaces sp) (hs : Rd.end ⟨m, st, root⟩ n = .ok r') : At r' (v ++ ('<' :: '/' :: (n ++ sp)) ++ ['>']) := by
  unfold Rd.end at hs
  cases h with
  | out => cases hs
  | done => cases hs
  | @within st v o h ho =>
    have e0 : o.frame = ⟨o.tag, o.attrs.map Att.pair, leadText o.kids, (elems o.kids).reverse⟩ := by simp [Open.frame, filled]
    rw [e0] at hs
    simp only [List.reverse_reverse] at hs
    split at hs
    · rename_i hn
      injection hs with hs
      have hnode : (Node.elem o.tag o.attrs o.sp false o.kids sp).OK := .elem ho.tag ho.attrs ho.keys ho.sp hsp ho.kids (by simp)
      have h0 : st = [] → (none : Option Elem) = none := fun _ => rfl
      have := h.elem h0 hnode rfl m
      rw [Node.elem'] at this
      rw [← hs]
      have e : v ++ o.show ++ ('<' :: '/' :: (n ++ sp)) ++ ['>'] = v ++ (Node.elem o.tag o.attrs o.sp false o.kids sp).show := by
        rw [← hn]; simp [Open.show, Node.show]
      rw [e]
      cases st <;> (simp only [Rd.attach] at this ⊢; exact this)
    · cases hs

theorem step_at {r r' : Rd} {u : Str} {c : Char} (h : At r u) (hs : r.step c = .ok r') : At r' (u ++ [c]) := by
  obtain ⟨mode, st, root⟩ := r
  unfold Rd.step at hs
  cases mode with
  | content =>
    replace h : Pos st root u := h
    simp only at hs
    split at hs
    · cases hs
      rename_i hc; subst hc
      exact ⟨u, h, rfl⟩
    rename_i hc1
    split at hs
    · rename_i hc; subst hc
      split at hs
      · cases hs
      · cases hs
        rename_i hne
        exact ⟨u, h, by intro e; simp_all, by simp, rfl⟩
    rename_i hc2
    unfold Rd.data at hs
    cases st with
    | nil =>
      simp only at hs
      split at hs
      · cases hs
        rename_i hc
        have hsp : Spaces [c] := by intro d hd; cases List.mem_singleton.1 hd; exact hc
        have := h.around (m := .chars [c]) (.chars (fun d hd => space_char (hsp d hd)) (by simpa using Ne.symm hc1) (by simpa using Ne.symm hc2)) (.space hsp)
        rw [Node.show] at this
        exact this
      · cases hs
    | cons f st =>
      simp only at hs
      split at hs
      · cases hs
        rename_i hc
        have := h.datum (m := .chars [c]) (.chars (by intro d hd; cases List.mem_singleton.1 hd; exact hc) (by simpa using Ne.symm hc1) (by simpa using Ne.symm hc2)) rfl
        rw [Node.show] at this
        exact this
      · cases hs
  | ref s =>
    obtain ⟨v, h1, h2, h3, rfl⟩ := h
    simp only at hs
    split at hs
    · rename_i hc; subst hc
      split at hs
      · rename_i d hd
        cases st with
        | nil => exact absurd rfl h2
        | cons f st =>
          simp only [Rd.data, refChar_xml hd, if_true] at hs
          cases hs
          have := h1.datum (m := .ref s) (.ref h3 (by rw [hd]; simp)) rfl
          rw [Node.show, hd] at this
          have e : v ++ '&' :: s ++ [';'] = v ++ '&' :: (s ++ [';']) := by simp
          rw [e]
          exact this
      · cases hs
    · cases hs
      rename_i hc
      refine ⟨v, h1, h2, ?_, by simp⟩
      intro hm
      rcases List.mem_append.1 hm with hm | hm
      · exact h3 hm
      · exact hc (List.mem_singleton.1 hm).symm
  | lt =>
    obtain ⟨v, h1, rfl⟩ := h
    simp only at hs
    split at hs
    · cases hs; rename_i hc; subst hc
      exact ⟨v, h1, by simp⟩
    split at hs
    · cases hs; rename_i hc; subst hc
      exact ⟨v, h1, by simp⟩
    split at hs
    · cases hs; rename_i hc; subst hc
      exact ⟨v, h1, by simp, by simp⟩
    split at hs
    · cases hs
    rename_i hc
    split at hs
    · cases hs
    · cases hs
      rename_i hr
      refine ⟨v, [], h1, ?_, ⟨by simp, ?_⟩, vac, rfl, vac, by simp⟩
      · intro e
        cases root with
        | none => rfl
        | some x => exfalso; apply hr; simp only at e; rw [e]; rfl
      · intro d hd; cases List.mem_singleton.1 hd; simpa using hc
  | name n =>
    replace h : InTag st root n [] [] u := h
    simp only at hs
    split at hs
    · exact step_tag h (by simp) hs
    · cases hs
      rename_i hc
      obtain ⟨v, atts, h1, h2, h3, h4, h5, h6, rfl⟩ := h
      have : atts = [] := by cases atts <;> simp_all
      subst this
      exact ⟨v, [], h1, h2, nameLike_snoc h3.2 (by simpa using hc), h4, rfl, h6, by simp⟩
  | tag n as w =>
    obtain ⟨sp, h, hw⟩ := h
    exact step_tag h hw hs
  | attr n as k =>
    obtain ⟨v, h, rfl⟩ := h
    simp only at hs
    split at hs
    · cases hs; rename_i hc; subst hc
      exact ⟨v, [], [], h, vac, vac, by simp⟩
    split at hs
    · cases hs; rename_i hc
      exact ⟨v, [c], h, spaces_snoc (s := []) vac hc, by simp⟩
    split at hs
    · cases hs
    · cases hs; rename_i hc
      obtain ⟨sp, h1, h2, h3⟩ := h
      exact ⟨v, ⟨sp, h1, h2, nameLike_snoc h3.2 (by simpa using hc)⟩, by simp⟩
  | eq n as k =>
    obtain ⟨v, s1, h, h1, rfl⟩ := h
    simp only at hs
    split at hs
    · cases hs; rename_i hc; subst hc
      exact ⟨v, s1, [], h, h1, vac, by simp⟩
    split at hs
    · cases hs; rename_i hc
      exact ⟨v, s1 ++ [c], h, spaces_snoc h1 hc, by simp⟩
    · cases hs
  | quote n as k =>
    obtain ⟨v, s1, s2, h, h1, h2, rfl⟩ := h
    simp only at hs
    split at hs
    · cases hs; rename_i hc
      exact ⟨v, s1, s2, [], h, h1, h2, by simpa using hc, vac, rfl, by simp⟩
    split at hs
    · cases hs; rename_i hc
      exact ⟨v, s1, s2 ++ [c], h, h1, spaces_snoc h2 hc, by simp⟩
    · cases hs
  | value n as k q w =>
    obtain ⟨v, s1, s2, vs, h, h1, h2, h3, h4, h5, rfl⟩ := h
    simp only at hs
    split at hs
    · cases hs; rename_i hc; subst hc
      obtain ⟨sp, ⟨v', atts, g1, g2, g3, g4, g5, g6, rfl⟩, hsp, hk⟩ := h
      refine ⟨[], ⟨v', atts ++ [{ lead := sp, key := k, s1 := s1, s2 := s2, q := c, val := vs }], g1, g2, g3, ?_, ?_, vac, ?_⟩, by simp⟩
      · intro a ha
        rcases List.mem_append.1 ha with ha | ha
        · exact g4 a ha
        · cases List.mem_singleton.1 ha
          exact ⟨hsp, g6, hk, h1, h2, h3, h4⟩
      · rw [g5, h5]; simp [Att.pair]
      · simp [Att.show]
    rename_i hq
    split at hs
    · cases hs; rename_i hc; subst hc
      exact ⟨v, s1, s2, vs, h, h1, h2, h3, h4, h5, by simp, by simp⟩
    rename_i ha
    split at hs
    · cases hs
    rename_i hl
    split at hs
    · cases hs
    · cases hs; rename_i hx
      refine ⟨v, s1, s2, vs ++ [.chr c], h, h1, h2, h3, ?_, by rw [h5]; simp [VPart.value], by simp [VPart.show]⟩
      intro x hm
      rcases List.mem_append.1 hm with hm | hm
      · exact h4 x hm
      · cases List.mem_singleton.1 hm
        exact ⟨hq, ha, hl, by simpa using hx⟩
  | vref n as k q w s =>
    obtain ⟨v, s1, s2, vs, h, h1, h2, h3, h4, h5, h6, rfl⟩ := h
    simp only at hs
    split at hs
    · rename_i hc; subst hc
      split at hs
      · rename_i d hd
        cases hs
        refine ⟨v, s1, s2, vs ++ [.ref s], h, h1, h2, h3, ?_, by rw [h5]; simp [VPart.value, hd], by simp [VPart.show]⟩
        intro x hm
        rcases List.mem_append.1 hm with hm | hm
        · exact h4 x hm
        · cases List.mem_singleton.1 hm
          exact ⟨h6, by rw [hd]; simp⟩
      · cases hs
    · cases hs; rename_i hc
      refine ⟨v, s1, s2, vs, h, h1, h2, h3, h4, h5, ?_, by simp⟩
      intro hm
      rcases List.mem_append.1 hm with hm | hm
      · exact h6 hm
      · exact hc (List.mem_singleton.1 hm).symm
  | empty n as =>
    obtain ⟨sp, v, ⟨v', atts, g1, g2, g3, g4, g5, g6, rfl⟩, rfl⟩ := h
    simp only at hs
    split at hs
    · rename_i hc; subst hc
      split at hs
      · rename_i hk
        injection hs with hs
        have hnode : (Node.elem n atts sp true [] []).OK := .elem g3 g4 (by rw [← att_keys, ← g5]; exact hk) g6 vac vac (fun _ => rfl)
        have := g1.elem g2 hnode rfl (.empty n as)
        rw [Node.elem', ← g5] at this
        rw [← hs]
        have e : v' ++ '<' :: (n ++ (atts.flatMap Att.show ++ sp)) ++ ['/'] ++ ['>'] = v' ++ (Node.elem n atts sp true [] []).show := by
          simp [Node.show]
        rw [e]
        cases st <;> (simp only [Rd.attach] at this ⊢; exact this)
      · cases hs
    · cases hs
  | close n =>
    obtain ⟨v, h1, rfl⟩ := h
    simp only at hs
    split at hs
    · rename_i hc; subst hc
      have := end_pos (sp := []) h1 vac hs
      simpa using this
    split at hs
    · cases hs; rename_i hc
      exact ⟨v, [c], h1, spaces_snoc (s := []) vac hc, by simp⟩
    split at hs
    · cases hs
    · cases hs
      exact ⟨v, h1, by simp⟩
  | closed n =>
    obtain ⟨v, sp, h1, h2, rfl⟩ := h
    simp only at hs
    split at hs
    · rename_i hc; subst hc
      exact end_pos h1 h2 hs
    split at hs
    · cases hs; rename_i hc
      exact ⟨v, sp ++ [c], h1, spaces_snoc h2 hc, by simp⟩
    · cases hs
  | bang s =>
    obtain ⟨v, h1, rfl⟩ := h
    simp only at hs
    have e : ∀ t : Str, s ++ [c] = t → v ++ '<' :: '!' :: s ++ [c] = v ++ '<' :: '!' :: t := by intro t ht; rw [← ht]; simp
    split at hs
    · cases hs; rename_i hc
      rw [e _ hc]
      exact ⟨v, [], h1, by simp, vac, by decide, rfl⟩
    split at hs
    · rename_i hc
      split at hs
      · cases hs
      · cases hs
        rename_i hne
        cases st with
        | nil => exact absurd rfl hne
        | cons f st =>
          rw [e _ hc]
          exact ⟨v, f, st, [], h1, rfl, by simp, vac, by decide, by simp, rfl⟩
    split at hs
    · cases hs
      exact ⟨v, h1, by simp⟩
    · cases hs
  | comment d =>
    obtain ⟨v, s, h1, h2, h3, h4, rfl⟩ := h
    simp only at hs
    split at hs
    · rename_i hd; subst hd
      split at hs
      · rename_i hc; subst hc
        cases hs
        have := h1.misc (m := .comment s) (.comment h3 h4) .comment rfl
        rw [Node.show] at this
        show Pos _ _ _
        have e : v ++ (lit! "<!--" ++ (s ++ List.replicate 2 '-')) ++ ['>'] = v ++ (lit! "<!--" ++ (s ++ lit! "-->")) := by simp [List.replicate]
        rw [e]; exact this
      · cases hs
    rename_i hd
    split at hs
    · cases hs; rename_i hc; subst hc
      exact ⟨v, s, h1, by omega, h3, h4, by rw [List.replicate_succ']; simp⟩
    rename_i hc
    split at hs
    · cases hs; rename_i hx
      refine ⟨v, s ++ List.replicate d '-' ++ [c], h1, by simp, ?_, ?_, by simp⟩
      · refine chars_snoc ?_ hx
        intro y hy
        rcases List.mem_append.1 hy with hy | hy
        · exact h3 y hy
        · cases List.eq_of_mem_replicate hy; decide
      · intro hi
        rcases infix_snoc hi with hi | hi
        · rcases infix_snoc hi with hi | hi
          · have : d = 0 ∨ d = 1 := by omega
            rcases this with rfl | rfl
            · exact h4 (List.IsInfix.trans hi (by simp [List.replicate]; exact List.infix_append' [] s ['-'] |>.trans (by simp)))
            · exact h4 hi
          · exact hc (suffix_pair hi).1.symm
        · have := (suffix_pair hi).2
          simp at this
          exact hc this
    · cases hs
  | cdata d =>
    obtain ⟨v, f, fs, s, h1, h2, h3, h4, h5, h6, rfl⟩ := h
    simp only at h2
    subst h2
    simp only at hs
    have hbr : ∀ x, x ∈ List.replicate d ']' → isXmlChar x = true := by intro x hx; cases List.eq_of_mem_replicate hx; decide
    split at hs
    · rename_i hc; subst hc
      split at hs
      · rename_i hd; subst hd
        have hx : isXmlChar ']' = true := by decide
        simp only [Rd.data, hx, if_true, Except.map] at hs
        cases hs
        refine ⟨v, f, fs, s ++ [']'], h1, ?_, by omega, chars_snoc h4 hx, ?_, by omega, by simp [List.replicate]⟩
        · rw [adds_append]; rfl
        · intro hi
          rcases infix_snoc hi with hi | hi
          · exact h5 hi
          · exact absurd (suffix_three hi).1 (by decide)
      · cases hs
        refine ⟨v, f, fs, s, h1, rfl, by omega, h4, h5, fun h => h6 (by omega), by rw [List.replicate_succ']; simp⟩
    rename_i hc
    split at hs
    · rename_i hc2
      obtain ⟨hc2, rfl⟩ := hc2
      subst hc2
      cases hs
      have := h1.datum (m := .cdata s) (.cdata h4 h5) rfl
      rw [Node.show] at this
      show Pos _ _ _
      have e : v ++ (lit! "<![CDATA[" ++ (s ++ List.replicate 2 ']')) ++ ['>'] = v ++ (lit! "<![CDATA[" ++ (s ++ lit! "]]>")) := by simp [List.replicate]
      rw [e]; exact this
    · rename_i hc2
      by_cases hx : isXmlChar c = true
      · rw [cdata_add _ _ _ _ _ _ hx] at hs
        simp only [Except.map] at hs
        cases hs
        refine ⟨v, f, fs, s ++ List.replicate d ']' ++ [c], h1, ?_, by simp, ?_, ?_, ?_, by simp⟩
        · simp only [adds_append]
        · refine chars_snoc ?_ hx
          intro y hy
          rcases List.mem_append.1 hy with hy | hy
          · exact h4 y hy
          · exact hbr y hy
        · intro hi
          rcases infix_snoc hi with hi | hi
          · have : ∀ d, lit! "]]>" <:+: s ++ List.replicate d ']' → False := by
              intro d
              induction d with
              | zero => intro hi; simp only [List.replicate, List.append_nil] at hi; exact h5 hi
              | succ d ih =>
                intro hi
                rw [List.replicate_succ', ← List.append_assoc] at hi
                rcases infix_snoc hi with hi | hi
                · exact ih hi
                · exact absurd (suffix_three hi).1 (by decide)
            exact this d hi
          · obtain ⟨e1, e2⟩ := suffix_three hi
            have hd : d ≠ 2 := fun e => hc2 ⟨e1.symm, e⟩
            have : d = 0 ∨ d = 1 := by omega
            rcases this with rfl | rfl
            · simp only [List.replicate, List.append_nil] at e2
              obtain ⟨y, hy⟩ := e2
              exact h6 (by omega) (by rw [← hy]; simp)
            · exact h6 (by omega) (suffix_pair e2).2
        · intro _ e
          rw [List.getLast?_concat] at e
          exact hc (Option.some.inj e)
      · exfalso
        have : ∀ d (r : Rd), r.stack ≠ [] → ∀ r', Rd.cdata r d c ≠ .ok r' := by
          intro d
          induction d with
          | zero =>
            intro r hr r' e
            simp only [Rd.cdata, Rd.data] at e
            split at e
            · exact hr (by assumption)
            · simp [hx] at e
          | succ d ih =>
            intro r hr r' e
            simp only [Rd.cdata] at e
            cases h1 : r.data ']' with
            | error x => rw [h1] at e; cases e
            | ok r1 =>
            rw [h1] at e
            refine ih r1 ?_ r' e
            simp only [Rd.data] at h1
            split at h1
            · exact absurd (by assumption) hr
            · split at h1
              · cases h1; simp
              · cases h1
        cases hr : Rd.cdata ⟨.cdata d, f.adds s :: fs, root⟩ d c with
        | error e => rw [hr] at hs; cases hs
        | ok x => exact this d _ (by simp) x hr
  | target t =>
    obtain ⟨v, h1, h2, rfl⟩ := h
    simp only at hs
    have hn : targetOK t = true → NameLike t := fun ht => ⟨by intro e; subst e; exact absurd ht (by decide), h2⟩
    split at hs
    · rename_i hc
      split at hs
      · rename_i ht
        cases hs
        refine ⟨v, t, [c], h1, hn ht, ht, chars_snoc (s := []) vac (space_char hc), ?_, ⟨c, [], rfl, hc⟩, by simp, ?_, by simp⟩
        · intro hi
          have := hi.length_le
          simp at this
        · intro _ e
          exact (space_ne hc).2.2.2.2.1 (by simpa using e)
      · cases hs
    split at hs
    · rename_i hc; subst hc
      split at hs
      · rename_i ht
        cases hs
        exact ⟨v, t, h1, hn ht, ht, by simp⟩
      · cases hs
    split at hs
    · cases hs
    · cases hs
      rename_i hc
      exact ⟨v, h1, (nameLike_snoc h2 (by simpa using hc)).2, by simp⟩
  | pi q =>
    obtain ⟨v, t, s, h1, h2, h3, h4, h5, ⟨x, s', rfl, hx⟩, h7, h8, rfl⟩ := h
    simp only at hs
    split at hs
    · rename_i hq
      cases hs
      simp only [Bool.and_eq_true, decide_eq_true_eq] at hq
      obtain ⟨rfl, rfl⟩ := hq
      obtain ⟨s₀, hs₀⟩ := List.getLast?_eq_some_iff.1 (h7 rfl)
      have hsub : ∀ y ∈ s₀, y ∈ x :: s' := by intro y hy; rw [hs₀]; simp [hy]
      have hnode : (Node.pi t s₀).OK := by
        refine .pi h2 h3 (fun y hy => h4 y (hsub y hy)) (fun hi => h5 (hi.trans (by rw [hs₀]; exact List.infix_append' [] s₀ ['?'] |>.trans (by simp)))) ?_
        intro y hy
        cases s₀ with
        | nil => cases hy
        | cons z s₀ => cases hy; injection hs₀ with e _; rw [← e]; exact hx
      have := h1.misc hnode .pi rfl
      rw [Node.show] at this
      show Pos _ _ _
      have e : v ++ '<' :: '?' :: (t ++ x :: s') ++ ['>'] = v ++ (lit! "<?" ++ (t ++ (s₀ ++ lit! "?>"))) := by rw [hs₀]; simp
      rw [e]; exact this
    rename_i hq
    split at hs
    · rename_i hc
      cases hs
      refine ⟨v, t, (x :: s') ++ [c], h1, h2, h3, chars_snoc h4 hc, ?_, ⟨x, _, rfl, hx⟩, ?_, ?_, by simp⟩
      · intro hi
        rcases infix_snoc hi with hi | hi
        · exact h5 hi
        · obtain ⟨e1, e2⟩ := suffix_pair hi
          cases q with
          | true => exact hq (by simp [← e1])
          | false => exact h8 rfl e2
      · intro hc; rw [List.getLast?_concat]; simpa using hc
      · intro hc e; rw [List.getLast?_concat] at e; simp at hc e; exact hc e
    · cases hs
  | piEnd =>
    obtain ⟨v, t, h1, h2, h3, rfl⟩ := h
    simp only at hs
    split at hs
    · rename_i hc; subst hc
      cases hs
      have := h1.misc (m := .pi t []) (.pi h2 h3 vac (by decide) (by intro _ h; cases h)) .pi rfl
      rw [Node.show] at this
      show Pos _ _ _
      have e : v ++ '<' :: '?' :: (t ++ ['?']) ++ ['>'] = v ++ (lit! "<?" ++ (t ++ ([] ++ lit! "?>"))) := by simp
      rw [e]; exact this
    · cases hs

theorem run_at {s : Str} : ∀ {r r' : Rd} {u : Str}, At r u → r.run s = .ok r' → At r' (u ++ s) := by
  induction s with
  | nil => intro r r' u h hr; cases hr; simpa using h
  | cons c s ih =>
    intro r r' u h hr
    rw [Rd.run] at hr
    cases hc : r.step c with
    | error e => rw [hc] at hr; cases hr
    | ok x =>
      rw [hc] at hr
      have := ih (step_at h hc) hr
      simpa using this

/-! ### The declaration -/

theorem takeDrop (p : Char → Bool) (s : Str) : ∃ a b, s = a ++ b ∧ (∀ c ∈ a, p c = true) ∧ s.takeWhile p = a ∧ s.dropWhile p = b ∧ s.drop (s.takeWhile p).length = b := by
  induction s with
  | nil => exact ⟨[], [], rfl, vac, rfl, rfl, rfl⟩
  | cons c s ih =>
    cases hc : p c with
    | false => exact ⟨[], c :: s, rfl, vac, by simp [List.takeWhile, hc], by simp [List.dropWhile, hc], by simp [List.takeWhile, hc]⟩
    | true =>
      obtain ⟨a, b, e, h1, h2, h3, h4⟩ := ih
      refine ⟨c :: a, b, by rw [e]; rfl, ?_, by simp [List.takeWhile, hc, h2], by simp [List.dropWhile, hc, h3], by simpa [List.takeWhile, hc] using h4⟩
      intro d hd
      rcases List.mem_cons.1 hd with rfl | hd
      · exact hc
      · exact h1 d hd

theorem pseudoAttr_inv {s k v rest : Str} (h : pseudoAttr s = some (k, v, rest)) : ∃ a : Pseudo, a.OK ∧ a.val = v ∧ s = a.show k ++ rest := by
  unfold pseudoAttr at h
  split at h
  · rename_i c t
    split at h
    · rename_i hc
      simp only at h
      obtain ⟨a1, b1, e1, p1, -, d1, -⟩ := takeDrop xmlSpace t
      rw [d1] at h
      obtain ⟨a2, b2, e2, p2, t2, -, d2⟩ := takeDrop (fun c => decide ('a' ≤ c ∧ c ≤ 'z')) b1
      rw [d2, t2] at h
      obtain ⟨a3, b3, e3, p3, -, d3, -⟩ := takeDrop xmlSpace b2
      rw [d3] at h
      split at h
      · rename_i u
        obtain ⟨a4, b4, e4, p4, -, d4, -⟩ := takeDrop xmlSpace u
        rw [d4] at h
        split at h
        · rename_i q v'
          split at h
          · rename_i hq
            obtain ⟨a5, b5, e5, p5, t5, -, d5⟩ := takeDrop declChar v'
            rw [d5, t5] at h
            split at h
            · rename_i q' rest'
              split at h
              · rename_i hqq
                subst hqq
                simp only [Option.some.injEq, Prod.mk.injEq] at h
                obtain ⟨rfl, rfl, rfl⟩ := h
                refine ⟨{ lead := c :: a1, s1 := a3, s2 := a4, q := q', val := a5 }, ⟨by simp, ?_, p3, p4, by simpa using hq, p5⟩, rfl, ?_⟩
                · intro d hd
                  rcases List.mem_cons.1 hd with rfl | hd
                  · exact hc
                  · exact p1 d hd
                · rw [e1, e2, e3, e4, e5]; simp [Pseudo.show]
              · cases h
            · cases h
          · cases h
        · cases h
      · cases h
    · cases h
  · cases h

theorem standaloneOK_inv {s : Str} (h : standaloneOK s = true) :
    ∃ (a : Pseudo) (sp : Str), a.OK ∧ (a.val = lit! "yes" ∨ a.val = lit! "no") ∧ Spaces sp ∧ s = a.show (lit! "standalone") ++ sp := by
  unfold standaloneOK at h
  split at h
  · rename_i k v rest hp
    obtain ⟨a, h1, h2, h3⟩ := pseudoAttr_inv hp
    simp only [Bool.and_eq_true, decide_eq_true_eq, Bool.or_eq_true, List.all_eq_true] at h
    obtain ⟨⟨rfl, h4⟩, h5⟩ := h
    exact ⟨a, rest, h1, by rw [h2]; exact h4, h5, h3⟩
  · cases h

theorem xmlDeclOK_inv {s : Str} (h : xmlDeclOK s = true) : ∃ d : Declaration, d.OK ∧ s = d.body := by
  unfold xmlDeclOK at h
  split at h
  · rename_i k v s1 hp
    obtain ⟨a, h1, h2, rfl⟩ := pseudoAttr_inv hp
    simp only [Bool.and_eq_true, decide_eq_true_eq, Bool.or_eq_true] at h
    obtain ⟨rfl, h⟩ := h
    rcases h with h | h
    · exact ⟨{ version := a, sp := s1 }, ⟨h1, by simp, by simp, List.all_eq_true.1 h⟩, by simp [Declaration.body]⟩
    · split at h
      · rename_i k v s2 hp2
        split at h
        · rename_i hk
          subst hk
          obtain ⟨b, g1, g2, rfl⟩ := pseudoAttr_inv hp2
          simp only [Bool.and_eq_true, Bool.or_eq_true] at h
          obtain ⟨he, h⟩ := h
          have henc : ∀ x, some b = some x → x.OK ∧ encodingOK x.val = true := by intro x hx; cases hx; exact ⟨g1, by rw [g2]; exact he⟩
          rcases h with h | h
          · exact ⟨{ version := a, encoding := some b, sp := s2 }, ⟨h1, henc, by simp, List.all_eq_true.1 h⟩, by simp [Declaration.body]⟩
          · obtain ⟨x, sp, x1, x2, x3, rfl⟩ := standaloneOK_inv h
            exact ⟨{ version := a, encoding := some b, standalone := some x, sp := sp }, ⟨h1, henc, by intro y hy; cases hy; exact ⟨x1, x2⟩, x3⟩, by simp [Declaration.body]⟩
        · obtain ⟨x, sp, x1, x2, x3, rfl⟩ := standaloneOK_inv h
          exact ⟨{ version := a, standalone := some x, sp := sp }, ⟨h1, by simp, by intro y hy; cases hy; exact ⟨x1, x2⟩, x3⟩, by simp [Declaration.body]⟩
      · cases h
  · cases h

theorem cutPi_inv : ∀ (s : Str) {d rest : Str}, cutPi s = some (d, rest) → s = d ++ ('?' :: '>' :: rest) := by
  intro s
  induction s using cutPi.induct with
  | case1 s => intro d rest h; rw [cutPi] at h; cases h; rfl
  | case2 c s hn ih =>
    intro d rest h
    rw [cutPi] at h
    · obtain ⟨p, hp, e⟩ := Option.map_eq_some_iff.1 h
      cases e
      rw [List.cons_append, ← ih hp]
    · exact hn
  | case3 => intro d rest h; cases h

theorem dropDecl_inv {s t : Str} (h : dropDecl s = .ok t) : ∃ d : Option Declaration, (∀ x, d = some x → x.OK) ∧
    s = (match d with | some x => x.show | none => []) ++ t := by
  unfold dropDecl at h
  split at h
  · rename_i hp
    rw [Bool.and_eq_true] at hp
    obtain ⟨u, hu⟩ := List.isPrefixOf_iff_prefix.1 hp.1
    split at h
    · rename_i d rest hc
      split at h
      · cases h
        rename_i hd
        obtain ⟨x, hx, rfl⟩ := xmlDeclOK_inv hd
        have e := cutPi_inv _ hc
        rw [← hu] at e
        have e' : u = x.body ++ ('?' :: '>' :: t) := e
        exact ⟨some x, by intro y hy; cases hy; exact hx, by rw [← hu, e']; simp [Declaration.show]⟩
      · cases h
    · cases h
  · cases h
    exact ⟨none, by simp, by simp⟩

/-! ### Exactly the documents -/

/-- **C113** Exactly the documents are read, and each as what it says. -/
theorem C113_exact (s : Str) (e : Elem) : scanXml s = .ok e ↔ ∃ d : Doc, d.OK ∧ eol (dropBom s) = d.show ∧ d.root.elem' = e := by
  constructor
  · intro h
    unfold scanXml at h
    cases h1 : dropDecl (eol (dropBom s)) with
    | error x => rw [h1] at h; cases h
    | ok t =>
      rw [h1] at h
      simp only [bind, Except.bind] at h
      cases h2 : Rd.run {} t with
      | error x => rw [h2] at h; cases h
      | ok r =>
        rw [h2] at h
        simp only at h
        have ha : At r ([] ++ t) := run_at (r := {}) (show Pos [] none (shows []) from .out vac) h2
        obtain ⟨dc, hdc, hs⟩ := dropDecl_inv h1
        split at h
        · cases h
          rename_i h3 h4 h5
          obtain ⟨mode, st, root⟩ := r
          simp only at h3 h4 h5
          subst h3 h4 h5
          replace ha : Pos [] (some e) ([] ++ t) := ha
          rw [List.nil_append] at ha
          cases ha with
          | @done bs m as g1 g2 g3 g4 => exact ⟨⟨dc, bs, m, as⟩, ⟨hdc, g1, g2, g3, g4⟩, by rw [hs]; rfl, rfl⟩
        · cases h
  · rintro ⟨d, hd, hs, rfl⟩
    exact C113_tree s d hd hs

/-! ### References -/

/-- a digit: `0`-`9`, `a`-`f` or `A`-`F` -/
def IsDigit (c : Char) (d : Nat) : Prop := d < 16 ∧ (c = Nat.digitChar d ∨ c = (Nat.digitChar d).toUpper)

/-- a number written in a base -/
inductive Number (base : Nat) : Str → Nat → Prop
  | nil : Number base [] 0
  | cons {c : Char} {s : Str} {d n : Nat} : IsDigit c d → d < base → Number base s n → Number base (c :: s) (d * base ^ s.length + n)

/-- what references stand for: five names, and the numbers of the characters that XML allows -/
inductive Means : Str → Char → Prop
  | amp : Means (lit! "amp") '&'
  | lt : Means (lit! "lt") '<'
  | gt : Means (lit! "gt") '>'
  | quot : Means (lit! "quot") '"'
  | apos : Means (lit! "apos") '\''
  | dec {s : Str} {c : Char} : s ≠ [] → Number 10 s c.toNat → isXmlChar c = true → Means ('#' :: s) c
  | hex {s : Str} {c : Char} : s ≠ [] → Number 16 s c.toNat → isXmlChar c = true → Means ('#' :: 'x' :: s) c

theorem digitVal_iff (c : Char) (d : Nat) {base : Nat} (hb : base ≤ 16) : digitVal base c = some d ↔ IsDigit c d ∧ d < base := by
  have hle : ∀ a b : Char, a ≤ b ↔ a.toNat ≤ b.toNat := fun a b => Iff.rfl
  constructor
  · intro h
    simp only [digitVal] at h
    obtain ⟨n, hn, h⟩ := Option.bind_eq_some_iff.1 h
    split at h
    · cases h
      rename_i hlt
      refine ⟨⟨by omega, ?_⟩, hlt⟩
      have hc : ∀ m, c.toNat = m → c = Char.ofNat m := by intro m hm; rw [← hm, Char.ofNat_toNat]
      split at hn
      · rename_i hr
        rw [hle, hle] at hr
        cases hn
        obtain ⟨h1, h2⟩ := hr
        have h1 : 48 ≤ c.toNat := h1
        have h2 : c.toNat ≤ 57 := h2
        left
        have : c.toNat = 48 ∨ c.toNat = 49 ∨ c.toNat = 50 ∨ c.toNat = 51 ∨ c.toNat = 52 ∨ c.toNat = 53 ∨ c.toNat = 54 ∨ c.toNat = 55 ∨ c.toNat = 56 ∨ c.toNat = 57 := by omega
        rcases this with h | h | h | h | h | h | h | h | h | h <;> (rw [h]; exact hc _ h)
      split at hn
      · rename_i hr
        rw [hle, hle] at hr
        cases hn
        obtain ⟨h1, h2⟩ := hr
        have h1 : 97 ≤ c.toNat := h1
        have h2 : c.toNat ≤ 102 := h2
        left
        have : c.toNat = 97 ∨ c.toNat = 98 ∨ c.toNat = 99 ∨ c.toNat = 100 ∨ c.toNat = 101 ∨ c.toNat = 102 := by omega
        rcases this with h | h | h | h | h | h <;> (rw [h]; exact hc _ h)
      split at hn
      · rename_i hr
        rw [hle, hle] at hr
        cases hn
        obtain ⟨h1, h2⟩ := hr
        have h1 : 65 ≤ c.toNat := h1
        have h2 : c.toNat ≤ 70 := h2
        right
        have : c.toNat = 65 ∨ c.toNat = 66 ∨ c.toNat = 67 ∨ c.toNat = 68 ∨ c.toNat = 69 ∨ c.toNat = 70 := by omega
        rcases this with h | h | h | h | h | h <;> (rw [h]; exact hc _ h)
      · cases hn
    · cases h
  · rintro ⟨⟨h1, h2⟩, h3⟩
    have key : ∀ d < 16, ∀ c, c = Nat.digitChar d ∨ c = (Nat.digitChar d).toUpper → digitVal 16 c = some d := by
      intro d hd c hc
      rcases hc with rfl | rfl
      · revert d; decide
      · revert d; decide
    have := key d h1 c h2
    simp only [digitVal] at this ⊢
    obtain ⟨n, hn, h⟩ := Option.bind_eq_some_iff.1 this
    rw [hn]
    split at h
    · cases h; simp [h3]
    · cases h

theorem numVal_iff {base : Nat} (hb : base ≤ 16) (s : Str) : ∀ (acc n : Nat), numVal base acc s = some n ↔ ∃ m, Number base s m ∧ n = acc * base ^ s.length + m := by
  induction s with
  | nil =>
    intro acc n
    simp only [numVal, Option.some.injEq]
    constructor
    · rintro rfl; exact ⟨0, .nil, by simp⟩
    · rintro ⟨m, hm, rfl⟩; cases hm; simp
  | cons c s ih =>
    intro acc n
    simp only [numVal]
    constructor
    · intro h
      obtain ⟨d, hd, h⟩ := Option.bind_eq_some_iff.1 h
      obtain ⟨m, hm, rfl⟩ := (ih _ _).1 h
      obtain ⟨h1, h2⟩ := (digitVal_iff c d hb).1 hd
      exact ⟨_, .cons h1 h2 hm, by simp only [List.length_cons, Nat.pow_succ, Nat.add_mul]; rw [Nat.add_assoc, Nat.mul_assoc, Nat.mul_comm base]⟩
    · rintro ⟨m, hm, rfl⟩
      cases hm with
      | @cons _ _ d k h1 h2 h3 =>
        rw [(digitVal_iff c d hb).2 ⟨h1, h2⟩]
        refine (ih _ _).2 ⟨k, h3, ?_⟩
        simp only [List.length_cons, Nat.pow_succ, Nat.add_mul]
        rw [Nat.add_assoc, Nat.mul_assoc acc base, Nat.mul_comm base]

theorem charOf_iff (n : Nat) (c : Char) : charOf n = some c ↔ n = c.toNat ∧ isXmlChar c = true := by
  simp only [charOf]
  constructor
  · intro h
    split at h
    · split at h
      · cases h; rename_i hv hx; exact ⟨rfl, hx⟩
      · cases h
    · cases h
  · rintro ⟨rfl, hx⟩
    have hv : c.toNat.isValidChar := c.valid
    rw [dif_pos hv]
    have : Char.ofNatAux c.toNat hv = c := by
      apply Char.ext; rfl
    simp [this, hx]

/-- **C113** What references stand for -/
theorem C113_refs (s : Str) (c : Char) : refChar s = some c ↔ Means s c := by
  have num : ∀ {base : Nat} (hb : base ≤ 16) (t : Str), (numVal base 0 t).bind charOf = some c ↔ Number base t c.toNat ∧ isXmlChar c = true := by
    intro base hb t
    rw [Option.bind_eq_some_iff]
    constructor
    · rintro ⟨n, hn, hc⟩
      obtain ⟨m, hm, rfl⟩ := (numVal_iff hb t 0 n).1 hn
      obtain ⟨h1, h2⟩ := (charOf_iff _ _).1 hc
      exact ⟨by rw [← h1]; simpa using hm, h2⟩
    · rintro ⟨h1, h2⟩
      exact ⟨c.toNat, (numVal_iff hb t 0 _).2 ⟨_, h1, by simp⟩, (charOf_iff _ _).2 ⟨rfl, h2⟩⟩
  constructor
  · intro h
    unfold refChar at h
    split at h
    · cases h; rename_i e; subst e; exact .amp
    split at h
    · cases h; rename_i e; subst e; exact .lt
    split at h
    · cases h; rename_i e; subst e; exact .gt
    split at h
    · cases h; rename_i e; subst e; exact .quot
    split at h
    · cases h; rename_i e; subst e; exact .apos
    split at h
    · obtain ⟨h1, h2⟩ := (num (by omega) _).1 h
      exact .hex (by simp) h1 h2
    · obtain ⟨h1, h2⟩ := (num (by omega) _).1 h
      exact .dec (by simp) h1 h2
    · cases h
  · intro h
    cases h with
    | amp => decide
    | lt => decide
    | gt => decide
    | quot => decide
    | apos => decide
    | @dec s _ h1 h2 h3 =>
      cases s with
      | nil => exact absurd rfl h1
      | cons d s =>
        have hx : d ≠ 'x' := by
          rintro rfl
          generalize c.toNat = m at h2
          cases h2 with
          | @cons _ _ k n g1 g2 g3 =>
            have := (digitVal_iff 'x' k (base := 10) (by omega)).2 ⟨g1, g2⟩
            exact absurd this (by rw [show digitVal 10 'x' = none from by decide]; simp)
        unfold refChar
        simp only [List.cons.injEq, reduceCtorEq, false_and, if_false, (by decide : ('#' : Char) ≠ 'a'), (by decide : ('#' : Char) ≠ 'l'), (by decide : ('#' : Char) ≠ 'g'), (by decide : ('#' : Char) ≠ 'q')]
        split
        · rename_i e; injection e with _ e; injection e with e _; exact absurd e hx
        · rename_i e; injection e with _ e; injection e with e1 e2; subst e1 e2
          exact (num (by omega) _).2 ⟨h2, h3⟩
        · rename_i e; exact absurd rfl (e d s)
    | @hex s _ h1 h2 h3 =>
      cases s with
      | nil => exact absurd rfl h1
      | cons d s =>
        unfold refChar
        simp only [List.cons.injEq, reduceCtorEq, false_and, if_false, (by decide : ('#' : Char) ≠ 'a'), (by decide : ('#' : Char) ≠ 'l'), (by decide : ('#' : Char) ≠ 'g'), (by decide : ('#' : Char) ≠ 'q')]
        exact (num (by omega) _).2 ⟨h2, h3⟩

/-- `&#x201C;` -/
example : Means (lit! "#x201C") '“' := by
  refine .hex (s := lit! "201C") (by simp) ?_ (by decide)
  have := Number.cons (base := 16) (c := '2') (d := 2) (by simp [IsDigit]) (by omega) (.cons (c := '0') (d := 0) (by simp [IsDigit]) (by omega)
    (.cons (c := '1') (d := 1) (by simp [IsDigit]) (by omega) (.cons (c := 'C') (d := 12) ⟨by omega, .inr rfl⟩ (by omega) .nil)))
  exact this

/-! ### Classes of characters -/

theorem char_eq_iff {c d : Char} : c = d ↔ c.toNat = d.toNat :=
  ⟨fun h => h ▸ rfl, fun h => Char.ext (UInt32.toNat_inj.1 h)⟩

theorem char_le_iff {c d : Char} : c ≤ d ↔ c.toNat ≤ d.toNat := Iff.rfl

/-- **C113** The classes of characters that the grammar speaks of, by code points: white space and characters
(productions 3 and 2 of XML 1.0), what ends a name, names of encodings (production 81) and targets (production 17,
without the part that targets are names). -/
theorem C113_lex (c : Char) (s : Str) :
    (xmlSpace c = true ↔ c.toNat ∈ [0x20, 0x9, 0xD, 0xA]) ∧
    (isXmlChar c = true ↔ c.toNat ∈ [0x9, 0xA, 0xD] ∨ (0x20 ≤ c.toNat ∧ c.toNat ≤ 0xD7FF) ∨ (0xE000 ≤ c.toNat ∧ c.toNat ≤ 0xFFFD) ∨
      (0x10000 ≤ c.toNat ∧ c.toNat ≤ 0x10FFFF)) ∧
    (nameEnd c = true ↔ c ∈ (lit! " \t\n\r=/><\"'&!?" : Str)) ∧
    (declChar c = true ↔ (0x61 ≤ c.toNat ∧ c.toNat ≤ 0x7A) ∨ (0x41 ≤ c.toNat ∧ c.toNat ≤ 0x5A) ∨ (0x30 ≤ c.toNat ∧ c.toNat ≤ 0x39) ∨
      c ∈ (lit! ".-_" : Str)) ∧
    (encodingOK s = true ↔ ∃ d r, s = d :: r ∧ ((0x61 ≤ d.toNat ∧ d.toNat ≤ 0x7A) ∨ (0x41 ≤ d.toNat ∧ d.toNat ≤ 0x5A))) ∧
    (targetOK s = true ↔ s ≠ [] ∧ ∀ x m l, s = [x, m, l] → ¬ (x ∈ ['x', 'X'] ∧ m ∈ ['m', 'M'] ∧ l ∈ ['l', 'L'])) := by
  refine ⟨?_, ?_, ?_, ?_, ?_, ?_⟩
  · simp only [xmlSpace, Bool.or_eq_true, decide_eq_true_eq, char_eq_iff, List.mem_cons, List.not_mem_nil, or_false]
    simp only [show ' '.toNat = 32 from rfl, show '\t'.toNat = 9 from rfl, show '\n'.toNat = 10 from rfl, show '\r'.toNat = 13 from rfl]
    omega
  · have hv : c.toNat < 0xD800 ∨ (0xDFFF < c.toNat ∧ c.toNat < 0x110000) := c.valid
    simp only [isXmlChar, Bool.or_eq_true, Bool.and_eq_true, decide_eq_true_eq, char_eq_iff, List.mem_cons, List.not_mem_nil, or_false]
    simp only [show '\t'.toNat = 9 from rfl, show '\n'.toNat = 10 from rfl, show '\r'.toNat = 13 from rfl]
    omega
  · rw [nameEnd, List.contains_iff_mem]
  · simp only [declChar, Bool.or_eq_true, decide_eq_true_eq, char_le_iff]
    show _ ↔ _ ∨ _ ∨ _ ∨ c ∈ ['.', '-', '_']
    simp only [List.mem_cons, List.not_mem_nil, or_false, char_eq_iff]
    simp only [show 'a'.toNat = 97 from rfl, show 'z'.toNat = 122 from rfl, show 'A'.toNat = 65 from rfl, show 'Z'.toNat = 90 from rfl,
      show '0'.toNat = 48 from rfl, show '9'.toNat = 57 from rfl]
    omega
  · cases s with
    | nil => simp [encodingOK]
    | cons d r =>
      simp only [encodingOK, Bool.or_eq_true, decide_eq_true_eq, char_le_iff]
      constructor
      · intro h; exact ⟨d, r, rfl, h⟩
      · rintro ⟨_, _, h, h'⟩; cases h; exact h'
  · unfold targetOK
    split
    · rename_i x m l
      simp only [List.isEmpty_cons, Bool.not_false, Bool.true_and, Bool.not_eq_true', ne_eq]
      constructor
      · intro h
        refine ⟨by simp, ?_⟩
        intro x' m' l' he hc
        cases he
        simp only [List.mem_cons, List.not_mem_nil, or_false] at hc
        simp only [hc.1, hc.2.1, Bool.and_eq_false_iff, Bool.or_eq_false_iff, decide_eq_false_iff_not] at h
        obtain ⟨g1, g2, g3⟩ := hc
        rcases h with (h | h) | h
        · rcases g1 with rfl | rfl <;> simp at h
        · rcases g2 with rfl | rfl <;> simp at h
        · rcases g3 with rfl | rfl <;> simp at h
      · rintro ⟨-, h⟩
        have h := h x m l rfl
        cases hb : ((decide (x = 'x') || decide (x = 'X')) && (decide (m = 'm') || decide (m = 'M')) && (decide (l = 'l') || decide (l = 'L'))) with
        | false => rfl
        | true =>
          simp only [Bool.and_eq_true, Bool.or_eq_true, decide_eq_true_eq] at hb
          exact absurd (by simpa [and_assoc] using hb) h
    · rename_i hne
      simp only [Bool.and_true, Bool.not_eq_true', List.isEmpty_eq_false_iff]
      constructor
      · intro h; exact ⟨h, fun x m l he => absurd he (hne x m l)⟩
      · exact fun h => h.1

/-- a text with the line ends \r\n, \r and \n, and the same with \n -/
inductive Lines : Str → Str → Prop
  | nil : Lines [] []
  | crlf {s t} : Lines s t → Lines ('\r' :: '\n' :: s) ('\n' :: t)
  | cr {s t} : s.head? ≠ some '\n' → Lines s t → Lines ('\r' :: s) ('\n' :: t)
  | char {c s t} : c ≠ '\r' → Lines s t → Lines (c :: s) (c :: t)

theorem lines_eol (s : Str) : Lines s (eol s) := by
  fun_induction eol s with
  | case1 r ih => exact .crlf ih
  | case2 r hne ih =>
    refine .cr (fun h => ?_) ih
    cases r with
    | nil => cases h
    | cons a r => cases h; exact hne r rfl
  | case3 c r h1 h2 ih =>
    exact .char (fun h => h2 h) ih
  | case4 => exact .nil

theorem lines_fun {s t t' : Str} (h : Lines s t) (h' : Lines s t') : t = t' := by
  induction h generalizing t' with
  | nil => cases h'; rfl
  | crlf _ ih =>
    cases h' with
    | crlf h => rw [ih h]
    | cr h _ => exact absurd rfl h
    | char h _ => exact absurd rfl h
  | cr hn _ ih =>
    cases h' with
    | crlf h => exact absurd rfl hn
    | cr _ h => rw [ih h]
    | char h _ => exact absurd rfl h
  | char hn _ ih =>
    cases h' with
    | crlf h => exact absurd rfl hn
    | cr _ h => exact absurd rfl hn
    | char _ h => rw [ih h]

/-- C113 on the beginning and on the lines of a file: a byte order mark is ignored, and nothing else is; line ends are
normalised, and nothing else is -/
theorem C113_lines (s t : Str) :
    (eol s = t ↔ Lines s t) ∧ dropBom (Char.ofNat 0xFEFF :: s) = s ∧ (s.head? ≠ some (Char.ofNat 0xFEFF) → dropBom s = s) := by
  refine ⟨⟨fun h => h ▸ lines_eol s, fun h => lines_fun (lines_eol s) h⟩, rfl, fun h => ?_⟩
  cases s with
  | nil => rfl
  | cons c s =>
    rw [dropBom, if_neg]
    intro hc
    exact h (by rw [List.head?_cons, ← hc, Char.ofNat_toNat])

example : Lines (lit! "a\r\nb\rc\n") (lit! "a\nb\nc\n") :=
  .char (by decide) (.crlf (.char (by decide) (.cr (by decide) (.char (by decide) (.char (by decide) .nil)))))
end Xigt.Mu
