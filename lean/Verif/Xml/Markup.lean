import Verif.Xml.TextProps
/-
C113: documents as people write them, with comments, processing instructions, CDATA sections,
references, either kind of quotes, white space in tags and an XML declaration.  `Node` is a document with
all of this, `show` its text, `Node.elem` what it says.
-/

set_option linter.unusedSectionVars false

namespace Xigt.Mu

/-! ### Documents -/

/-- a part of the value of an attribute -/
inductive VPart where
  | chr (c : Char)
  | ref (s : Str)

/-- an attribute: white space, the name, white space around `=`, quotes, the value -/
structure Att where
  lead : Str
  key : Str
  s1 : Str := []
  s2 : Str := []
  q : Char := '"'
  val : List VPart

/-- a part of a document -/
inductive Node where
  | chars (s : Str)
  | ref (s : Str)
  | cdata (s : Str)
  | comment (s : Str)
  /-- a target and what follows it -/
  | pi (t s : Str)
  /-- an element with white space before the end of its start tag; `empty`: written as `<a/>`; and white
  space in the end tag -/
  | elem (tag : Str) (attrs : List Att) (sp : Str) (empty : Bool) (kids : List Node) (sp2 : Str)

def VPart.show : VPart → Str
  | .chr c => [c]
  | .ref s => '&' :: (s ++ [';'])

def Att.show (a : Att) : Str :=
  a.lead ++ (a.key ++ (a.s1 ++ ('=' :: (a.s2 ++ (a.q :: (a.val.flatMap VPart.show ++ [a.q]))))))

mutual
/-- the text of a part -/
def Node.show : Node → Str
  | .chars s => s
  | .ref s => '&' :: (s ++ [';'])
  | .cdata s => lit! "<![CDATA[" ++ (s ++ lit! "]]>")
  | .comment s => lit! "<!--" ++ (s ++ lit! "-->")
  | .pi t s => lit! "<?" ++ (t ++ (s ++ lit! "?>"))
  | .elem tag attrs sp empty kids sp2 =>
    '<' :: (tag ++ (attrs.flatMap Att.show ++ (sp ++
      (if empty then lit! "/>" else '>' :: (shows kids ++ ('<' :: '/' :: (tag ++ (sp2 ++ ['>']))))))))
def shows : List Node → Str
  | [] => []
  | m :: ms => m.show ++ shows ms
end

/-! ### What they say -/

def VPart.value : VPart → Str
  | .chr c => [if xmlSpace c then ' ' else c]
  | .ref s => (refChar s).toList

/-- name and value of an attribute; white space in the value counts as spaces -/
def Att.pair (a : Att) : Str × Str := (a.key, a.val.flatMap VPart.value)

/-- the character data that a part is; comments and processing instructions are none -/
def Node.datum : Node → Option Str
  | .chars s => some s
  | .ref s => some (refChar s).toList
  | .cdata s => some s
  | .comment _ => some []
  | .pi _ _ => some []
  | .elem .. => none

/-- the character data before the first element -/
def leadText : List Node → Str
  | [] => []
  | m :: ms => match m.datum with
    | some t => t ++ leadText ms
    | none => []

def withTail (t : Str) : Elem → Elem
  | .mk tag attrs text _ kids => .mk tag attrs text (someText t) kids

mutual
/-- the element that a part is -/
def Node.elem' : Node → Elem
  | .elem tag attrs _ _ kids _ => .mk tag (attrs.map Att.pair) (someText (leadText kids)) none (elems kids)
  | _ => .mk [] [] none none []
/-- the elements among the parts, each with the character data up to the next -/
def elems : List Node → List Elem
  | [] => []
  | m :: ms => match m.datum with
    | some _ => elems ms
    | none => withTail (leadText ms) m.elem' :: elems ms
end

/-! ### When they are well-formed -/

def Spaces (s : Str) : Prop := ∀ c ∈ s, xmlSpace c = true
def Chars (s : Str) : Prop := ∀ c ∈ s, isXmlChar c = true
def NameLike (s : Str) : Prop := s ≠ [] ∧ ∀ c ∈ s, nameEnd c = false

def VPart.OK (q : Char) : VPart → Prop
  | .chr c => c ≠ q ∧ c ≠ '&' ∧ c ≠ '<' ∧ isXmlChar c = true
  | .ref s => ';' ∉ s ∧ refChar s ≠ none

structure Att.OK (a : Att) : Prop where
  lead : a.lead ≠ []
  leads : Spaces a.lead
  key : NameLike a.key
  s1 : Spaces a.s1
  s2 : Spaces a.s2
  q : a.q = '"' ∨ a.q = '\''
  val : ∀ v ∈ a.val, v.OK a.q

inductive Node.OK : Node → Prop
  | chars {s} : Chars s → '<' ∉ s → '&' ∉ s → Node.OK (.chars s)
  | ref {s} : ';' ∉ s → refChar s ≠ none → Node.OK (.ref s)
  | cdata {s} : Chars s → ¬ lit! "]]>" <:+: s → Node.OK (.cdata s)
  | comment {s} : Chars s → ¬ lit! "--" <:+: s ++ ['-'] → Node.OK (.comment s)
  | pi {t s} : NameLike t → targetOK t = true → Chars s → ¬ lit! "?>" <:+: s → (∀ c, s.head? = some c → xmlSpace c = true) → Node.OK (.pi t s)
  | elem {tag attrs sp empty kids sp2} : NameLike tag → (∀ a ∈ attrs, a.OK) → (attrs.map Att.key).Nodup → Spaces sp → Spaces sp2 →
      (∀ k ∈ kids, Node.OK k) → (empty = true → kids = []) → Node.OK (.elem tag attrs sp empty kids sp2)

theorem Node.ind {P : Node → Prop} (h1 : ∀ s, P (.chars s)) (h2 : ∀ s, P (.ref s)) (h3 : ∀ s, P (.cdata s)) (h4 : ∀ s, P (.comment s))
    (h5 : ∀ t s, P (.pi t s)) (h6 : ∀ tag attrs sp empty kids sp2, (∀ x ∈ kids, P x) → P (.elem tag attrs sp empty kids sp2)) : ∀ m, P m := by
  intro m
  exact Node.rec (motive_1 := P) (motive_2 := fun l => ∀ y ∈ l, P y) h1 h2 h3 h4 h5 (fun a b c d k e hk => h6 a b c d k e hk)
    (by intro y hy; cases hy) (fun a l ha hl y hy => by
      rcases List.mem_cons.1 hy with rfl | hy
      · exact ha
      · exact hl y hy) m

/-! ### Reading them -/

theorem space_char {c : Char} (h : xmlSpace c = true) : isXmlChar c = true := by
  simp only [xmlSpace, Bool.or_eq_true, decide_eq_true_eq] at h
  rcases h with ((rfl | rfl) | rfl) | rfl <;> decide

theorem space_ne {c : Char} (h : xmlSpace c = true) : c ≠ '=' ∧ c ≠ '>' ∧ c ≠ '"' ∧ c ≠ '\'' ∧ c ≠ '?' ∧ nameEnd c = true := by
  simp only [xmlSpace, Bool.or_eq_true, decide_eq_true_eq] at h
  rcases h with ((rfl | rfl) | rfl) | rfl <;> decide

/-- white space in a start tag -/
theorem run_tagWs {r : Rd} (n : Str) (as : Dict Str Str) (w : Bool) (s : Str) (hs : Spaces s) :
    Rd.run { r with mode := .tag n as w } s = .ok { r with mode := .tag n as (w || !s.isEmpty) } := by
  induction s generalizing w with
  | nil => simp [Rd.run]
  | cons c s ih =>
    have hc := hs c (by simp)
    rw [run_cons (r' := { r with mode := .tag n as true }) (by simp [Rd.step, Rd.inTag, hc]), ih true (fun c h => hs c (by simp [h]))]
    simp

theorem run_eqWs {r : Rd} (n : Str) (as : Dict Str Str) (k s : Str) (hs : Spaces s) :
    Rd.run { r with mode := .eq n as k } s = .ok { r with mode := .eq n as k } := by
  induction s with
  | nil => simp [Rd.run]
  | cons c s ih =>
    have hc := hs c (by simp)
    rw [run_cons (r' := { r with mode := .eq n as k }) (by simp [Rd.step, hc, (space_ne hc).1]), ih (fun c h => hs c (by simp [h]))]

theorem run_quoteWs {r : Rd} (n : Str) (as : Dict Str Str) (k s : Str) (hs : Spaces s) :
    Rd.run { r with mode := .quote n as k } s = .ok { r with mode := .quote n as k } := by
  induction s with
  | nil => simp [Rd.run]
  | cons c s ih =>
    have hc := hs c (by simp)
    obtain ⟨_, _, e1, e2, _⟩ := space_ne hc
    rw [run_cons (r' := { r with mode := .quote n as k }) (by simp [Rd.step, hc, e1, e2]), ih (fun c h => hs c (by simp [h]))]

/-- from the name of an attribute to its value -/
theorem run_toQuote {r : Rd} (n : Str) (as : Dict Str Str) (k s1 s2 : Str) (q : Char) (h1 : Spaces s1) (h2 : Spaces s2) (hq : q = '"' ∨ q = '\'') (t : Str) :
    Rd.run { r with mode := .attr n as k } (s1 ++ ('=' :: (s2 ++ (q :: t)))) = Rd.run { r with mode := .value n as k q [] } t := by
  have hend : Rd.run { r with mode := .quote n as k } (s2 ++ (q :: t)) = Rd.run { r with mode := .value n as k q [] } t := by
    rw [run_ok (run_quoteWs n as k s2 h2)]
    rw [run_cons (r' := { r with mode := .value n as k q [] }) (by rcases hq with rfl | rfl <;> simp [Rd.step])]
  cases s1 with
  | nil => rw [List.nil_append, run_cons (r' := { r with mode := .quote n as k }) (by simp [Rd.step]), hend]
  | cons c s1 =>
    have hc := h1 c (by simp)
    rw [List.cons_append, run_cons (r' := { r with mode := .eq n as k }) (by simp [Rd.step, hc, (space_ne hc).1])]
    rw [run_ok (run_eqWs n as k s1 (fun c h => h1 c (by simp [h]))), run_cons (r' := { r with mode := .quote n as k }) (by simp [Rd.step]), hend]

theorem run_vrefQ {r : Rd} (n : Str) (as : Dict Str Str) (k : Str) (q : Char) (hq : q = '"' ∨ q = '\'') (v s : Str) (d : Char) (hs : ';' ∉ s) (hd : refChar s = some d) :
    Rd.run { r with mode := .value n as k q v } ('&' :: (s ++ [';'])) = .ok { r with mode := .value n as k q (v ++ [d]) } := by
  rw [run_cons (r' := { r with mode := .vref n as k q v [] }) (by rcases hq with rfl | rfl <;> simp [Rd.step])]
  suffices h : ∀ (s t : Str), ';' ∉ t → refChar (s ++ t) = some d → Rd.run { r with mode := .vref n as k q v s } (t ++ [';']) =
      .ok { r with mode := .value n as k q (v ++ [d]) } from h [] s hs hd
  intro s t
  induction t generalizing s with
  | nil =>
    intro _ hd
    rw [List.append_nil] at hd
    simp [Rd.run, Rd.step, hd, bind, Except.bind]
  | cons c t ih =>
    intro hs hd
    have hc : c ≠ ';' := by rintro rfl; exact hs (by simp)
    rw [List.cons_append, run_cons (r' := { r with mode := .vref n as k q v (s ++ [c]) }) (by simp [Rd.step, hc])]
    exact ih _ (fun h => hs (by simp [h])) (by simpa using hd)

/-- the value of an attribute -/
theorem run_vals {r : Rd} (n : Str) (as : Dict Str Str) (k : Str) (q : Char) (hq : q = '"' ∨ q = '\'') (l : List VPart) (hl : ∀ v ∈ l, v.OK q) (v : Str) :
    Rd.run { r with mode := .value n as k q v } (l.flatMap VPart.show) = .ok { r with mode := .value n as k q (v ++ l.flatMap VPart.value) } := by
  induction l generalizing v with
  | nil => simp [Rd.run]
  | cons x l ih =>
    have ih := ih (fun v h => hl v (by simp [h])) (v ++ x.value)
    have hx := hl x (by simp)
    suffices h : Rd.run { r with mode := .value n as k q v } x.show = .ok { r with mode := .value n as k q (v ++ x.value) } by
      rw [List.flatMap_cons, run_ok h, ih]; simp
    cases x with
    | chr c =>
      obtain ⟨e1, e2, e3, e4⟩ := hx
      rw [VPart.show, run_cons (r' := { r with mode := .value n as k q (v ++ VPart.value (.chr c)) }) (by simp [Rd.step, e1, e2, e3, e4, VPart.value])]
      rfl
    | ref s =>
      obtain ⟨e1, e2⟩ := hx
      obtain ⟨d, hd⟩ := Option.ne_none_iff_exists'.1 e2
      rw [VPart.show, run_vrefQ n as k q hq v s d e1 hd]
      simp [VPart.value, hd]

/-- the attributes of an element -/
theorem run_atts {r : Rd} (n : Str) (as : Dict Str Str) (l : List Att) (hl : ∀ a ∈ l, a.OK) :
    Rd.run { r with mode := .tag n as false } (l.flatMap Att.show) = .ok { r with mode := .tag n (as ++ l.map Att.pair) false } := by
  induction l generalizing as with
  | nil => simp [Rd.run]
  | cons a l ih =>
    have ih := ih (as ++ [a.pair]) (fun v h => hl v (by simp [h]))
    have ha := hl a (by simp)
    suffices h : Rd.run { r with mode := .tag n as false } a.show = .ok { r with mode := .tag n (as ++ [a.pair]) false } by
      rw [List.flatMap_cons, run_ok h, ih]; simp
    rw [Att.show, run_ok (run_tagWs n as false a.lead ha.leads)]
    have hw : (false || !a.lead.isEmpty) = true := by
      cases h : a.lead with
      | nil => exact absurd h ha.lead
      | cons => rfl
    rw [hw]
    obtain ⟨hk1, hk2⟩ := ha.key
    cases hk : a.key with
    | nil => exact absurd hk hk1
    | cons c k =>
      rw [hk] at hk2
      have hc := hk2 c (by simp)
      obtain ⟨_, e2, e3, e4⟩ := nameEnd_eq hc
      rw [List.cons_append, run_cons (r' := { r with mode := .attr n as [c] }) (by simp [Rd.step, Rd.inTag, e2, e3, e4, hc])]
      rw [run_ok (run_attr n as [c] k (fun c h => hk2 c (by simp [h])))]
      rw [run_toQuote n as _ _ _ _ ha.s1 ha.s2 ha.q]
      rw [run_ok (run_vals n as _ a.q ha.q a.val ha.val [])]
      rw [run_cons (r' := { r with mode := .tag n (as ++ [a.pair]) false }) (by simp [Rd.step, Att.pair, hk])]
      rfl

/-- an infix is still one after a character more -/
theorem not_infix_tail {a : Str} {c : Char} {s : Str} (h : ¬ a <:+: c :: s) : ¬ a <:+: s :=
  fun h' => h (h'.trans ⟨[c], [], by simp⟩)

theorem run_commentBody {r : Rd} (s : Str) (hs : Chars s) : ∀ d, (d = 0 ∧ ¬ lit! "--" <:+: s ++ ['-'] ∨ d = 1 ∧ ¬ lit! "--" <:+: '-' :: (s ++ ['-'])) →
    Rd.run { r with mode := .comment d } (s ++ lit! "-->") = .ok { r with mode := .content } := by
  induction s with
  | nil =>
    intro d hd
    rcases hd with ⟨rfl, _⟩ | ⟨rfl, hd⟩
    · rfl
    · exact absurd ⟨[], [], rfl⟩ hd
  | cons c s ih =>
    intro d hd
    have ih := ih (fun c h => hs c (by simp [h]))
    have hd2 : d ≠ 2 := by rcases hd with ⟨rfl, _⟩ | ⟨rfl, _⟩ <;> decide
    have hn : ¬ lit! "--" <:+: c :: (s ++ ['-']) := by
      rcases hd with ⟨_, hd⟩ | ⟨_, hd⟩
      · exact hd
      · exact not_infix_tail hd
    rw [List.cons_append]
    by_cases hc : c = '-'
    · subst hc
      rcases hd with ⟨rfl, hd⟩ | ⟨rfl, hd⟩
      · rw [run_cons (r' := { r with mode := .comment 1 }) (by simp [Rd.step])]
        exact ih 1 (.inr ⟨rfl, hn⟩)
      · exact absurd ⟨[], s ++ ['-'], rfl⟩ hd
    · rw [run_cons (r' := { r with mode := .comment 0 }) (by simp [Rd.step, hd2, hc, hs c (by simp)])]
      exact ih 0 (.inl ⟨rfl, not_infix_tail hn⟩)

/-- comments are forgotten -/
theorem run_comment {r : Rd} (hm : r.mode = .content) (s : Str) (hs : Chars s) (hn : ¬ lit! "--" <:+: s ++ ['-']) :
    Rd.run r (lit! "<!--" ++ (s ++ lit! "-->")) = .ok r := by
  obtain ⟨m, st, root⟩ := r
  cases hm
  rw [show lit! "<!--" ++ (s ++ lit! "-->") = '<' :: '!' :: '-' :: '-' :: (s ++ lit! "-->") from rfl]
  rw [run_cons (r' := ⟨.lt, st, root⟩) (by simp [Rd.step]), run_cons (r' := ⟨.bang [], st, root⟩) (by simp [Rd.step]),
    run_cons (r' := ⟨.bang ['-'], st, root⟩) (by simp [Rd.step]), run_cons (r' := ⟨.comment 0, st, root⟩) (by simp [Rd.step])]
  exact run_commentBody (r := ⟨.lt, st, root⟩) s hs 0 (.inl ⟨rfl, hn⟩)

theorem run_piBody {r : Rd} (s : Str) (hs : Chars s) : ∀ q : Bool, ¬ lit! "?>" <:+: (if q then '?' :: s else s) →
    Rd.run { r with mode := .pi q } (s ++ lit! "?>") = .ok { r with mode := .content } := by
  induction s with
  | nil =>
    intro q _
    cases q <;> rfl
  | cons c s ih =>
    intro q hq
    have hn : ¬ lit! "?>" <:+: c :: s := by
      cases q
      · exact hq
      · exact not_infix_tail hq
    have h1 : (q && decide (c = '>')) = false := by
      cases q
      · rfl
      · simp only [Bool.true_and, decide_eq_false_iff_not]
        rintro rfl
        exact hq ⟨[], s, rfl⟩
    rw [List.cons_append, run_cons (r' := { r with mode := .pi (c = '?') }) (by simp [Rd.step, h1, hs c (by simp)])]
    refine ih (fun c h => hs c (by simp [h])) _ ?_
    by_cases hc : c = '?'
    · subst hc; simpa using hn
    · simpa [hc] using not_infix_tail hn

theorem run_target {r : Rd} (n s : Str) (hs : ∀ c ∈ s, nameEnd c = false) :
    Rd.run { r with mode := .target n } s = .ok { r with mode := .target (n ++ s) } := by
  induction s generalizing n with
  | nil => simp [Rd.run]
  | cons c s ih =>
    have hc := hs c (by simp)
    obtain ⟨_, _, _, h4⟩ := nameEnd_eq hc
    have h5 : c ≠ '?' := by rintro rfl; exact absurd hc (by decide)
    rw [run_cons (r' := { r with mode := .target (n ++ [c]) }) (by simp [Rd.step, hc, h4, h5]), ih _ (fun c h => hs c (by simp [h]))]
    simp

/-- processing instructions are forgotten -/
theorem run_pi {r : Rd} (hm : r.mode = .content) (t s : Str) (ht : NameLike t) (hto : targetOK t = true) (hs : Chars s) (hn : ¬ lit! "?>" <:+: s)
    (hh : ∀ c, s.head? = some c → xmlSpace c = true) :
    Rd.run r (lit! "<?" ++ (t ++ (s ++ lit! "?>"))) = .ok r := by
  obtain ⟨m, st, root⟩ := r
  cases hm
  rw [show lit! "<?" ++ (t ++ (s ++ lit! "?>")) = '<' :: '?' :: (t ++ (s ++ lit! "?>")) from rfl]
  rw [run_cons (r' := ⟨.lt, st, root⟩) (by simp [Rd.step]), run_cons (r' := ⟨.target [], st, root⟩) (by simp [Rd.step])]
  rw [run_ok (run_target (r := ⟨.lt, st, root⟩) [] t ht.2)]
  simp only [List.nil_append]
  cases s with
  | nil =>
    rw [List.nil_append, run_cons (r' := ⟨.piEnd, st, root⟩) (by simp [Rd.step, xmlSpace, hto])]
    rfl
  | cons c s =>
    have hc := hh c rfl
    rw [List.cons_append, run_cons (r' := ⟨.pi false, st, root⟩) (by simp [Rd.step, hc, hto])]
    exact run_piBody (r := ⟨.lt, st, root⟩) s (fun c h => hs c (by simp [h])) false (not_infix_tail hn)

theorem adds_append (f : Frame) (s t : Str) : f.adds (s ++ t) = (f.adds s).adds t := by
  simp [Frame.adds]

theorem cdata_add (m : RdMode) (f : Frame) (fs : List Frame) (root : Option Elem) (d : Nat) (c : Char) (hc : isXmlChar c = true) :
    Rd.cdata ⟨m, f :: fs, root⟩ d c = .ok ⟨m, f.adds (List.replicate d ']' ++ [c]) :: fs, root⟩ := by
  induction d generalizing f with
  | zero => simp [Rd.cdata, Rd.data, hc, Frame.adds]
  | succ d ih =>
    have : isXmlChar ']' = true := by decide
    simp only [Rd.cdata, Rd.data, this, if_true, bind, Except.bind]
    rw [ih]
    rfl

/-- after `d` brackets that were not added yet -/
theorem run_cdataBody (s : Str) (hs : Chars s) : ∀ (d : Nat) (f : Frame) (fs : List Frame) (root : Option Elem), d ≤ 2 →
    ¬ lit! "]]>" <:+: List.replicate d ']' ++ s →
    Rd.run ⟨.cdata d, f :: fs, root⟩ (s ++ lit! "]]>") = .ok ⟨.content, f.adds (List.replicate d ']' ++ s) :: fs, root⟩ := by
  have hbr : isXmlChar ']' = true := by decide
  induction s with
  | nil =>
    intro d f fs root hd _
    match d, hd with
    | 0, _ => rfl
    | 1, _ => rfl
    | 2, _ => rfl
  | cons c s ih =>
    intro d f fs root hd hn
    have ih := ih (fun c h => hs c (by simp [h]))
    have hcx := hs c (by simp)
    rw [List.cons_append]
    by_cases hc : c = ']'
    · subst hc
      by_cases h2 : d = 2
      · subst h2
        rw [run_cons (r' := ⟨.cdata 2, f.add ']' :: fs, root⟩) (by simp [Rd.step, Rd.data, hbr, Except.map])]
        rw [ih 2 _ fs root (by omega) (by
          intro h
          exact hn (h.trans ⟨[']'], [], by simp [List.replicate]⟩))]
        simp [Frame.adds, List.replicate]
      · rw [run_cons (r' := ⟨.cdata (d + 1), f :: fs, root⟩) (by simp [Rd.step, h2])]
        have he : List.replicate (d + 1) ']' ++ s = List.replicate d ']' ++ ']' :: s := by
          rw [List.replicate_succ', List.append_assoc]; rfl
        rw [ih (d + 1) f fs root (by omega) (by rw [he]; exact hn), he]
    · have hnc : ¬ (c = '>' ∧ d = 2) := by
        rintro ⟨rfl, rfl⟩
        exact hn ⟨[], s, by simp [List.replicate]⟩
      rw [run_cons (r' := ⟨.cdata 0, f.adds (List.replicate d ']' ++ [c]) :: fs, root⟩) (by
        simp only [Rd.step, hc, if_false, hnc, cdata_add _ _ _ _ _ _ hcx, Except.map])]
      rw [ih 0 _ fs root (by omega) (by
        intro h
        refine hn (h.trans ⟨List.replicate d ']' ++ [c], [], by simp⟩))]
      rw [← adds_append]
      simp

/-- CDATA sections are character data -/
theorem run_cdata (s : Str) (hs : Chars s) (hn : ¬ lit! "]]>" <:+: s) (f : Frame) (fs : List Frame) (root : Option Elem) :
    Rd.run ⟨.content, f :: fs, root⟩ (lit! "<![CDATA[" ++ (s ++ lit! "]]>")) = .ok ⟨.content, f.adds s :: fs, root⟩ := by
  rw [run_ok (r' := ⟨.cdata 0, f :: fs, root⟩) (by simp [Rd.run, Rd.step, bind, Except.bind])]
  exact run_cdataBody s hs 0 f fs root (by omega) hn

theorem run_chars (s : Str) (hs : Chars s) (h1 : '<' ∉ s) (h2 : '&' ∉ s) (f : Frame) (fs : List Frame) (root : Option Elem) :
    Rd.run ⟨.content, f :: fs, root⟩ s = .ok ⟨.content, f.adds s :: fs, root⟩ := by
  induction s generalizing f with
  | nil => rfl
  | cons c s ih =>
    have e1 : c ≠ '<' := by rintro rfl; exact h1 (by simp)
    have e2 : c ≠ '&' := by rintro rfl; exact h2 (by simp)
    rw [run_cons (r' := ⟨.content, f.add c :: fs, root⟩) (by simp [Rd.step, e1, e2, Rd.data, hs c (by simp)])]
    rw [ih (fun c h => hs c (by simp [h])) (fun h => h1 (by simp [h])) (fun h => h2 (by simp [h]))]
    rfl

theorem refChar_xml {s : Str} {d : Char} (h : refChar s = some d) : isXmlChar d = true := by
  have hc : ∀ n d, charOf n = some d → isXmlChar d = true := by
    intro n d h
    simp only [charOf] at h
    split at h
    · split at h
      · cases h; assumption
      · cases h
    · cases h
  unfold refChar at h
  split at h
  · cases h; decide
  split at h
  · cases h; decide
  split at h
  · cases h; decide
  split at h
  · cases h; decide
  split at h
  · cases h; decide
  split at h
  · obtain ⟨n, _, hn⟩ := Option.bind_eq_some_iff.1 h; exact hc n d hn
  · obtain ⟨n, _, hn⟩ := Option.bind_eq_some_iff.1 h; exact hc n d hn
  · cases h

/-- what is not an element adds its character data -/
theorem run_datum {m : Node} (hm : m.OK) {t : Str} (ht : m.datum = some t) (f : Frame) (fs : List Frame) (root : Option Elem) :
    Rd.run ⟨.content, f :: fs, root⟩ m.show = .ok ⟨.content, f.adds t :: fs, root⟩ := by
  cases hm with
  | chars h1 h2 h3 => cases ht; rw [Node.show]; exact run_chars _ h1 h2 h3 f fs root
  | ref h1 h2 =>
    obtain ⟨d, hd⟩ := Option.ne_none_iff_exists'.1 h2
    cases ht
    rw [Node.show, run_ref rfl (by simp) _ d h1 hd]
    simp [Rd.data, refChar_xml hd, hd, Frame.adds]
  | cdata h1 h2 => cases ht; rw [Node.show]; exact run_cdata _ h1 h2 f fs root
  | comment h1 h2 => cases ht; rw [Node.show]; exact run_comment rfl _ h1 h2
  | pi h1 h2 h3 h4 h5 => cases ht; rw [Node.show]; exact run_pi rfl _ _ h1 h2 h3 h4 h5
  | elem => cases ht

theorem addTails_withTail (t : Str) (tag : Str) (attrs : Dict Str Str) (text : Option Str) (kids : List Elem) :
    addTails t (.mk tag attrs text none kids) = withTail t (.mk tag attrs text none kids) := by
  simp only [addTails, withTail, someText, Option.getD_none, List.nil_append]

theorem addTails_append (s t : Str) (e : Elem) : addTails t (addTails s e) = addTails (s ++ t) e := by
  obtain ⟨tag, attrs, text, tail, kids⟩ := e
  simp only [addTails]
  by_cases hs : s = [] <;> by_cases ht : t = [] <;> simp [hs, ht]

theorem addTails_nil (e : Elem) : addTails [] e = e := by cases e; rfl

theorem elem'_tail (m : Node) : ∃ tag attrs text kids, m.elem' = .mk tag attrs text none kids := by
  cases m <;> exact ⟨_, _, _, _, rfl⟩

/-- an open element after all its parts -/
def filled (f : Frame) (ms : List Node) : Frame :=
  match f.kids with
  | [] => { f with text := f.text ++ leadText ms, kids := (elems ms).reverse }
  | k :: ks => { f with kids := (elems ms).reverse ++ addTails (leadText ms) k :: ks }

theorem run_shows (ms : List Node) (hok : ∀ m ∈ ms, m.OK)
    (he : ∀ m ∈ ms, m.datum = none → ∀ (st : List Frame) (root : Option Elem), (st ≠ [] ∨ root = none) →
      Rd.run ⟨.content, st, root⟩ m.show = .ok (Rd.attach ⟨.content, st, root⟩ m.elem'))
    (f : Frame) (fs : List Frame) (root : Option Elem) :
    Rd.run ⟨.content, f :: fs, root⟩ (shows ms) = .ok ⟨.content, filled f ms :: fs, root⟩ := by
  induction ms generalizing f with
  | nil =>
    simp only [shows, Rd.run, filled, leadText, elems]
    split
    · rename_i h; cases f; simp at h; simp [h]
    · rename_i h; cases f; simp at h; simp [h, addTails_nil]
  | cons m ms ih =>
    have ih := ih (fun m h => hok m (by simp [h])) (fun m h => he m (by simp [h]))
    rw [shows]
    cases hd : m.datum with
    | some t =>
      rw [run_ok (run_datum (hok m (by simp)) hd f fs root), ih]
      congr 3
      simp only [filled, leadText, elems, hd]
      cases hk : f.kids with
      | nil => rw [Frame.adds_nil_kids f t hk]; simp [hk]
      | cons k ks => rw [Frame.adds_cons f t k ks hk]; simp [addTails_append]
    | none =>
      rw [run_ok (he m (by simp) hd (f :: fs) root (.inl (by simp)))]
      simp only [Rd.attach]
      rw [ih]
      congr 3
      obtain ⟨tag, attrs, text, kids, hm⟩ := elem'_tail m
      simp only [filled, leadText, elems, hd, hm, addTails_withTail]
      cases hk : f.kids with
      | nil => simp
      | cons k ks => simp [addTails_nil]

theorem att_keys (l : List Att) : (l.map Att.pair).map Prod.fst = l.map Att.key := by
  simp [Function.comp_def, Att.pair]

/-- elements are read as they are meant -/
theorem run_elem : ∀ (m : Node), m.OK → m.datum = none → ∀ (st : List Frame) (root : Option Elem), (st ≠ [] ∨ root = none) →
    Rd.run ⟨.content, st, root⟩ m.show = .ok (Rd.attach ⟨.content, st, root⟩ m.elem') := by
  refine Node.ind ?_ ?_ ?_ ?_ ?_ ?_
  · intro s _ h; cases h
  · intro s _ h; cases h
  · intro s _ h; cases h
  · intro s _ h; cases h
  · intro t s _ h; cases h
  intro tag attrs sp empty kids sp2 ih hok _ st root h0
  cases hok with
  | elem h1 h2 h3 h4 h5 h6 h7 =>
    obtain ⟨htag, ht⟩ := h1
    have hl : (st.isEmpty && root.isSome) = false := by
      rcases h0 with h | rfl
      · cases st with
        | nil => exact absurd rfl h
        | cons => rfl
      · simp
    have hkeys : ((attrs.map Att.pair).map Prod.fst).Nodup := by rw [att_keys]; exact h3
    rw [Node.show, run_cons (r' := ⟨.lt, st, root⟩) (by simp only [Rd.step, if_true])]
    cases tag with
    | nil => exact absurd rfl htag
    | cons d tag =>
      have hd := ht d (by simp)
      obtain ⟨_, _, e3, _⟩ := nameEnd_eq hd
      have e4 : d ≠ '!' := by rintro rfl; exact absurd hd (by decide)
      have e5 : d ≠ '?' := by rintro rfl; exact absurd hd (by decide)
      generalize hrest : (if empty then lit! "/>" else '>' :: (shows kids ++ ('<' :: '/' :: (d :: tag ++ (sp2 ++ ['>']))))) = rest
      have hr : ∃ c t, rest = c :: t ∧ nameEnd c = true := by
        rw [← hrest]
        cases empty
        · exact ⟨'>', _, rfl, by decide⟩
        · exact ⟨'/', _, rfl, by decide⟩
      rw [List.cons_append, run_cons (r' := ⟨.name [d], st, root⟩) (by
        simp only [Rd.step, hd, e3, e4, e5, hl, if_false, Bool.false_eq_true])]
      rw [run_ok (run_name (r := ⟨.lt, st, root⟩) [d] tag (fun c h => ht c (by simp [h])))]
      have hstart : ∃ c t, attrs.flatMap Att.show ++ (sp ++ rest) = c :: t ∧ nameEnd c = true := by
        obtain ⟨c, t, hr, hc⟩ := hr
        cases attrs with
        | nil =>
          cases sp with
          | nil => exact ⟨c, t, hr, hc⟩
          | cons x sp => exact ⟨x, _, rfl, (space_ne (h4 x (by simp))).2.2.2.2.2⟩
        | cons a l =>
          have ha := h2 a (by simp)
          cases hla : a.lead with
          | nil => exact absurd hla ha.lead
          | cons x s =>
            refine ⟨x, _, by simp only [List.flatMap_cons, Att.show, hla, List.cons_append]; rfl, (space_ne (ha.leads x (by simp [hla]))).2.2.2.2.2⟩
      obtain ⟨c, t, he, hc⟩ := hstart
      rw [he, run_name_tag _ _ _ hc, ← he]
      rw [run_ok (run_atts (r := ⟨.lt, st, root⟩) ([d] ++ tag) [] attrs h2)]
      simp only [List.nil_append, List.singleton_append]
      rw [run_ok (run_tagWs (r := ⟨.lt, st, root⟩) (d :: tag) _ false sp h4)]
      rw [← hrest]
      cases hem : empty with
      | true =>
        have := h7 hem
        subst this
        simp only [if_true]
        rw [run_cons (r' := ⟨.empty (d :: tag) (attrs.map Att.pair), st, root⟩) (by simp [Rd.step, Rd.inTag, xmlSpace])]
        rw [run_cons (r' := Rd.attach ⟨.empty (d :: tag) (attrs.map Att.pair), st, root⟩ (.mk (d :: tag) (attrs.map Att.pair) none none [])) (by
          simp only [Rd.step, if_true, hkeys])]
        cases st <;> simp [Rd.run, Rd.attach, Node.elem', leadText, elems, someText]
      | false =>
        simp only [Bool.false_eq_true, if_false]
        rw [run_cons (r' := ⟨.content, ⟨d :: tag, attrs.map Att.pair, [], []⟩ :: st, root⟩) (by
          simp only [Rd.step, Rd.inTag, hkeys, if_true]; rfl)]
        rw [run_ok (run_shows kids h6 (fun m hm hd st root h => ih m hm (h6 m hm) hd st root h) _ st root)]
        simp only [filled, List.nil_append]
        rw [run_cons (r' := ⟨.lt, _, root⟩) (by simp only [Rd.step, if_true]; rfl)]
        rw [run_cons (r' := ⟨.close [], _, root⟩) (by simp only [Rd.step, if_true]; rfl)]
        rw [run_ok (run_close (r := ⟨.lt, _, root⟩) [] (d :: tag) ht)]
        simp only [List.nil_append]
        have hend : ∀ (f : Frame) (hf : f.tag = d :: tag), Rd.end ⟨.close (d :: tag), f :: st, root⟩ (d :: tag) =
            .ok (Rd.attach ⟨.content, st, root⟩ (.mk (d :: tag) f.attrs (someText f.text) none f.kids.reverse)) := by
          intro f hf
          simp only [Rd.end, hf, if_true]
          cases st <;> rfl
        have hend' : ∀ (f : Frame) (hf : f.tag = d :: tag), Rd.end ⟨.closed (d :: tag), f :: st, root⟩ (d :: tag) =
            .ok (Rd.attach ⟨.content, st, root⟩ (.mk (d :: tag) f.attrs (someText f.text) none f.kids.reverse)) := by
          intro f hf
          simp only [Rd.end, hf, if_true]
          cases st <;> rfl
        cases sp2 with
        | nil =>
          simp only [List.nil_append, Rd.run, Rd.step, if_true]
          rw [hend _ rfl]
          simp [bind, Except.bind, Node.elem']
        | cons x sp2 =>
          have hx := h5 x (by simp)
          obtain ⟨_, x2, _⟩ := space_ne hx
          rw [List.cons_append, run_cons (r' := ⟨.closed (d :: tag), _, root⟩) (by simp only [Rd.step, x2, hx, if_true, if_false]; rfl)]
          have hws : ∀ (s : Str), Spaces s → ∀ (st : List Frame) (rt : Option Elem) (n : Str), Rd.run ⟨.closed n, st, rt⟩ s = .ok ⟨.closed n, st, rt⟩ := by
            intro s hs st rt n
            induction s with
            | nil => rfl
            | cons c s ih =>
              have hc := hs c (by simp)
              rw [run_cons (r' := ⟨.closed n, st, rt⟩) (by simp [Rd.step, hc, (space_ne hc).2.1]), ih (fun c h => hs c (by simp [h]))]
          rw [run_ok (hws sp2 (fun c h => h5 c (by simp [h])) _ root _)]
          simp only [Rd.run, Rd.step, if_true]
          rw [hend' _ rfl]
          simp [bind, Except.bind, Node.elem']

end Xigt.Mu
