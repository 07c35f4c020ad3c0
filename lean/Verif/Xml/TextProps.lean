import Verif.Xml.Text
import Verif.Xml.Fragments
/- The text layer: what the serialiser writes is read as `parseElem` says (C90). -/

set_option linter.unusedSectionVars false

namespace Xigt

/-! ### The reader, character by character -/

theorem run_append (r : Rd) (s t : Str) : Rd.run r (s ++ t) = (Rd.run r s).bind fun r => Rd.run r t := by
  induction s generalizing r with
  | nil => rfl
  | cons c s ih =>
    simp only [List.cons_append, Rd.run, bind, Except.bind]
    cases h : r.step c with
    | error e => rfl
    | ok r' => exact ih r'

theorem run_ok {r r' : Rd} {s : Str} (h : Rd.run r s = .ok r') (t : Str) : Rd.run r (s ++ t) = Rd.run r' t := by
  rw [run_append, h]; rfl

theorem run_cons {r r' : Rd} {c : Char} (h : r.step c = .ok r') (t : Str) : Rd.run r (c :: t) = Rd.run r' t := by
  simp only [Rd.run, h, bind, Except.bind]

/-- names are read as they are -/
theorem run_name {r : Rd} (n s : Str) (hs : ∀ c ∈ s, nameEnd c = false) :
    Rd.run { r with mode := .name n } s = .ok { r with mode := .name (n ++ s) } := by
  induction s generalizing n with
  | nil => simp [Rd.run]
  | cons c s ih =>
    have hc := hs c (by simp)
    rw [run_cons (r' := { r with mode := .name (n ++ [c]) }) (by simp [Rd.step, hc]), ih _ (fun c h => hs c (by simp [h]))]
    simp

theorem nameEnd_eq {c : Char} (h : nameEnd c = false) : c ≠ '=' ∧ c ≠ '>' ∧ c ≠ '/' ∧ xmlSpace c = false := by
  refine ⟨?_, ?_, ?_, ?_⟩
  · rintro rfl; exact absurd h (by decide)
  · rintro rfl; exact absurd h (by decide)
  · rintro rfl; exact absurd h (by decide)
  · cases hx : xmlSpace c with
    | false => rfl
    | true =>
      simp only [xmlSpace, Bool.or_eq_true, decide_eq_true_eq] at hx
      rcases hx with ((rfl | rfl) | rfl) | rfl <;> exact absurd h (by decide)

theorem run_attr {r : Rd} (n : Str) (as : Dict Str Str) (k s : Str) (hs : ∀ c ∈ s, nameEnd c = false) :
    Rd.run { r with mode := .attr n as k } s = .ok { r with mode := .attr n as (k ++ s) } := by
  induction s generalizing k with
  | nil => simp [Rd.run]
  | cons c s ih =>
    have hc := hs c (by simp)
    obtain ⟨h1, _, _, h4⟩ := nameEnd_eq hc
    rw [run_cons (r' := { r with mode := .attr n as (k ++ [c]) }) (by simp [Rd.step, hc, h1, h4]), ih _ (fun c h => hs c (by simp [h]))]
    simp

theorem run_close {r : Rd} (n s : Str) (hs : ∀ c ∈ s, nameEnd c = false) :
    Rd.run { r with mode := .close n } s = .ok { r with mode := .close (n ++ s) } := by
  induction s generalizing n with
  | nil => simp [Rd.run]
  | cons c s ih =>
    have hc := hs c (by simp)
    obtain ⟨_, h1, _, h4⟩ := nameEnd_eq hc
    rw [run_cons (r' := { r with mode := .close (n ++ [c]) }) (by simp [Rd.step, hc, h1, h4]), ih _ (fun c h => hs c (by simp [h]))]
    simp

/-- a reference in a value -/
theorem run_vref {r : Rd} (n : Str) (as : Dict Str Str) (k : Str) (v s : Str) (d : Char) (hs : ';' ∉ s) (hd : refChar s = some d) :
    Rd.run { r with mode := .value n as k '"' v } ('&' :: (s ++ [';'])) = .ok { r with mode := .value n as k '"' (v ++ [d]) } := by
  rw [run_cons (r' := { r with mode := .vref n as k '"' v [] }) (by simp [Rd.step])]
  suffices h : ∀ (s t : Str), ';' ∉ t → refChar (s ++ t) = some d → Rd.run { r with mode := .vref n as k '"' v s } (t ++ [';']) =
      .ok { r with mode := .value n as k '"' (v ++ [d]) } from h [] s hs hd
  intro s t
  induction t generalizing s with
  | nil =>
    intro _ hd
    rw [List.append_nil] at hd
    simp [Rd.run, Rd.step, hd, bind, Except.bind]
  | cons c t ih =>
    intro hs hd
    have hc : c ≠ ';' := by rintro rfl; exact hs (by simp)
    rw [List.cons_append, run_cons (r' := { r with mode := .vref n as k '"' v (s ++ [c]) }) (by simp [Rd.step, hc])]
    exact ih _ (fun h => hs (by simp [h])) (by simpa using hd)

/-- a reference in character data -/
theorem run_ref {r : Rd} (hm : r.mode = .content) (hne : r.stack ≠ []) (s : Str) (d : Char) (hs : ';' ∉ s) (hd : refChar s = some d) :
    Rd.run r ('&' :: (s ++ [';'])) = r.data d := by
  obtain ⟨mode, stack, root⟩ := r
  cases hm
  have he : stack.isEmpty = false := by cases stack with
    | nil => exact absurd rfl hne
    | cons => rfl
  rw [run_cons (r' := ⟨.ref [], stack, root⟩) (by simp [Rd.step, he])]
  suffices h : ∀ (s t : Str), ';' ∉ t → refChar (s ++ t) = some d → Rd.run ⟨.ref s, stack, root⟩ (t ++ [';']) =
      Rd.data ⟨.content, stack, root⟩ d from h [] s hs hd
  intro s t
  induction t generalizing s with
  | nil =>
    intro _ hd
    rw [List.append_nil] at hd
    simp only [List.nil_append, Rd.run, Rd.step, hd, bind, Except.bind, if_true]
    cases Rd.data ⟨.content, stack, root⟩ d <;> rfl
  | cons c t ih =>
    intro hs hd
    have hc : c ≠ ';' := by rintro rfl; exact hs (by simp)
    rw [List.cons_append, run_cons (r' := ⟨.ref (s ++ [c]), stack, root⟩) (by simp [Rd.step, hc])]
    exact ih _ (fun h => hs (by simp [h])) (by simpa using hd)

/-- values are read as they were -/
theorem run_value {r : Rd} (n : Str) (as : Dict Str Str) (k v s : Str) (hs : ∀ c ∈ s, isXmlChar c = true) :
    Rd.run { r with mode := .value n as k '"' v } (escAttr s) = .ok { r with mode := .value n as k '"' (v ++ s) } := by
  induction s generalizing v with
  | nil => simp [Rd.run, escAttr]
  | cons c s ih =>
    have hc := hs c (by simp)
    have ih := ih (v ++ [c]) (fun c h => hs c (by simp [h]))
    rw [show escAttr (c :: s) = escAttr [c] ++ escAttr s by simp [escAttr]]
    suffices h : Rd.run { r with mode := .value n as k '"' v } (escAttr [c]) = .ok { r with mode := .value n as k '"' (v ++ [c]) } by
      rw [run_ok h, ih]; simp
    by_cases h1 : c = '&'
    · subst h1; exact run_vref n as k v (lit! "amp") _ (by decide) rfl
    by_cases h2 : c = '<'
    · subst h2; exact run_vref n as k v (lit! "lt") _ (by decide) rfl
    by_cases h3 : c = '>'
    · subst h3; exact run_vref n as k v (lit! "gt") _ (by decide) rfl
    by_cases h4 : c = '"'
    · subst h4; exact run_vref n as k v (lit! "quot") _ (by decide) rfl
    by_cases h5 : c = '\r'
    · subst h5; exact run_vref n as k v (lit! "#13") _ (by decide) rfl
    by_cases h6 : c = '\n'
    · subst h6; exact run_vref n as k v (lit! "#10") _ (by decide) rfl
    by_cases h7 : c = '\t'
    · subst h7; exact run_vref n as k v (lit! "#09") _ (by decide) rfl
    have he : escAttr [c] = [c] := by simp [escAttr, h1, h2, h3, h4, h5, h6, h7]
    have hx : (if xmlSpace c = true then ' ' else c) = c := by
      split
      · rename_i h
        simp only [xmlSpace, Bool.or_eq_true, decide_eq_true_eq, h5, h6, h7, or_false] at h
        exact h.symm
      · rfl
    rw [he, run_cons (r' := { r with mode := .value n as k '"' (v ++ [c]) }) (by simp [Rd.step, h1, h2, h4, hc, hx])]
    rfl

/-- attributes are read as they were -/
theorem run_attrs {r : Rd} (n : Str) (as l : Dict Str Str) (w : Bool) (hk : ∀ p ∈ l, p.1 ≠ [] ∧ ∀ c ∈ p.1, nameEnd c = false)
    (hv : ∀ p ∈ l, ∀ c ∈ p.2, isXmlChar c = true) :
    Rd.run { r with mode := .tag n as w } (serAttrs l) = .ok { r with mode := .tag n (as ++ l) (w && l.isEmpty) } := by
  induction l generalizing as w with
  | nil => simp [Rd.run, serAttrs]
  | cons p l ih =>
    obtain ⟨k, v⟩ := p
    obtain ⟨hk1, hk2⟩ := hk (k, v) (by simp)
    have hv1 := hv (k, v) (by simp)
    simp only at hk1 hk2 hv1
    have ih := ih (as ++ [(k, v)]) false (fun p h => hk p (by simp [h])) (fun p h => hv p (by simp [h]))
    cases k with
    | nil => exact absurd rfl hk1
    | cons c k =>
      have hc := hk2 c (by simp)
      obtain ⟨_, e2, e3, e4⟩ := nameEnd_eq hc
      rw [show serAttrs ((c :: k, v) :: l) = ' ' :: c :: (k ++ ('=' :: '"' :: (escAttr v ++ ('"' :: serAttrs l)))) by simp [serAttrs]]
      rw [run_cons (r' := { r with mode := .tag n as true }) (by simp [Rd.step, Rd.inTag, xmlSpace])]
      rw [run_cons (r' := { r with mode := .attr n as [c] }) (by simp [Rd.step, Rd.inTag, e2, e3, e4, hc])]
      rw [run_ok (run_attr n as [c] k (fun c h => hk2 c (by simp [h])))]
      rw [run_cons (r' := { r with mode := .quote n as ([c] ++ k) }) (by simp [Rd.step])]
      rw [run_cons (r' := { r with mode := .value n as ([c] ++ k) '"' [] }) (by simp [Rd.step])]
      rw [run_ok (run_value n as ([c] ++ k) [] v hv1)]
      rw [run_cons (r' := { r with mode := .tag n (as ++ [([c] ++ k, [] ++ v)]) false }) (by simp [Rd.step])]
      refine ih.trans ?_
      simp

/-- character data added to an open element -/
def Frame.adds (f : Frame) (s : Str) : Frame := s.foldl Frame.add f

theorem Frame.adds_nil_kids (f : Frame) (s : Str) (h : f.kids = []) : f.adds s = { f with text := f.text ++ s } := by
  induction s generalizing f with
  | nil => simp [Frame.adds]
  | cons c s ih =>
    have hf : f.add c = { f with text := f.text ++ [c] } := by simp only [Frame.add, h]
    show (f.add c).adds s = _
    rw [ih _ (by rw [hf]; exact h), hf]
    simp

def addTails (s : Str) : Elem → Elem
  | .mk tag attrs text tail kids => .mk tag attrs text (if s = [] then tail else some (tail.getD [] ++ s)) kids

theorem Frame.adds_cons (f : Frame) (s : Str) (k : Elem) (ks : List Elem) (h : f.kids = k :: ks) :
    f.adds s = { f with kids := addTails s k :: ks } := by
  induction s generalizing f k with
  | nil =>
    cases f; cases k
    cases h
    rfl
  | cons c s ih =>
    have hf : f.add c = { f with kids := addTail c k :: ks } := by simp only [Frame.add, h]
    show (f.add c).adds s = _
    rw [ih (f.add c) (addTail c k) (by rw [hf]), hf]
    congr 2
    cases k
    simp only [addTail, addTails]
    by_cases hs : s = [] <;> simp [hs]

/-- character data is read as it was -/
theorem run_text {m : RdMode} (hm : m = .content) (f : Frame) (fs : List Frame) (root : Option Elem) (s : Str)
    (hs : ∀ c ∈ s, isXmlChar c = true) : Rd.run ⟨m, f :: fs, root⟩ (escText s) = .ok ⟨m, f.adds s :: fs, root⟩ := by
  subst hm
  induction s generalizing f with
  | nil => simp [Rd.run, escText, Frame.adds]
  | cons c s ih =>
    have hc := hs c (by simp)
    have ih := ih (f.add c) (fun c h => hs c (by simp [h]))
    rw [show escText (c :: s) = escText [c] ++ escText s by simp [escText]]
    have hd : Rd.data ⟨.content, f :: fs, root⟩ c = .ok ⟨.content, f.add c :: fs, root⟩ := by simp [Rd.data, hc]
    suffices h : Rd.run ⟨.content, f :: fs, root⟩ (escText [c]) = .ok ⟨.content, f.add c :: fs, root⟩ by
      rw [run_ok h, ih]; rfl
    by_cases h1 : c = '&'
    · subst h1; exact (run_ref rfl (by simp) (lit! "amp") _ (by decide) rfl).trans hd
    by_cases h2 : c = '<'
    · subst h2; exact (run_ref rfl (by simp) (lit! "lt") _ (by decide) rfl).trans hd
    by_cases h3 : c = '>'
    · subst h3; exact (run_ref rfl (by simp) (lit! "gt") _ (by decide) rfl).trans hd
    have he : escText [c] = [c] := by simp [escText, h1, h2, h3]
    rw [he, run_cons (r' := ⟨.content, f.add c :: fs, root⟩) (by simp only [Rd.step, h1, h2, if_false]; exact hd)]
    rfl

/-! ### Elements -/

/-- an element the serialiser can write so that it can be read -/
inductive ElemOK : Elem → Prop
  | mk {tag attrs text tail kids} : tag ≠ [] → (∀ c ∈ tag, nameEnd c = false) →
      (∀ p ∈ attrs, p.1 ≠ [] ∧ ∀ c ∈ p.1, nameEnd c = false) → (attrs.map Prod.fst).Nodup →
      (∀ p ∈ attrs, ∀ c ∈ p.2, isXmlChar c = true) → (∀ c ∈ text.getD [], isXmlChar c = true) →
      (∀ c ∈ tail.getD [], isXmlChar c = true) → (∀ k ∈ kids, ElemOK k) → ElemOK (.mk tag attrs text tail kids)

mutual
/-- the same element without empty texts -/
def rawE : Elem → Elem
  | .mk tag attrs text tail kids => .mk tag attrs (someText (text.getD [])) (someText (tail.getD [])) (rawEs kids)
def rawEs : List Elem → List Elem
  | [] => []
  | x :: xs => rawE x :: rawEs xs
end

theorem rawEs_eq (l : List Elem) : rawEs l = l.map rawE := by
  induction l with
  | nil => rfl
  | cons x l ih => rw [rawEs, ih]; rfl

def noTail : Elem → Elem
  | .mk tag attrs text _ kids => .mk tag attrs text none kids

/-- what is written before the tail -/
def core : Elem → Str
  | .mk tag attrs text _ kids =>
    '<' :: (tag ++ (serAttrs attrs ++
      (if (text.getD []).isEmpty && kids.isEmpty then lit! " />"
        else '>' :: (escText (text.getD []) ++ (sers kids ++ ('<' :: '/' :: (tag ++ ['>'])))))))

theorem ser_eq (e : Elem) : ser e = core e ++ escText (e.tail.getD []) := by
  cases e; simp [ser, core, Elem.tail]

/-- after the name of a start tag it makes no difference whether there were attributes -/
theorem run_name_tag {st : List Frame} {root : Option Elem} (n : Str) (c : Char) (t : Str) (hc : nameEnd c = true) :
    Rd.run ⟨.name n, st, root⟩ (c :: t) = Rd.run ⟨.tag n [] false, st, root⟩ (c :: t) := by
  simp only [Rd.run, Rd.step, hc, if_true, Rd.inTag]

theorem serAttrs_cons (p : Str × Str) (l : Dict Str Str) : ∃ t, serAttrs (p :: l) = ' ' :: t := ⟨_, rfl⟩

/-- name and attributes of a start tag, before the character `c` that ends them -/
theorem run_start {st : List Frame} {root : Option Elem} (tag : Str) (attrs : Dict Str Str) (htag : tag ≠ [])
    (ht : ∀ c ∈ tag, nameEnd c = false) (hk : ∀ p ∈ attrs, p.1 ≠ [] ∧ ∀ c ∈ p.1, nameEnd c = false)
    (hv : ∀ p ∈ attrs, ∀ c ∈ p.2, isXmlChar c = true) (h0 : st ≠ [] ∨ root = none) (c : Char) (hc : nameEnd c = true) (t : Str) :
    Rd.run ⟨.content, st, root⟩ ('<' :: (tag ++ (serAttrs attrs ++ c :: t))) = Rd.run ⟨.tag tag attrs false, st, root⟩ (c :: t) := by
  have hl : (st.isEmpty && root.isSome) = false := by
    rcases h0 with h | rfl
    · cases st with
      | nil => exact absurd rfl h
      | cons => rfl
    · simp
  rw [run_cons (r' := ⟨.lt, st, root⟩) (by simp only [Rd.step, if_true])]
  cases tag with
  | nil => exact absurd rfl htag
  | cons d tag =>
    have hd := ht d (by simp)
    obtain ⟨_, _, e3, _⟩ := nameEnd_eq hd
    have e4 : d ≠ '!' := by rintro rfl; exact absurd hd (by decide)
    have e5 : d ≠ '?' := by rintro rfl; exact absurd hd (by decide)
    rw [List.cons_append, run_cons (r' := ⟨.name [d], st, root⟩) (by
      simp only [Rd.step, hd, e3, e4, e5, hl, if_false, Bool.false_eq_true])]
    rw [run_ok (run_name (r := ⟨.lt, st, root⟩) [d] tag (fun c h => ht c (by simp [h])))]
    have hrest : ∃ c' t', serAttrs attrs ++ c :: t = c' :: t' ∧ nameEnd c' = true := by
      cases attrs with
      | nil => exact ⟨c, t, rfl, hc⟩
      | cons p l => exact ⟨' ', _, rfl, by decide⟩
    obtain ⟨c', t', he, hc'⟩ := hrest
    rw [he, run_name_tag _ _ _ hc', ← he]
    rw [run_ok (run_attrs (r := ⟨.lt, st, root⟩) ([d] ++ tag) [] attrs false hk hv)]
    rfl

theorem reverse_append_singleton {α : Type} (a : α) (l : List α) : (l ++ [a]).reverse = a :: l.reverse := by simp

/-- children in turn -/
theorem run_sers (kids : List Elem) (hok : ∀ k ∈ kids, ElemOK k)
    (hk : ∀ k ∈ kids, ∀ (st : List Frame) (root : Option Elem), (st ≠ [] ∨ root = none) →
      Rd.run ⟨.content, st, root⟩ (core k) = .ok (Rd.attach ⟨.content, st, root⟩ (noTail (rawE k))))
    (f : Frame) (fs : List Frame) (root : Option Elem) :
    Rd.run ⟨.content, f :: fs, root⟩ (sers kids) = .ok ⟨.content, { f with kids := (kids.map rawE).reverse ++ f.kids } :: fs, root⟩ := by
  induction kids generalizing f with
  | nil => simp [sers, Rd.run]
  | cons k ks ih =>
    have h1 := hk k (by simp) (f :: fs) root (.inl (by simp))
    have ho := hok k (by simp)
    rw [sers, ser_eq, List.append_assoc, run_ok h1]
    simp only [Rd.attach]
    have htail : ∀ c ∈ k.tail.getD [], isXmlChar c = true := by
      cases ho with | mk _ _ _ _ _ _ h _ => exact h
    rw [run_ok (run_text rfl _ fs root _ htail)]
    rw [Frame.adds_cons _ _ (noTail (rawE k)) f.kids rfl]
    have : addTails (k.tail.getD []) (noTail (rawE k)) = rawE k := by
      cases k
      simp only [rawE, noTail, addTails, Elem.tail, Option.getD_none, List.nil_append, someText]
      congr
    rw [this, ih (fun k h => hok k (by simp [h])) (fun k h => hk k (by simp [h]))]
    simp

theorem run_core : ∀ (e : Elem), ElemOK e → ∀ (st : List Frame) (root : Option Elem), (st ≠ [] ∨ root = none) →
    Rd.run ⟨.content, st, root⟩ (core e) = .ok (Rd.attach ⟨.content, st, root⟩ (noTail (rawE e))) := by
  refine Elem.ind fun tag attrs text tail kids ih hok st root h0 => ?_
  cases hok with
  | mk h1 h2 h3 h4 h5 h6 h7 h8 =>
    simp only [core]
    split
    · rename_i hemp
      rw [Bool.and_eq_true, List.isEmpty_iff, List.isEmpty_iff] at hemp
      obtain ⟨ht, rfl⟩ := hemp
      rw [show lit! " />" = ' ' :: ['/', '>'] from rfl, run_start tag attrs h1 h2 h3 h5 h0 ' ' (by decide)]
      rw [run_cons (r' := ⟨.tag tag attrs true, st, root⟩) (by simp [Rd.step, Rd.inTag, xmlSpace])]
      rw [run_cons (r' := ⟨.empty tag attrs, st, root⟩) (by simp [Rd.step, Rd.inTag, xmlSpace])]
      rw [run_cons (r' := Rd.attach ⟨.empty tag attrs, st, root⟩ (.mk tag attrs none none [])) (by simp [Rd.step, h4])]
      cases st <;> simp [Rd.run, Rd.attach, rawE, rawEs, noTail, ht, someText]
    · rw [run_start tag attrs h1 h2 h3 h5 h0 '>' (by decide)]
      rw [run_cons (r' := ⟨.content, ⟨tag, attrs, [], []⟩ :: st, root⟩) (by simp [Rd.step, Rd.inTag, xmlSpace, h4])]
      rw [run_ok (run_text rfl _ st root _ h6), Frame.adds_nil_kids _ _ rfl]
      rw [run_ok (run_sers kids h8 (fun k hk st root h => ih k hk (h8 k hk) st root h) _ st root)]
      rw [run_cons (r' := ⟨.lt, _, root⟩) (by simp only [Rd.step, if_true]; rfl)]
      rw [run_cons (r' := ⟨.close [], _, root⟩) (by simp only [Rd.step, if_true]; rfl)]
      rw [run_ok (run_close (r := ⟨.lt, _, root⟩) [] tag h2)]
      simp only [List.nil_append, List.append_nil, Rd.run, Rd.step, if_true, Rd.end, List.reverse_reverse, bind, Except.bind]
      cases st <;> simp [Rd.attach, rawE, rawEs_eq, noTail]

/-! ### Line ends -/

theorem eol_append (a b : Str) (hb : b.head? ≠ some '\n') : eol (a ++ b) = eol a ++ eol b := by
  induction a using eol.induct with
  | case1 r ih => simp only [List.cons_append, eol, ih]
  | case2 r h ih =>
    have h' : ∀ t, r ++ b ≠ '\n' :: t := by
      intro t ht
      cases r with
      | nil => rw [List.nil_append] at ht; rw [ht] at hb; exact hb rfl
      | cons c r => rw [List.cons_append] at ht; injection ht with e1 e2; subst e1; exact h r rfl
    rw [List.cons_append, eol, eol, ih]
    · rfl
    · exact h
    · exact h'
  | case3 c r h1 h2 ih =>
    rw [List.cons_append, eol, eol, ih]
    · rfl
    · exact h1
    · exact h2
    · intro t hc ht
      cases r with
      | nil => exact h2 hc
      | cons d r => rw [List.cons_append] at ht; injection ht with e1 e2; subst e1; exact h1 r hc rfl
    · exact h2
  | case4 => rfl

theorem eol_noCr (a b : Str) (ha : '\r' ∉ a) : eol (a ++ b) = a ++ eol b := by
  induction a with
  | nil => rfl
  | cons c a ih =>
    have hc : c ≠ '\r' := by rintro rfl; exact ha (by simp)
    rw [List.cons_append, eol, ih (fun h => ha (by simp [h]))]
    · rfl
    · intro r h; exact absurd h hc
    · exact hc

theorem eol_chars (s : Str) (h : ∀ c ∈ s, isXmlChar c = true) : ∀ c ∈ eol s, isXmlChar c = true := by
  induction s using eol.induct with
  | case1 r ih =>
    rw [eol]
    intro c hc
    rcases List.mem_cons.1 hc with rfl | hc
    · decide
    · exact ih (fun c h' => h c (by simp [h'])) c hc
  | case2 r hr ih =>
    rw [eol]
    · intro c hc
      rcases List.mem_cons.1 hc with rfl | hc
      · decide
      · exact ih (fun c h' => h c (by simp [h'])) c hc
    · exact hr
  | case3 c r h1 h2 ih =>
    rw [eol]
    · intro d hd
      rcases List.mem_cons.1 hd with rfl | hd
      · exact h d (by simp)
      · exact ih (fun c h' => h c (by simp [h'])) d hd
    · exact h1
    · exact h2
  | case4 => exact h

theorem eol_ncr (s : Str) : '\r' ∉ eol s := by
  induction s using eol.induct with
  | case1 r ih => rw [eol]; intro h; rcases List.mem_cons.1 h with h | h; exact absurd h (by decide); exact ih h
  | case2 r hr ih => rw [eol]; intro h; rcases List.mem_cons.1 h with h | h; exact absurd h (by decide); exact ih h; exact hr
  | case3 c r h1 h2 ih => rw [eol]; intro h; rcases List.mem_cons.1 h with h | h; exact h2 h.symm; exact ih h; exact h1; exact h2
  | case4 => simp [eol]

theorem escText_append (a b : Str) : escText (a ++ b) = escText a ++ escText b := by simp [escText]

theorem escText_ne {c : Char} (h1 : c ≠ '&') (h2 : c ≠ '<') (h3 : c ≠ '>') (r : Str) : escText (c :: r) = c :: escText r := by
  simp [escText, h1, h2, h3]

theorem escText_head (s : Str) (h : s.head? ≠ some '\n') : (escText s).head? ≠ some '\n' := by
  cases s with
  | nil => simp [escText]
  | cons c s =>
    have hc : c ≠ '\n' := by rintro rfl; exact h rfl
    by_cases h1 : c = '&'
    · subst h1; simp [escText]
    by_cases h2 : c = '<'
    · subst h2; simp [escText]
    by_cases h3 : c = '>'
    · subst h3; simp [escText]
    rw [escText_ne h1 h2 h3]; simp [hc]

theorem eol_esc (s : Str) : eol (escText s) = escText (eol s) := by
  induction s using eol.induct with
  | case1 r ih =>
    rw [eol, escText_ne (by decide) (by decide) (by decide), escText_ne (by decide) (by decide) (by decide),
      escText_ne (by decide) (by decide) (by decide), eol, ih]
  | case2 r h ih =>
    rw [escText_ne (by decide) (by decide) (by decide), eol, eol, ih, escText_ne (by decide) (by decide) (by decide)]
    · exact h
    · intro t ht
      refine escText_head r ?_ (by rw [ht]; rfl)
      intro hh
      cases r with
      | nil => cases hh
      | cons c r => cases hh; exact h r rfl
  | case3 c r h1 h2 ih =>
    rw [eol]
    · rw [show c :: r = [c] ++ r from rfl, escText_append, eol_noCr, ih]
      · rw [show c :: eol r = [c] ++ eol r from rfl, escText_append]
      · by_cases e1 : c = '&'
        · subst e1; decide
        by_cases e2 : c = '<'
        · subst e2; decide
        by_cases e3 : c = '>'
        · subst e3; decide
        rw [escText_ne e1 e2 e3]
        simp [escText]
        exact fun h => h2 h.symm
    · exact h1
    · exact h2
  | case4 => rfl

theorem escAttr_ncr (s : Str) : '\r' ∉ escAttr s := by
  intro h
  obtain ⟨c, _, hc⟩ := List.mem_flatMap.1 h
  split at hc
  · exact absurd hc (by decide)
  split at hc
  · exact absurd hc (by decide)
  split at hc
  · exact absurd hc (by decide)
  split at hc
  · exact absurd hc (by decide)
  split at hc
  · exact absurd hc (by decide)
  split at hc
  · exact absurd hc (by decide)
  split at hc
  · exact absurd hc (by decide)
  · rename_i h5 _ _
    exact h5 (List.mem_singleton.1 hc).symm

theorem serAttrs_ncr (attrs : Dict Str Str) (h : ∀ p ∈ attrs, ∀ c ∈ p.1, nameEnd c = false) : '\r' ∉ serAttrs attrs := by
  intro hm
  obtain ⟨p, hp, hc⟩ := List.mem_flatMap.1 hm
  simp only [List.mem_cons, List.mem_append, List.not_mem_nil, or_false] at hc
  rcases hc with hc | hc | hc | hc | hc | hc
  · exact absurd hc (by decide)
  · exact absurd (h p hp _ hc) (by decide)
  · exact absurd hc (by decide)
  · exact absurd hc (by decide)
  · exact escAttr_ncr _ hc
  · exact absurd hc (by decide)

mutual
/-- line ends normalised in all texts -/
def eolE : Elem → Elem
  | .mk tag attrs text tail kids => .mk tag attrs (text.map eol) (tail.map eol) (eolEs kids)
def eolEs : List Elem → List Elem
  | [] => []
  | x :: xs => eolE x :: eolEs xs
end

theorem eolEs_eq (l : List Elem) : eolEs l = l.map eolE := by
  induction l with
  | nil => rfl
  | cons x l ih => rw [eolEs, ih]; rfl

theorem eol_isEmpty (s : Str) : (eol s).isEmpty = s.isEmpty := by
  induction s using eol.induct with
  | case1 r ih => rfl
  | case2 r h ih => rw [eol]; rfl; exact h
  | case3 c r h1 h2 ih => rw [eol]; rfl; exact h1; exact h2
  | case4 => rfl

theorem getD_eol (t : Option Str) : (t.map eol).getD [] = eol (t.getD []) := by
  cases t <;> rfl

/-- normalising line ends of the document is normalising them in all texts -/
theorem eol_ser : ∀ (e : Elem), ElemOK e → ∀ (rest : Str), rest.head? ≠ some '\n' → eol (ser e ++ rest) = ser (eolE e) ++ eol rest := by
  refine Elem.ind fun tag attrs text tail kids ih hok rest hrest => ?_
  cases hok with
  | mk h1 h2 h3 h4 h5 h6 h7 h8 =>
    have htag : '\r' ∉ tag := fun h => absurd (h2 _ h) (by decide)
    have hat := serAttrs_ncr attrs (fun p h => (h3 p h).2)
    have hkids : ∀ (ks : List Elem), (∀ k ∈ ks, k ∈ kids) → ∀ t : Str, t.head? ≠ some '\n' → eol (sers ks ++ t) = sers (eolEs ks) ++ eol t := by
      intro ks
      induction ks with
      | nil => intro _ t _; rfl
      | cons k ks ihk =>
        intro hm t ht
        have hh : (sers ks ++ t).head? ≠ some '\n' := by
          cases ks with
          | nil => exact ht
          | cons k' ks' => cases k'; simp [sers, ser]
        rw [sers, List.append_assoc, ih k (hm k (by simp)) (h8 k (hm k (by simp))) _ hh, ihk (fun k h => hm k (by simp [h])) t ht, eolEs, sers,
          List.append_assoc]
    have htl : eol (escText (tail.getD []) ++ rest) = escText (eol (tail.getD [])) ++ eol rest := by
      rw [eol_append _ _ hrest, eol_esc]
    have hke : (eolEs kids).isEmpty = kids.isEmpty := by rw [eolEs_eq]; simp
    rw [ser, eolE, ser, getD_eol, getD_eol, eol_isEmpty, hke]
    rw [List.cons_append, show ∀ l : Str, '<' :: l = ['<'] ++ l from fun _ => rfl, eol_noCr _ _ (by decide), List.append_assoc, eol_noCr _ _ htag,
      List.append_assoc, eol_noCr _ _ hat, List.append_assoc]
    simp only [List.append_assoc, List.singleton_append, List.cons_append]
    refine congrArg (fun l => '<' :: (tag ++ (serAttrs attrs ++ l))) ?_
    split
    · rw [eol_noCr _ _ (by decide), htl]
    · simp only [List.append_assoc, List.cons_append, List.singleton_append, List.nil_append]
      rw [show ∀ l : Str, eol ('>' :: l) = '>' :: eol l from fun l => eol_noCr ['>'] l (by decide)]
      have hh : (sers kids ++ '<' :: '/' :: (tag ++ '>' :: (escText (tail.getD []) ++ rest))).head? ≠ some '\n' := by
        cases kids with
        | nil => simp [sers]
        | cons k' ks' => cases k'; simp [sers, ser]
      rw [eol_append _ _ hh, eol_esc, hkids kids (fun _ h => h) _ (by simp)]
      rw [show ∀ l : Str, eol ('<' :: '/' :: l) = '<' :: '/' :: eol l from fun l => eol_noCr ['<', '/'] l (by decide), eol_noCr _ _ htag,
        show ∀ l : Str, eol ('>' :: l) = '>' :: eol l from fun l => eol_noCr ['>'] l (by decide), htl]

theorem eolE_ok : ∀ (e : Elem), ElemOK e → ElemOK (eolE e) := by
  refine Elem.ind fun tag attrs text tail kids ih hok => ?_
  cases hok with
  | mk h1 h2 h3 h4 h5 h6 h7 h8 =>
    rw [eolE]
    refine .mk h1 h2 h3 h4 h5 ?_ ?_ ?_
    · rw [getD_eol]; exact eol_chars _ h6
    · rw [getD_eol]; exact eol_chars _ h7
    · intro k hk
      rw [eolEs_eq] at hk
      obtain ⟨x, hx, rfl⟩ := List.mem_map.1 hk
      exact ih x hx (h8 x hx)

theorem run_space (root : Option Elem) (s : Str) (hs : ∀ c ∈ s, xmlSpace c = true) :
    Rd.run ⟨.content, [], root⟩ s = .ok ⟨.content, [], root⟩ := by
  induction s with
  | nil => rfl
  | cons c s ih =>
    have hc := hs c (by simp)
    have h1 : c ≠ '<' := by rintro rfl; exact absurd hc (by decide)
    have h2 : c ≠ '&' := by rintro rfl; exact absurd hc (by decide)
    rw [run_cons (r' := ⟨.content, [], root⟩) (by simp [Rd.step, h1, h2, Rd.data, hc]), ih (fun c h => hs c (by simp [h]))]

theorem escText_space (s : Str) (hs : ∀ c ∈ s, xmlSpace c = true) : escText s = s := by
  induction s with
  | nil => rfl
  | cons c s ih =>
    have hc := hs c (by simp)
    rw [escText_ne, ih (fun c h => hs c (by simp [h]))]
    all_goals rintro rfl; exact absurd hc (by decide)

theorem eol_xspace (s : Str) (hs : ∀ c ∈ s, xmlSpace c = true) : ∀ c ∈ eol s, xmlSpace c = true := by
  induction s using eol.induct with
  | case1 r ih =>
    rw [eol]; intro c hc
    rcases List.mem_cons.1 hc with rfl | hc
    · decide
    · exact ih (fun c h => hs c (by simp [h])) c hc
  | case2 r h ih =>
    rw [eol]
    · intro c hc
      rcases List.mem_cons.1 hc with rfl | hc
      · decide
      · exact ih (fun c h => hs c (by simp [h])) c hc
    · exact h
  | case3 c r h1 h2 ih =>
    rw [eol]
    · intro d hd
      rcases List.mem_cons.1 hd with rfl | hd
      · exact hs d (by simp)
      · exact ih (fun c h => hs c (by simp [h])) d hd
    · exact h1
    · exact h2
  | case4 => exact hs

/-- a document that begins with an element has no XML declaration -/
theorem dropDecl_id (s : Str) (h : ∀ t, s ≠ '<' :: '?' :: t) : dropDecl s = .ok s := by
  rw [dropDecl, if_neg]
  intro hp
  rw [Bool.and_eq_true] at hp
  obtain ⟨t, ht⟩ := List.isPrefixOf_iff_prefix.1 hp.1
  exact h ('x' :: 'm' :: 'l' :: t) ht.symm

theorem dropBom_id (s : Str) (t : Str) (h : s = '<' :: t) : dropBom s = s := by
  subst h; rfl

/-- an element is written with its tag first -/
theorem ser_head (e : Elem) (hok : ElemOK e) : ∃ c t, ser e = '<' :: c :: t ∧ nameEnd c = false := by
  cases hok with
  | @mk tag attrs text tail kids h1 h2 =>
    cases tag with
    | nil => exact absurd rfl h1
    | cons c tag => exact ⟨c, _, rfl, h2 c (by simp)⟩

/-- what is read of a document that was written -/
theorem scan_ser (e : Elem) (hok : ElemOK e) (ht : ∀ c ∈ e.tail.getD [], xmlSpace c = true) :
    scanXml (ser e) = .ok (noTail (rawE (eolE e))) := by
  have h1 := eol_ser e hok [] (by simp)
  rw [List.append_nil, eol, List.append_nil] at h1
  have h2 := run_core (eolE e) (eolE_ok e hok) [] none (.inr rfl)
  have ht' : ∀ c ∈ (eolE e).tail.getD [], xmlSpace c = true := by
    cases e
    rw [eolE, Elem.tail, getD_eol]
    exact eol_xspace _ ht
  obtain ⟨c, t, he, _⟩ := ser_head e hok
  have hd : dropDecl (ser (eolE e)) = .ok (ser (eolE e)) := by
    obtain ⟨c, t, he, hc⟩ := ser_head _ (eolE_ok e hok)
    refine dropDecl_id _ fun u hu => ?_
    rw [he] at hu
    injection hu with _ hu
    injection hu with hu _
    subst hu
    exact absurd hc (by decide)
  simp only [scanXml, dropBom_id _ _ he, h1, hd]
  simp only [ser_eq (eolE e), bind, Except.bind]
  rw [show (({} : Rd) : Rd) = ⟨.content, [], none⟩ from rfl, run_ok h2, escText_space _ ht']
  simp only [Rd.attach, run_space _ _ ht', bind, Except.bind]

/-! ### Namespaces -/

section
variable [Uni] [XmlLex]

theorem parseText_raw (t : Option Str) : parseText (someText ((t.map eol).getD [])) = parseText t ∨ parseText t = .error .parseError := by
  cases t with
  | none => left; rfl
  | some s =>
    by_cases h : s.all isXmlChar = true
    · left
      have he : (eol s).all isXmlChar = true := List.all_eq_true.2 (eol_chars s (List.all_eq_true.1 h))
      simp only [Option.map_some, Option.getD_some, someText]
      by_cases hs : s = []
      · subst hs; rfl
      · have : eol s ≠ [] := by
          intro h0
          have := eol_isEmpty s
          rw [h0] at this
          exact hs (List.isEmpty_iff.1 this.symm)
        rw [if_neg this]
        simp only [parseText, he, h, if_true, eol_isEmpty, eol_id (eol_ncr s)]
    · right
      simp only [parseText, h, Bool.false_eq_true, if_false]

/-- the namespaces of what was read are those of what was written -/
theorem parse_raw : ∀ (e : Elem) (scope : Dict Str Str) (p : PElem), parseElem scope e = .ok p → parseElem scope (rawE (eolE e)) = .ok p := by
  refine Elem.ind fun tag attrs text tail kids ih scope p h => ?_
  rw [parseElem_ok_iff] at h
  obtain ⟨hd, tag', as, text', tl, kids', h1, h2, h3, h4, h5, h6, rfl⟩ := h
  rw [eolE, rawE, parseElem_ok_iff]
  refine ⟨hd, tag', as, text', tl, kids', h1, h2, h3, ?_, ?_, ?_, rfl⟩
  · rcases parseText_raw text with h | h
    · rw [h, h4]
    · rw [h] at h4; cases h4
  · rcases parseText_raw tail with h | h
    · rw [h, h5]
    · rw [h] at h5; cases h5
  · rw [parseElems_eq, mapPy_ok_iff] at h6 ⊢
    rw [rawEs_eq, eolEs_eq, List.map_map]
    clear hd h1 h2 h3 h4 h5
    induction h6 with
    | nil => exact .nil
    | cons hx _ ih2 =>
      exact .cons (ih _ (by simp) _ _ hx) (ih2 fun k hk => ih k (by simp [hk]))

theorem parse_noTail {scope : Dict Str Str} {e : Elem} {p : PElem} (h : parseElem scope e = .ok p) : parseElem scope (noTail e) = .ok p := by
  cases e
  rw [parseElem_ok_iff] at h
  obtain ⟨hd, tag', as, text', tl, kids', h1, h2, h3, h4, h5, h6, rfl⟩ := h
  rw [noTail, parseElem_ok_iff]
  exact ⟨hd, tag', as, text', none, kids', h1, h2, h3, h4, rfl, h6, rfl⟩

/-- keys of attributes are unique, everywhere -/
inductive KeysOK : Elem → Prop
  | mk {tag attrs text tail kids} : (attrs.map Prod.fst).Nodup → (∀ k ∈ kids, KeysOK k) → KeysOK (.mk tag attrs text tail kids)

theorem splitOnce_ok {s a b : Str} (h : splitOnce ':' s = some (a, b)) : s = a ++ ':' :: b := by
  induction s generalizing a with
  | nil => cases h
  | cons c s ih =>
    simp only [splitOnce] at h
    split at h
    · cases h; subst_vars; rfl
    · cases hs : splitOnce ':' s with
      | none => rw [hs] at h; cases h
      | some v =>
        rw [hs] at h
        cases h
        rw [ih (a := v.1) (by rw [hs])]
        rfl

theorem resolve_chars {scope dflt} {k k' : Str} (h : resolveName scope dflt k = .ok k') : k ≠ [] ∧ ∀ c ∈ k, nameEnd c = false := by
  unfold resolveName at h
  split at h
  · split at h
    · rename_i hn
      refine ⟨?_, XmlLex.no_delim k hn⟩
      rintro rfl
      rw [XmlLex.not_nil] at hn
      cases hn
    · cases h
  · rename_i p l hs
    split at h
    · rename_i hn
      rw [Bool.and_eq_true] at hn
      rw [splitOnce_ok hs]
      refine ⟨by simp, fun c hc => ?_⟩
      rcases List.mem_append.1 hc with hc | hc
      · exact XmlLex.no_delim _ hn.1 c hc
      · rcases List.mem_cons.1 hc with rfl | hc
        · decide
        · exact XmlLex.no_delim _ hn.2 c hc
    · cases h

theorem parseText_chars {t t' : Option Str} (h : parseText t = .ok t') : ∀ c ∈ t.getD [], isXmlChar c = true := by
  cases t with
  | none => simp
  | some s =>
    rw [parseText] at h
    split at h
    · rename_i hs; exact List.all_eq_true.1 hs
    · cases h

theorem declOf_chars {k q : Str} (h : declOf k = some q) : k = lit! "xmlns" ∨ k = XMLNS ++ q ∧ q ≠ [] := by
  unfold declOf at h
  split at h
  · left; assumption
  · split at h
    · rename_i p q' hs
      split at h
      · rename_i hp
        cases h
        right
        rw [splitOnce_ok hs, hp.1]
        exact ⟨rfl, hp.2⟩
      · cases h
    · cases h

/-- what can be parsed can be written -/
theorem elemOK_of : ∀ (e : Elem) (scope : Dict Str Str) (p : PElem), KeysOK e → parseElem scope e = .ok p → ElemOK e := by
  refine Elem.ind fun tag attrs text tail kids ih scope p hk h => ?_
  cases hk with
  | mk k1 k2 =>
    rw [parseElem_ok_iff] at h
    obtain ⟨hd, tag', as, text', tl, kids', h1, h2, h3, h4, h5, h6, rfl⟩ := h
    obtain ⟨t1, t2⟩ := resolve_chars h1
    have hattr : ∀ q ∈ attrs, (q.1 ≠ [] ∧ ∀ c ∈ q.1, nameEnd c = false) ∧ ∀ c ∈ q.2, isXmlChar c = true := by
      intro q hq
      cases hdq : declOf q.1 with
      | none =>
        have hm : q ∈ attrs.filter fun p => (declOf p.1).isNone := List.mem_filter.2 ⟨hq, by rw [hdq]; rfl⟩
        obtain ⟨a, _, ha⟩ := All2.mem_left (mapPy_ok_iff.1 h2) _ hm
        simp only [parseAttr, bind, Except.bind] at ha
        split at ha
        · cases ha
        · rename_i k hk
          split at ha
          · rename_i hv
            exact ⟨resolve_chars hk, List.all_eq_true.1 hv⟩
          · cases ha
      | some pre =>
        have hm : (pre, q.2) ∈ declsOf attrs := List.mem_filterMap.2 ⟨q, hq, by rw [hdq]; rfl⟩
        have hok := List.all_eq_true.1 hd _ hm
        simp only [declOK, Bool.and_eq_true] at hok
        obtain ⟨⟨⟨o1, _⟩, _⟩, o2⟩ := hok
        refine ⟨?_, List.all_eq_true.1 o1⟩
        rcases declOf_chars hdq with he | ⟨he, hne⟩
        · rw [he]; decide
        · rw [if_neg hne] at o2
          simp only [Bool.and_eq_true] at o2
          rw [he]
          refine ⟨by simp [XMLNS], fun c hc => ?_⟩
          rcases List.mem_append.1 hc with hc | hc
          · exact (by decide : ∀ c ∈ XMLNS, nameEnd c = false) c hc
          · exact XmlLex.no_delim _ o2.1.1.1 c hc
    refine .mk t1 t2 (fun q hq => (hattr q hq).1) k1 (fun q hq => (hattr q hq).2) (parseText_chars h4) (parseText_chars h5) ?_
    intro k hk
    rw [parseElems_eq, mapPy_ok_iff] at h6
    obtain ⟨y, _, hy⟩ := All2.mem_left h6 _ hk
    exact ih k hk _ y (k2 k hk) hy

/-- Whatever `parseElem` says is read is read by the reader from the text that is written. -/
theorem readText_ser (e : Elem) (hk : KeysOK e) (ht : ∀ c ∈ e.tail.getD [], xmlSpace c = true) (p : PElem) (h : parseElem [] e = .ok p) :
    readText (ser e) = .ok p := by
  simp only [readText, scan_ser e (elemOK_of e [] p hk h) ht, bind, Except.bind]
  exact parse_noTail (parse_raw e [] p h)


/-! ### What the codec writes -/

theorem xmlAttrs_keys {rev : Dict Str Str} : ∀ {l acc as : Dict Str Str}, acc.WF → xmlAttrs rev acc l = .ok as → as.WF := by
  intro l
  induction l with
  | nil => intro acc as h he; cases he; exact h
  | cons p l ih =>
    intro acc as h he
    obtain ⟨k, v⟩ := p
    simp only [xmlAttrs, bind, Except.bind] at he
    split at he
    · cases he
    · exact ih (Dict.WF.set h _ _) he

theorem xmlDecls_keys (m eff : Dict Str Str) : Dict.WF (xmlDecls m eff) := by
  unfold xmlDecls
  suffices h : ∀ (l acc : Dict Str Str), acc.WF →
      Dict.WF (l.foldl (fun acc p => if Dict.get? eff p.1 = some p.2 then acc else Dict.set acc (XMLNS ++ p.1) p.2) acc) from h m [] Dict.wf_nil
  intro l
  induction l with
  | nil => exact fun _ h => h
  | cons p l ih =>
    intro acc h
    rw [List.foldl_cons]
    apply ih
    split
    · exact h
    · exact Dict.WF.set h _ _

theorem setSome_keys {d : Dict Str Str} (h : d.WF) (k : Str) (v : Option Str) : (setSome d k v).WF := by
  cases v
  · exact h
  · exact Dict.WF.set h _ _

theorem buildElem_keys {tag d eff text kids e} (h : buildElem tag d eff text kids = .ok e) (hk : ∀ k ∈ kids, KeysOK k) : KeysOK e := by
  simp only [buildElem, bind, Except.bind, pure, Except.pure] at h
  split at h
  · cases h
  · rename_i as has
    cases h
    exact .mk (xmlAttrs_keys (setSome_keys (setSome_keys (xmlDecls_keys _ _) _ _) _ _) has) hk

theorem mapPy_keys {f : Obj → Py Elem} {xs : List Obj} {es : List Elem} (h : mapPy f xs = .ok es)
    (hf : ∀ x e, f x = .ok e → KeysOK e) : ∀ e ∈ es, KeysOK e := by
  intro e he
  obtain ⟨x, _, hx⟩ := mem_all2 (mapPy_ok_iff.1 h) he
  exact hf x e hx

theorem buildMc_keys : ∀ (x : Obj) (eff : Dict Str Str) (e : Elem), buildMc eff x = .ok e → KeysOK e := by
  refine Obj.ind fun d md kids _ ih eff e h => ?_
  simp only [buildMc, bind, Except.bind] at h
  split at h
  · cases h
  · rename_i ks hks
    rw [buildMcs_eq, mapPy_ok_iff] at hks
    refine buildElem_keys h fun k hk => ?_
    obtain ⟨x, hx, hxk⟩ := mem_all2 hks hk
    exact ih x hx _ _ hxk

theorem buildMeta_keys (x : Obj) (eff : Dict Str Str) (e : Elem) (h : buildMeta eff x = .ok e) : KeysOK e := by
  simp only [buildMeta, bind, Except.bind] at h
  split at h
  · cases h
  · rename_i ks hks
    rw [buildMcs_eq] at hks
    exact buildElem_keys h (mapPy_keys hks fun x e => buildMc_keys x _ e)

theorem buildMd_keys (x : Obj) (eff : Dict Str Str) (e : Elem) (h : buildMd eff x = .ok e) : KeysOK e := by
  simp only [buildMd, bind, Except.bind] at h
  split at h
  · cases h
  · rename_i ks hks
    exact buildElem_keys h (mapPy_keys hks fun x e => buildMeta_keys x _ e)

theorem buildItem_keys (x : Obj) (eff : Dict Str Str) (e : Elem) (h : buildItem eff x = .ok e) : KeysOK e :=
  buildElem_keys h (by simp)

theorem outer_keys {tag : Str} {d : Data} {eff m : Dict Str Str} {md kids : List Obj} {bk : Obj → Py Elem} {e : Elem}
    (h : (do
      let ms ← mapPy (buildMd m) md
      let ks ← mapPy bk kids
      buildElem tag d eff none (ms ++ ks)) = .ok e) (hb : ∀ x e, bk x = .ok e → KeysOK e) : KeysOK e := by
  simp only [bind, Except.bind] at h
  split at h
  · cases h
  · rename_i ms hms
    split at h
    · cases h
    · rename_i ks hks
      refine buildElem_keys h fun k hk => ?_
      rcases List.mem_append.1 hk with hk | hk
      · exact mapPy_keys hms (fun x e => buildMd_keys x _ e) k hk
      · exact mapPy_keys hks hb k hk

theorem buildTier_keys (x : Obj) (eff : Dict Str Str) (e : Elem) (h : buildTier eff x = .ok e) : KeysOK e :=
  outer_keys h fun x e => buildItem_keys x _ e

theorem buildIgt_keys (x : Obj) (eff : Dict Str Str) (e : Elem) (h : buildIgt eff x = .ok e) : KeysOK e :=
  outer_keys h fun x e => buildTier_keys x _ e

theorem buildCorpus_keys (x : Obj) (e : Elem) (h : buildCorpus x = .ok e) : KeysOK e :=
  outer_keys h fun x e => buildIgt_keys x _ e

theorem buildOf_keys {c : Cls} {m : Dict Str Str} {x : Obj} {e : Elem} (h : buildOf c m x = .ok e) : KeysOK e := by
  cases c with
  | corpus => exact buildCorpus_keys x e h
  | igt => exact buildIgt_keys x m e h
  | tier => exact buildTier_keys x m e h
  | item => exact buildItem_keys x m e h
  | metadata => exact buildMd_keys x m e h
  | metaC => exact buildMeta_keys x m e h
  | metaChild => exact buildMc_keys x m e h

theorem onLast_all {P : Elem → Prop} {f : Elem → Elem} (hf : ∀ x, P x → P (f x)) : ∀ {l : List Elem}, (∀ x ∈ l, P x) → ∀ x ∈ onLast f l, P x
  | [], h => by simpa [onLast] using h
  | [y], h => by
    intro x hx
    simp only [onLast, List.mem_singleton] at hx
    subst hx
    exact hf y (h y (by simp))
  | y :: z :: l, h => by
    intro x hx
    rw [onLast] at hx
    rcases List.mem_cons.1 hx with rfl | hx
    · exact h _ (by simp)
    · exact onLast_all hf (fun x hx => h x (by simp [List.mem_cons.1 hx])) x hx

theorem indent_keys (ind : Int) : ∀ (e : Elem) (level : Nat), KeysOK e → KeysOK (indentElem ind level e) := by
  refine Elem.ind fun tag attrs text tail kids ih level h => ?_
  cases h with
  | mk h1 h2 =>
    cases kids with
    | nil => rw [indentElem]; exact .mk h1 (by simp)
    | cons k ks =>
      rw [indentElem]
      refine .mk h1 (onLast_all (P := KeysOK) ?_ ?_)
      · intro x hx
        cases hx with | mk a b => exact .mk a b
      · rw [indentElems_eq]
        intro x hx
        rcases List.mem_cons.1 hx with rfl | hx
        · exact ih k (by simp) _ (h2 k (by simp))
        · obtain ⟨y, hy, rfl⟩ := List.mem_map.1 hx
          exact ih y (by simp [hy]) _ (h2 y (by simp [hy]))

theorem indent_keys' {e : Elem} (h : KeysOK e) (ind : Option Int) : KeysOK (indent ind e) := by
  cases ind with
  | none => exact h
  | some n => exact indent_keys n e 0 h

theorem buildElem_tail {tag d eff text kids e} (h : buildElem tag d eff text kids = .ok e) : e.tail = none := by
  simp only [buildElem, bind, Except.bind, pure, Except.pure] at h
  split at h
  · cases h
  · cases h; rfl

theorem buildOf_tail {c : Cls} {m : Dict Str Str} {x : Obj} {e : Elem} (h : buildOf c m x = .ok e) : e.tail = none := by
  cases c <;> (try (cases x)) <;> simp only [buildOf, buildCorpus, buildIgt, buildTier, buildItem, buildMd, buildMeta, buildMc, bind, Except.bind] at h
  all_goals
    repeat' split at h
    all_goals first
      | cases h; done
      | exact buildElem_tail h

theorem indent_tail {e : Elem} (h : e.tail = none) (ind : Option Int) : ∀ c ∈ (indent ind e).tail.getD [], xmlSpace c = true := by
  cases ind with
  | none => rw [indent, h]; simp
  | some n =>
    obtain ⟨tag, attrs, text, tail, kids⟩ := e
    cases h
    cases kids with
    | nil => simp [indent, indentElem, Elem.tail]
    | cons k ks =>
      intro c hc
      simp only [indent, indentElem, Elem.tail] at hc
      split at hc
      · simp only [Option.getD_some, List.mem_cons, spaces, List.mem_replicate] at hc
        rcases hc with rfl | ⟨_, rfl⟩ <;> decide
      · simp at hc

/-- C90: whatever corpus is written, with whatever indentation, if `parseElem` (by which the other
theorems describe the text layer) can read the element tree, then the text of the document, read
character by character, gives exactly what they say. -/
theorem C90_layer (x : Obj) (ind : Option Int) (e : Elem) (p : PElem) (hb : buildCorpus x = .ok e) (hp : parseElem [] (indent ind e) = .ok p)
    (look : Nat → Nat) :
    ∃ s, dumpsXml ind x = .ok s ∧ readText s = .ok p ∧ loadsXml look s = writeRead look ind x := by
  have hr := readText_ser (indent ind e) (indent_keys' (buildCorpus_keys x e hb) ind) (indent_tail (buildOf_tail (c := .corpus) (m := []) hb) ind) p hp
  refine ⟨ser (indent ind e), by simp only [dumpsXml, hb, bind, Except.bind, pure, Except.pure], hr, ?_⟩
  simp only [loadsXml, hr, writeRead, hb, hp, bind, Except.bind]

/-- C90 for all corpora whose data `XmlKept` admits (and without MetaChild called `igt` or
`xigt-corpus`, except in a declared namespace), with every indentation: the text that is written, read character by character, gives
an equal corpus.  Missing: corpora that break these conditions, some of which do not survive
(`C90_refuted`). -/
theorem C90_partial (x : Obj) (hc : x.cls = .corpus) (hw : x.WF) (hv : x.Valid) (hk : XmlKept [] x) (hn : NamesOK [] x)
    (look : Nat → Nat) (ind : Option Int) :
    ∃ s y, dumpsXml ind x = .ok s ∧ loadsXml look s = .ok y ∧ SameData y x ∧ Obj.eq y x = true := by
  obtain ⟨y, h1, h2, h3⟩ := C40_partial x hc hw hv hk hn look ind
  have h1' := h1
  simp only [writeRead, bind, Except.bind] at h1'
  split at h1'
  · cases h1'
  · rename_i e he
    split at h1'
    · cases h1'
    · rename_i p hp
      obtain ⟨s, s1, _, s3⟩ := C90_layer x ind e p he hp look
      exact ⟨s, y, s1, s3.trans h1, h2, h3⟩

/-- C90 for single objects: the text `encode_igt` and its like write, read by itself, is decoded to an
equal object -/
theorem C90_fragment (c y : Obj) (m : Dict Str Str) (hw : c.WF) (hv : c.Valid) (hk : XmlKept [] c) (h : Within c [] y m)
    (ind : Option Int) : ∃ e p z, encodeFrag ind m y = .ok e ∧ readText (ser e) = .ok p ∧ decodeOf y.cls p = .ok z ∧ SameData z y ∧
      Obj.eq z y = true := by
  obtain ⟨z, h1, h2, h3⟩ := C89_anywhere c y m hw hv hk h ind
  simp only [fragRead, bind, Except.bind] at h1
  split at h1
  · cases h1
  · rename_i e he
    split at h1
    · cases h1
    · rename_i p hp
      refine ⟨e, p, z, he, ?_, h1, h2, h3⟩
      unfold encodeFrag at he
      cases hb : buildOf y.cls [] (inNs m y) with
      | error _ => rw [hb] at he; cases he
      | ok e0 =>
        rw [hb] at he
        cases he
        exact readText_ser _ (indent_keys' (buildOf_keys hb) ind) (indent_tail (buildOf_tail hb) ind) p hp

end

section
attribute [local instance] asciiUni asciiXml

/-- markup in the texts -/
def txtCorpus : Obj := .mk { cls := .corpus } [] [.mk { cls := .igt, id := some (lit! "i1") } [] [.mk { cls := .tier, id := some (lit! "w") } []
  [.mk { cls := .item, id := some (lit! "w1"), attrs := [(lit! "a", lit! "\"<&>\n")], text := some (lit! "</item> & ]]>") } [] []]]]

example : (dumpsXml none txtCorpus).map String.ofList =
    .ok "<xigt-corpus><igt id=\"i1\"><tier id=\"w\"><item id=\"w1\" a=\"&quot;&lt;&amp;&gt;&#10;\">&lt;/item&gt; &amp; ]]&gt;</item></tier></igt></xigt-corpus>" := by
  decide +kernel
example : (do let s ← dumpsXml (some 2) txtCorpus; let y ← loadsXml id s; return Obj.eq y txtCorpus : Py Bool) = .ok true := by decide +kernel

/-- **C90** refuted: names of attributes are written without a check (xigtxml.py:373-384).  An attribute
called `a="1" b` is written without an error, and the document is read without an error, as two
attributes -/
theorem C90_refuted : ∃ x s y, x.cls = .corpus ∧ x.WF ∧ x.Valid ∧ x.data.attrs = [(lit! "a=\"1\" b", lit! "2")] ∧
    dumpsXml none x = .ok s ∧ loadsXml id s = .ok y ∧ y.data.attrs = [(lit! "a", lit! "1"), (lit! "b", lit! "2")] :=
  ⟨.mk { cls := .corpus, attrs := [(lit! "a=\"1\" b", lit! "2")] } [] [], lit! "<xigt-corpus a=\"1\" b=\"2\" />", _, rfl,
    .mk (by unfold Dict.WF; decide) (by simp) (by simp) (by simp) (by simp) (by simp) (by simp) (by simp),
    .mk (by simp) (by simp) (by simp) (by simp) (by simp) (by simp) (by simp), rfl, rfl, rfl, rfl⟩

end

end Xigt
