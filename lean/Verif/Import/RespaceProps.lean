import Verif.Import.ToolboxModel
/-
C57: respacing keeps byte columns.
-/
set_option linter.unusedSectionVars false

namespace Xigt.Tbx

/-! ### Encodings -/

/-- an ASCII byte as a character -/
def chr (b : UInt8) : Char := Char.ofNat b.toNat

/-- The encodings for which columns can be kept: every character takes at least one byte, and white
space (of ASCII) is encoded by the same bytes and may be split off at both ends. -/
structure Compat (dec : Bytes → Py Str) : Prop where
  short : ∀ b s, dec b = .ok s → s.length ≤ b.length
  front : ∀ a b, (∀ x ∈ a, isWs x = true) → dec (a ++ b) = (dec b).map (a.map chr ++ ·)
  back : ∀ a b, (∀ x ∈ b, isWs x = true) → dec (a ++ b) = (dec a).map (· ++ b.map chr)

/-- ISO 8859-1 -/
def latin1 (l : Bytes) : Py Str := .ok (l.map chr)

/-- a continuation byte -/
def cont (b : UInt8) : Bool := 0x80 ≤ b && b ≤ 0xBF
/-- well-formed sequences of two, three and four bytes (Unicode, Table 3-7) -/
def two (a b : UInt8) : Bool := 0xC2 ≤ a && a ≤ 0xDF && cont b
def three (a b c : UInt8) : Bool :=
  ((a == 0xE0 && 0xA0 ≤ b) || (0xE1 ≤ a && a ≤ 0xEC) || (a == 0xED && b ≤ 0x9F) || (0xEE ≤ a && a ≤ 0xEF))
    && cont b && cont c
def four (a b c d : UInt8) : Bool :=
  ((a == 0xF0 && 0x90 ≤ b) || (0xF1 ≤ a && a ≤ 0xF3) || (a == 0xF4 && b ≤ 0x8F)) && cont b && cont c && cont d

/-- UTF-8, raising UnicodeDecodeError (a ValueError) on anything not well-formed -/
def utf8 : Bytes → Py Str
  | [] => .ok []
  | a :: l =>
    if a < 0x80 then (utf8 l).map (chr a :: ·)
    else match l with
      | [] => .error .valueError
      | b :: l =>
        if two a b then (utf8 l).map (Char.ofNat ((a.toNat - 0xC0) * 64 + (b.toNat - 0x80)) :: ·)
        else match l with
          | [] => .error .valueError
          | c :: l =>
            if three a b c then (utf8 l).map
              (Char.ofNat (((a.toNat - 0xE0) * 64 + (b.toNat - 0x80)) * 64 + (c.toNat - 0x80)) :: ·)
            else match l with
              | [] => .error .valueError
              | d :: l =>
                if four a b c d then (utf8 l).map (Char.ofNat
                  ((((a.toNat - 0xF0) * 64 + (b.toNat - 0x80)) * 64 + (c.toNat - 0x80)) * 64 + (d.toNat - 0x80)) :: ·)
                else .error .valueError

/-! ### Specification -/

/-- `t` is a token of the line: a maximal run of bytes other than white space, after `a` and before `b` -/
structure Token (l a t b : Bytes) : Prop where
  eq : l = a ++ t ++ b
  ne : t ≠ []
  tok : ∀ x ∈ t, isWs x = false
  left : ∀ x, a.getLast? = some x → isWs x = true
  right : ∀ x, b.head? = some x → isWs x = true

/-- white space characters of ASCII -/
def wsChar (c : Char) : Prop := c = ' ' ∨ (9 ≤ c.toNat ∧ c.toNat ≤ 13)

/-- the token `t` after `a` and before `b` is found in the decoded line: its characters begin at column
`a.length` and are followed by white space up to the column of the next token -/
def Placed (dec : Bytes → Py Str) (r : Str) (a t b : Bytes) : Prop :=
  ∃ x d p y, dec t = .ok d ∧ r = x ++ (d ++ (p ++ y)) ∧ x.length = a.length ∧
    d.length + p.length = t.length + (b.takeWhile isWs).length ∧ ∀ c ∈ p, wsChar c

/-! ### Proof -/

theorem isWs_lt {b : UInt8} (h : isWs b = true) : b < 0x80 := by
  simp only [isWs, Bool.or_eq_true, beq_iff_eq, Bool.and_eq_true, decide_eq_true_eq] at h
  simp only [UInt8.le_iff_toNat_le, UInt8.lt_iff_toNat_lt, ← UInt8.toNat_inj] at *
  simp at *
  omega

theorem wsChar_chr {b : UInt8} (h : isWs b = true) : wsChar (chr b) := by
  simp only [isWs, Bool.or_eq_true, beq_iff_eq, Bool.and_eq_true, decide_eq_true_eq] at h
  rcases h with rfl | h
  · exact Or.inl (by decide)
  · right
    simp only [UInt8.le_iff_toNat_le] at h
    have h9 : (9 : UInt8).toNat = 9 := rfl
    have h13 : (13 : UInt8).toNat = 13 := rfl
    rw [h9, h13] at h
    have hv : b.toNat.isValidChar := Or.inl (by omega)
    have : (chr b).toNat = b.toNat := by
      unfold chr Char.ofNat
      rw [dif_pos hv]
      rfl
    omega

theorem takeWhile_run {α : Type} (p : α → Bool) (t b : List α) (ht : ∀ x ∈ t, p x = true)
    (hb : ∀ x, b.head? = some x → p x = false) : (t ++ b).takeWhile p = t ∧ (t ++ b).dropWhile p = b := by
  induction t with
  | nil =>
    cases b with
    | nil => simp
    | cons x b => simp [hb x rfl]
  | cons x t ih =>
    have := ih (fun y hy => ht y (by simp [hy]))
    simp [ht x (by simp), this]

theorem dropWhile_head {α : Type} (p : α → Bool) (l : List α) (x : α) (h : (l.dropWhile p).head? = some x) :
    p x = false := by
  induction l with
  | nil => simp at h
  | cons y l ih =>
    rw [List.dropWhile_cons] at h
    split at h
    · exact ih h
    · rename_i hy
      simp only [List.head?_cons, Option.some.injEq] at h
      subst h
      simpa using hy

theorem takeWhile_all {α : Type} (p : α → Bool) (l : List α) : ∀ x ∈ l.takeWhile p, p x = true := by
  intro x hx
  exact List.all_eq_true.1 List.all_takeWhile x hx

/-- where a token of `lead ++ tok ++ trail ++ rest` can be -/
theorem token_cases {lead tok trail rest a t b : Bytes} (hlead : ∀ x ∈ lead, isWs x = true)
    (htok : ∀ x ∈ tok, isWs x = false) (htrail : ∀ x ∈ trail, isWs x = true)
    (hne : tok ≠ []) (hend : ∀ x, (trail ++ rest).head? = some x → isWs x = true)
    (h : Token (lead ++ (tok ++ (trail ++ rest))) a t b) :
    (a = lead ∧ t = tok ∧ b = trail ++ rest) ∨
    (∃ a', a = lead ++ (tok ++ trail) ++ a' ∧ Token rest a' t b) := by
  obtain ⟨heq, hne', ht, hl, hr⟩ := h
  obtain ⟨t0, t1, rfl⟩ := List.exists_cons_of_ne_nil hne'
  have h0 := ht t0 (by simp)
  have nth : ∀ n : Nat, (a ++ (t0 :: t1) ++ b)[n]? = (lead ++ (tok ++ (trail ++ rest)))[n]? := by rw [heq]; simp
  have hat : (lead ++ (tok ++ (trail ++ rest)))[a.length]? = some t0 := by
    rw [← nth]
    simp
  have notws : ∀ (l : Bytes) (k : Nat), (∀ x ∈ l, isWs x = true) → l[k]? = some t0 → False := by
    intro l k hl hk
    have := hl t0 (List.mem_of_getElem? hk)
    rw [h0] at this; cases this
  by_cases c1 : a.length < lead.length
  · rw [List.getElem?_append_left c1] at hat
    exact (notws _ _ hlead hat).elim
  rw [List.getElem?_append_right (by omega)] at hat
  by_cases c2 : a.length = lead.length
  · left
    have heq' : lead ++ (tok ++ (trail ++ rest)) = a ++ ((t0 :: t1) ++ b) := by rw [heq]; simp
    obtain ⟨e1, e2⟩ := List.append_inj heq' c2.symm
    have r1 := takeWhile_run (fun x => !isWs x) tok (trail ++ rest) (by simpa using htok)
      (by intro x hx; simp [hend x hx])
    have r2 := takeWhile_run (fun x => !isWs x) (t0 :: t1) b (by intro x hx; simp [ht x hx])
      (by intro x hx; simp [hr x hx])
    rw [e2] at r1
    refine ⟨e1.symm, ?_, ?_⟩
    · rw [← r2.1, r1.1]
    · rw [← r2.2, r1.2]
  -- the byte before
  have hlast : ∃ x, a.getLast? = some x ∧ (lead ++ (tok ++ (trail ++ rest)))[a.length - 1]? = some x := by
    cases ha : a.getLast? with
    | none => rw [List.getLast?_eq_none_iff] at ha; subst ha; simp only [List.length_nil] at c1 c2; omega
    | some x =>
      refine ⟨x, rfl, ?_⟩
      rw [← nth, List.append_assoc, List.getElem?_append_left (by
        cases a with
        | nil => simp at ha
        | cons y ys => simp)]
      rw [List.getLast?_eq_getElem?] at ha
      exact ha
  obtain ⟨z, hz1, hz2⟩ := hlast
  have hzws := hl z hz1
  by_cases c3 : a.length ≤ lead.length + tok.length
  · rw [List.getElem?_append_right (by omega), List.getElem?_append_left (by omega)] at hz2
    have := htok z (List.mem_of_getElem? hz2)
    rw [hzws] at this; cases this
  rw [List.getElem?_append_right (by omega)] at hat
  by_cases c4 : a.length < lead.length + tok.length + trail.length
  · rw [List.getElem?_append_left (by omega)] at hat
    exact (notws _ _ htrail hat).elim
  right
  have heq' : (lead ++ (tok ++ trail)) ++ rest = a ++ ((t0 :: t1) ++ b) := by
    rw [← List.append_assoc a, ← heq]; simp
  have hpre : (lead ++ (tok ++ trail)) <+: a := by
    refine List.prefix_of_prefix_length_le ⟨rest, rfl⟩ ?_ (by simp; omega)
    rw [heq']
    exact List.prefix_append _ _
  obtain ⟨a', rfl⟩ := hpre
  refine ⟨a', rfl, ?_, by simp, ht, ?_, hr⟩
  · have heq2 : (lead ++ (tok ++ trail)) ++ rest = (lead ++ (tok ++ trail)) ++ (a' ++ ((t0 :: t1) ++ b)) := by
      rw [heq']; simp
    have := List.append_cancel_left heq2
    rw [this]; simp
  · intro x hx
    refine hl x ?_
    rw [List.getLast?_append, hx]; rfl

theorem map_ok {α β : Type} {f : α → β} {x : Py α} {b : β} (h : x.map f = .ok b) : ∃ a, x = .ok a ∧ b = f a := by
  cases x with
  | error e => cases h
  | ok a => cases h; exact ⟨a, rfl, rfl⟩

theorem respaceChunks_spec {dec : Bytes → Py Str} (hc : Compat dec) : ∀ (fuel : Nat) (l : Bytes) (r : Str),
    l.length ≤ fuel → respaceChunks dec (chunks fuel l) = .ok r →
    ((∀ x ∈ l, isWs x = true) → r = []) ∧ ((∃ x ∈ l, isWs x = false) → r.length = l.length) ∧
    ∀ a t b, Token l a t b → Placed dec r a t b := by
  intro fuel
  induction fuel with
  | zero =>
    intro l r hl h
    have : l = [] := List.length_eq_zero_iff.1 (by omega)
    subst this
    cases h
    refine ⟨fun _ => rfl, by simp, ?_⟩
    intro a t b ht
    have := ht.eq
    have : t = [] := by
      have h := congrArg List.length this
      simp at h
      exact List.length_eq_zero_iff.1 (by omega)
    exact absurd this ht.ne
  | succ fuel ih =>
    intro l r hl h
    simp only [chunks] at h
    generalize hlead : l.takeWhile isWs = lead at h
    generalize hl1 : l.dropWhile isWs = l1 at h
    generalize htok : l1.takeWhile (fun x => !isWs x) = tok at h
    generalize hl2 : l1.dropWhile (fun x => !isWs x) = l2 at h
    generalize htrail : l2.takeWhile isWs = trail at h
    generalize hrest : l2.dropWhile isWs = rest at h
    have e1 : l = lead ++ l1 := by rw [← hlead, ← hl1]; exact (List.takeWhile_append_dropWhile).symm
    have e2 : l1 = tok ++ l2 := by rw [← htok, ← hl2]; exact (List.takeWhile_append_dropWhile).symm
    have e3 : l2 = trail ++ rest := by rw [← htrail, ← hrest]; exact (List.takeWhile_append_dropWhile).symm
    have wlead : ∀ x ∈ lead, isWs x = true := by rw [← hlead]; exact takeWhile_all _ _
    have wtrail : ∀ x ∈ trail, isWs x = true := by rw [← htrail]; exact takeWhile_all _ _
    have wtok : ∀ x ∈ tok, isWs x = false := by
      rw [← htok]; intro x hx; simpa using takeWhile_all (fun x => !isWs x) _ x hx
    have hend : ∀ x, (trail ++ rest).head? = some x → isWs x = true := by
      rw [← e3, ← hl2]; intro x hx; simpa using dropWhile_head _ _ x hx
    split at h
    · rename_i hnil
      cases h
      have hl1nil : l1 = [] := by
        cases hh : l1 with
        | nil => rfl
        | cons x xs =>
          have hx : isWs x = false := dropWhile_head isWs l x (by rw [hl1, hh]; rfl)
          rw [hh] at htok
          simp [hx, hnil] at htok
      rw [hl1nil, List.append_nil] at e1
      refine ⟨fun _ => rfl, ?_, ?_⟩
      · rintro ⟨x, hx, hxw⟩
        rw [e1] at hx
        rw [wlead x hx] at hxw; cases hxw
      · intro a t b ht
        obtain ⟨x, xs, hx⟩ := List.exists_cons_of_ne_nil ht.ne
        have h1 := ht.tok x (by rw [hx]; simp)
        have h2 : x ∈ l := by rw [ht.eq, hx]; simp
        rw [e1] at h2
        rw [wlead x h2] at h1; cases h1
    · rename_i hne
      simp only [respaceChunks, bind, Except.bind] at h
      split at h
      · cases h
      rename_i s hs
      split at h
      · cases h
      rename_i r' hr'
      cases h
      rw [hc.back _ _ wtrail] at hs
      obtain ⟨s1, hs1, rfl⟩ := map_ok hs
      rw [hc.front _ _ wlead] at hs1
      obtain ⟨d, hd, rfl⟩ := map_ok hs1
      have hdl := hc.short _ _ hd
      have el : l = lead ++ (tok ++ (trail ++ rest)) := by rw [e1, e2, e3]
      have htokpos : 0 < tok.length := List.length_pos_iff.2 hne
      obtain ⟨i1, i2, i3⟩ := ih rest r' (by rw [el] at hl; simp at hl; omega) hr'
      generalize hpad : List.replicate ((lead ++ tok ++ trail).length - (lead.map chr ++ d ++ trail.map chr).length) ' ' = pad
      have hpadl : pad.length + d.length = tok.length := by
        rw [← hpad]; simp; omega
      have hlj : ljust (lead ++ tok ++ trail).length (lead.map chr ++ d ++ trail.map chr) =
          lead.map chr ++ (d ++ (trail.map chr ++ pad)) := by
        rw [ljust, hpad]; simp
      rw [hlj]
      obtain ⟨x0, xs0, hx0⟩ := List.exists_cons_of_ne_nil hne
      have hx0w : isWs x0 = false := wtok x0 (by rw [hx0]; simp)
      -- what remains begins with a token, if there is anything
      have hrestne : rest ≠ [] → ∃ x ∈ rest, isWs x = false := by
        intro hn
        obtain ⟨y, ys, hy⟩ := List.exists_cons_of_ne_nil hn
        exact ⟨y, by rw [hy]; simp, dropWhile_head isWs l2 y (by rw [hrest, hy]; rfl)⟩
      refine ⟨?_, ?_, ?_⟩
      · intro hall
        have := hall x0 (by rw [el, hx0]; simp)
        rw [hx0w] at this; cases this
      · intro _
        have : r'.length = rest.length := by
          by_cases hn : rest = []
          · rw [i1 (by rw [hn]; simp), hn]; rfl
          · exact i2 (hrestne hn)
        rw [el]
        simp only [List.length_append, List.length_map, this]
        omega
      · intro a t b ht
        rw [el] at ht
        rcases token_cases wlead wtok wtrail hne hend ht with ⟨rfl, rfl, rfl⟩ | ⟨a', rfl, ht'⟩
        · refine ⟨a.map chr, d, trail.map chr ++ pad, r', hd, by simp, by simp, ?_, ?_⟩
          · have : ((trail ++ rest).takeWhile isWs) = trail := by
              rw [← e3, htrail]
            rw [this]
            simp
            omega
          · intro c hcm
            rcases List.mem_append.1 hcm with hcm | hcm
            · obtain ⟨x, hx, rfl⟩ := List.mem_map.1 hcm
              exact wsChar_chr (wtrail x hx)
            · rw [← hpad] at hcm
              exact Or.inl (List.eq_of_mem_replicate hcm)
        · obtain ⟨x, d', p, y, g1, g2, g3, g4, g5⟩ := i3 a' t b ht'
          refine ⟨lead.map chr ++ (d ++ (trail.map chr ++ pad)) ++ x, d', p, y, g1, ?_, ?_, g4, g5⟩
          · rw [g2]; simp
          · simp only [List.length_append, List.length_map, g3]
            omega

/-- C57, for encodings that agree with ASCII on white space: in a decoded Toolbox line (without the newline at its end) every token begins at the column
of its first byte, followed by white space up to the next one; the line has as many columns as
bytes (a line of white space becomes empty). -/
theorem C57_partial (dec : Bytes → Py Str) (hc : Compat dec) (line : Bytes) (r : Str)
    (h : respace dec line = .ok r) :
    ((∀ x ∈ rstripNl line, isWs x = true) → r = []) ∧
    ((∃ x ∈ rstripNl line, isWs x = false) → r.length = (rstripNl line).length) ∧
    ∀ a t b, Token (rstripNl line) a t b → Placed dec r a t b :=
  respaceChunks_spec hc _ _ _ (Nat.le_refl _) h

/-! ### The encodings -/

theorem latin1_compat : Compat latin1 := by
  refine ⟨?_, ?_, ?_⟩
  · intro b s h; cases h; simp
  · intro a b _; simp [latin1, Except.map]
  · intro a b _; simp [latin1, Except.map]

theorem cont_lt {b : UInt8} (h : b < 0x80) : cont b = false := by
  simp only [cont, Bool.and_eq_false_iff, decide_eq_false_iff_not]
  left
  simp only [UInt8.le_iff_toNat_le, UInt8.lt_iff_toNat_lt] at *
  omega

theorem utf8_ws : ∀ w : Bytes, (∀ x ∈ w, isWs x = true) → utf8 w = .ok (w.map chr) := by
  intro w
  induction w with
  | nil => intro _; rfl
  | cons x w ih =>
    intro h
    rw [utf8.eq_def]
    simp only [isWs_lt (h x (by simp)), if_true, ih (fun y hy => h y (by simp [hy])), Except.map, List.map_cons]

theorem utf8_front (a b : Bytes) (h : ∀ x ∈ a, isWs x = true) : utf8 (a ++ b) = (utf8 b).map (a.map chr ++ ·) := by
  induction a with
  | nil => cases hb : utf8 b <;> simp [hb, Except.map]
  | cons x a ih =>
    rw [List.cons_append, utf8.eq_def]
    simp only [isWs_lt (h x (by simp)), if_true]
    rw [ih (fun y hy => h y (by simp [hy]))]
    cases utf8 b <;> simp [Except.map]

theorem map_map_append {x : Py Str} {c : Char} {w : Str} :
    (x.map (· ++ w)).map (c :: ·) = (x.map (c :: ·)).map (· ++ w) := by
  cases x <;> rfl

theorem utf8_back (w : Bytes) (hw : ∀ x ∈ w, isWs x = true) : ∀ (n : Nat) (a : Bytes), a.length ≤ n →
    utf8 (a ++ w) = (utf8 a).map (· ++ w.map chr) := by
  have hwc : ∀ x ∈ w, cont x = false := fun x hx => cont_lt (isWs_lt (hw x hx))
  intro n
  induction n with
  | zero =>
    intro a ha
    have : a = [] := List.length_eq_zero_iff.1 (by omega)
    subst this
    rw [List.nil_append, utf8_ws w hw]; rfl
  | succ n ih =>
    intro a ha
    match a with
    | [] => rw [List.nil_append, utf8_ws w hw]; rfl
    | a0 :: l =>
      rw [List.cons_append, utf8.eq_def, utf8.eq_def (a0 :: l)]
      simp only
      by_cases h0 : a0 < 0x80
      · simp only [h0, if_true]
        rw [ih l (by simp at ha; omega), map_map_append]
      simp only [h0, if_false]
      match l with
      | [] =>
        simp only [List.nil_append, Except.map]
        match w with
        | [] => rfl
        | w0 :: w =>
          have c0 := hwc w0 (by simp)
          simp only [two, c0, Bool.and_false]
          match w with
          | [] => rfl
          | w1 :: w =>
            simp only [three, c0, Bool.and_false, Bool.false_and]
            match w with
            | [] => rfl
            | w2 :: w => simp [four, c0]
      | b :: l =>
        simp only [List.cons_append]
        by_cases h1 : two a0 b = true
        · simp only [h1, if_true]
          rw [ih l (by simp at ha; omega), map_map_append]
        simp only [h1]
        match l with
        | [] =>
          simp only [List.nil_append, Except.map]
          match w with
          | [] => rfl
          | w0 :: w =>
            have c0 := hwc w0 (by simp)
            simp only [three, c0, Bool.and_false]
            match w with
            | [] => rfl
            | w1 :: w => simp [four, c0]
        | c :: l =>
          simp only [List.cons_append]
          by_cases h2 : three a0 b c = true
          · simp only [h2, if_true]
            rw [ih l (by simp at ha; omega), map_map_append]
            rfl
          simp only [h2]
          match l with
          | [] =>
            simp only [List.nil_append, Except.map]
            match w with
            | [] => rfl
            | w0 :: w =>
              have c0 := hwc w0 (by simp)
              simp [four, c0]
          | d :: l =>
            simp only [List.cons_append]
            by_cases h3 : four a0 b c d = true
            · simp only [h3, if_true]
              rw [ih l (by simp at ha; omega), map_map_append]
              rfl
            simp [h3, Except.map]

theorem utf8_short : ∀ (n : Nat) (l : Bytes) (s : Str), l.length ≤ n → utf8 l = .ok s → s.length ≤ l.length := by
  intro n
  induction n with
  | zero =>
    intro l s hl h
    have : l = [] := List.length_eq_zero_iff.1 (by omega)
    subst this
    cases h; simp
  | succ n ih =>
    intro l s hl h
    match l with
    | [] => cases h; simp
    | a :: l =>
      rw [utf8.eq_def] at h
      simp only at h
      split at h
      · obtain ⟨s', h', rfl⟩ := map_ok h
        have := ih l s' (by simp at hl; omega) h'
        simp; omega
      split at h
      · cases h
      rename_i b l
      split at h
      · obtain ⟨s', h', rfl⟩ := map_ok h
        have := ih l s' (by simp at hl; omega) h'
        simp; omega
      split at h
      · cases h
      rename_i c l
      split at h
      · obtain ⟨s', h', rfl⟩ := map_ok h
        have := ih l s' (by simp at hl; omega) h'
        simp; omega
      split at h
      · cases h
      rename_i d l
      split at h
      · obtain ⟨s', h', rfl⟩ := map_ok h
        have := ih l s' (by simp at hl; omega) h'
        simp; omega
      · cases h

/-- C57 applies to UTF-8, the default encoding. -/
theorem utf8_compat : Compat utf8 :=
  ⟨fun b s h => utf8_short _ b s (Nat.le_refl _) h, utf8_front,
    fun a b h => utf8_back b h _ a (Nat.le_refl _)⟩

/- `é x` with a newline: three columns for the two bytes of the letter and the space -/
example : respace utf8 [0xC3, 0xA9, 32, 120, 10] = .ok (lit! "é  x") := by decide +kernel
example : Token [0xC3, 0xA9, 32, 120] [0xC3, 0xA9, 32] [120] [] :=
  ⟨rfl, by simp, by decide, by decide, by simp⟩

/-- UTF-16 (little endian), without surrogates -/
def utf16 : Bytes → Py Str
  | [] => .ok []
  | [_] => .error .valueError
  | a :: b :: l => if 0xD8 ≤ b && b ≤ 0xDF then .error .valueError
    else (utf16 l).map (Char.ofNat (a.toNat + 256 * b.toNat) :: ·)

/-- C57 fails for other encodings: in UTF-16 the two bytes of the dagger U+2020 are taken for white
space, and `a†b` is spaced as two tokens. -/
theorem C57_refuted : ∃ line r a t b, respace utf16 line = .ok r ∧ Token line a t b ∧ ¬ Placed utf16 r a t b := by
  refine ⟨[97, 0, 0x20, 0x20, 98, 0], lit! "a†  b ", [], [97, 0], [0x20, 0x20, 98, 0], by decide +kernel,
    ⟨rfl, by simp, by decide, by simp, by decide⟩, ?_⟩
  rintro ⟨x, d, p, y, h1, h2, h3, h4, h5⟩
  have hx : x = [] := List.length_eq_zero_iff.1 h3
  have hd : d = ['a'] := by
    have : utf16 [97, 0] = .ok ['a'] := by decide +kernel
    rw [this] at h1
    cases h1; rfl
  subst hx hd
  match p, h4 with
  | [], h4 => revert h4; decide
  | c :: p, _ =>
    have hc : c = '†' := by
      have h2' : ['a', '†', ' ', ' ', 'b', ' '] = 'a' :: c :: (p ++ y) := h2
      injection h2' with _ h2'
      injection h2' with h2' _
      exact h2'.symm
    have := h5 c (by simp)
    rw [hc] at this
    revert this
    unfold wsChar
    decide

end Xigt.Tbx
