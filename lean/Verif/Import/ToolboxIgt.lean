import Verif.Import.ToolboxProps
/-
C55, C71, C73, C74 for whole records imported from Toolbox.
-/
set_option linter.unusedSectionVars false

namespace Xigt.Tbx

section
variable [Uni] [Lex]

/-! ### C55 -/

/-- the tiers have pairwise different IDs, and the tier of the words goes with its phrase tier -/
structure WInv (wid pid ra : Str) (done : List Obj) : Prop where
  distinct : done.Pairwise fun a b => a.data.id ≠ b.data.id
  words : ∀ w ∈ done, w.data.id = some wid → ∃ p aln, p ∈ done ∧ makePhraseTier pid aln = .ok p ∧
    makeTier (some WORDS) wid (some ra) aln (some p) = .ok w

theorem WInv.snoc {wid pid ra : Str} {done : List Obj} {t : Obj} (h : WInv wid pid ra done)
    (hn : ∀ y ∈ done, y.data.id ≠ t.data.id) (ht : t.data.id = some wid → ∃ p aln, p ∈ done ++ [t] ∧
      makePhraseTier pid aln = .ok p ∧ makeTier (some WORDS) wid (some ra) aln (some p) = .ok t) :
    WInv wid pid ra (done ++ [t]) := by
  refine ⟨?_, ?_⟩
  · rw [List.pairwise_append]
    exact ⟨h.distinct, by simp, fun a ha b hb => by
      simp only [List.mem_singleton] at hb; subst hb; exact hn a ha⟩
  · intro w hw hid
    rcases List.mem_append.1 hw with hw | hw
    · obtain ⟨p, aln, hp, h1, h2⟩ := h.words w hw hid
      exact ⟨p, aln, List.mem_append_left _ hp, h1, h2⟩
    · simp only [List.mem_singleton] at hw
      subst hw
      exact ht hid

theorem makeAllTiers_words {o : Opts} {wid pid ra : Str} (hp : o.phrase = some (wid, pid))
    (ha : Dict.get? o.alignments wid = some (some ra, pid))
    (hty : Dict.get? o.tierTypes wid = some (some WORDS)) (hne : wid ≠ pid) :
    ∀ (fs : List (Py Field)) (prev : Dict Str Obj) (done r : List Obj), WInv wid pid ra done →
      makeAllTiers o fs prev done = .ok r → WInv wid pid ra r := by
  intro fs
  induction fs with
  | nil => intro prev done r hi h; cases h; exact hi
  | cons f fs ih =>
    intro prev done r hi h
    cases f with
    | error e => cases h
    | ok f =>
      obtain ⟨mkr, aln⟩ := f
      cases hm : Dict.get? o.tierMap mkr with
      | none =>
        simp only [makeAllTiers, hm] at h
        exact ih _ _ _ hi h
      | some tid =>
        obtain ⟨prev', done', ty, t, hps, hty', ht, hn, hr⟩ := makeAllTiers_step hm h
        have htid := (makeTier_holds ht).1.id
        refine ih _ _ _ ?_ hr
        rcases phraseStep_inv hps with ⟨hno, _, rfl⟩ | ⟨pid', p, hp', hpt, rfl, rfl, hpn⟩
        · refine hi.snoc hn ?_
          intro hid
          rw [htid] at hid
          cases hid
          exact absurd hp (hno pid)
        · rw [hp] at hp'
          cases hp'
          rw [hty] at hty'
          cases hty'
          have hpid := (makePhraseTier_holds hpt).id
          have h1 : WInv wid pid ra (done ++ [p]) := hi.snoc hpn (by
            intro hid
            rw [hpid] at hid
            cases hid
            exact absurd rfl hne)
          refine h1.snoc hn ?_
          intro _
          simp only [alignmentOf, ha, Option.bind_some, Dict.get?_set, if_true] at ht
          exact ⟨p, aln, by simp, hpt, ht⟩

theorem find_of_distinct {xs : List Obj} {p : Obj} {i : Str}
    (h : xs.Pairwise fun a b => a.data.id ≠ b.data.id) (hp : p ∈ xs) (hi : p.data.id = some i) :
    contGet xs i = some p := by
  have : xs.find? (fun x => decide (x.data.id = some i)) = some p := by
    induction xs with
    | nil => cases hp
    | cons x xs ih =>
      rw [List.pairwise_cons] at h
      rcases List.mem_cons.1 hp with rfl | hp
      · rw [List.find?_cons_of_pos (by simp [hi])]
      · rw [List.find?_cons_of_neg (by
          simp only [decide_eq_true_eq]
          intro hx
          exact h.1 p hp (by rw [hx, hi]))]
        exact ih h.2 hp
  unfold contGet
  rw [this]

/-- C55: in an igt imported from Toolbox, the reference of every word into the phrase tier evaluates
to the text of the word.  (With the options' phrase tier made of the words, as by default.) -/
theorem C55_words (o : Opts) (wid pid ra : Str) (hp : o.phrase = some (wid, pid))
    (ha : Dict.get? o.alignments wid = some (some ra, pid))
    (hty : Dict.get? o.tierTypes wid = some (some WORDS)) (hne : wid ≠ pid) (hpid : IdOK pid)
    (key : Str) (data ctx : List (Str × Option Str)) (fs : List (Py Field)) (igt : Obj)
    (h : makeIgt o key data ctx fs = .ok (some igt)) (w : Obj) (hw : w ∈ igt.kids)
    (hwid : w.data.id = some wid) (x : Obj) (hx : x ∈ w.kids) (fuel : Nat) :
    ∃ t, x.data.text = some t ∧
      resolveRef (fun u i => value (fuel + 1) (some igt) (some u) i) (some igt) (some w) x ra = .ok t := by
  obtain ⟨i, ts, _, _, hts, rfl⟩ := makeIgt_inv h
  have hinv := makeAllTiers_words hp ha hty hne fs [] [] ts ⟨by simp, by simp⟩ hts
  obtain ⟨p, aln, hpm, hpt, hwt⟩ := hinv.words w hw hwid
  exact C55_tier hpid hpt hwt (igt := .mk _ _ ts) (find_of_distinct hinv.distinct hpm (makePhraseTier_holds hpt).id) fuel x hx

/-! ### C74: references lead to the item aligned with -/

theorem refOf_ids {ty : Option Str} {y : Obj} {tgt : Option Str} {s : Nat} {toks : List Str} {t r i : Str}
    (h : refOf ty (some y) tgt s toks t = .ok r) (hi : y.data.id = some i) :
    r = i ∨ ∃ b e : Nat, r = spanStr i (natStr b) (natStr e) := by
  obtain ⟨sp, hsp, rfl⟩ := refOf_some h
  rw [hi, Option.getD_some]
  cases sp with
  | none => exact Or.inl rfl
  | some bec =>
    obtain ⟨b, e, c⟩ := bec
    have hbe : 0 ≤ b ∧ 0 ≤ e := by
      unfold spanOf at hsp
      split at hsp
      · cases tgt with
        | none => simp [alignWord, Except.map] at hsp
        | some g =>
          cases hv : alignWord ty s (some g) toks t with
          | error e => rw [hv] at hsp; cases hsp
          | ok v =>
            rw [hv] at hsp
            cases hsp
            simp only [alignWord] at hv
            split at hv
            · simp only [alignWords, Except.ok.injEq, Prod.mk.injEq] at hv; omega
            · split at hv
              · simp only [Except.ok.injEq] at hv
                obtain ⟨g1, _, g3, _⟩ := C56_partial _ _ _ _ _ _ _ hv
                exact ⟨g1, g3⟩
              · simp only [Except.ok.injEq, Prod.mk.injEq] at hv; omega
      · cases hsp
    obtain ⟨m, rfl⟩ := Int.eq_ofNat_of_zero_le hbe.1
    obtain ⟨n, rfl⟩ := Int.eq_ofNat_of_zero_le hbe.2
    exact Or.inr ⟨m, n, by simp only [fmtRef]; rw [if_pos (by omega)]; rfl⟩

theorem ids_span {i : Str} {b e : Nat} (h : IdOK i) : ids (spanStr i (natStr b) (natStr e)) = [i] := by
  have hr : (⟨⟨i, some ⟨⟨natNum b, natNum e⟩, []⟩⟩, []⟩ : Expr).render = spanStr i (natStr b) (natStr e) := by
    simp [Expr.render, Sel.render, Sel.rangeStr, RangeE.render, SpanE.render, natNum_render, spanStr]
  rw [← hr, C13_ids_of_expression _ ⟨⟨h, by
    intro r hr; cases hr; exact ⟨⟨natNum_ok b, natNum_ok e⟩, by simp⟩⟩, by simp⟩]
  rfl

/-- C74: the items made for the tokens of the `j`-th alignment of a field refer — wholly or to a
span — to the `j`-th item of the aligned tier, and to nothing else. -/
theorem C74_alignment {ty : Option Str} {tid ra : Str} {aln : List Aln} {u t : Obj}
    (hu : ∀ y ∈ u.kids, ∃ i, y.data.id = some i ∧ IdOK i)
    (h : makeTier ty tid (some ra) aln (some u) = .ok t) (x : Obj) (hx : x ∈ t.kids) :
    ∃ (j : Nat) (y : Obj) (i : Str) (g : Option Str) (toks : List Str) (tok r : Str),
      u.kids[j]? = some y ∧ y.data.id = some i ∧ aln[j]? = some (g, some toks) ∧ tok ∈ toks ∧
      x.data.text = some tok ∧ x.data.attrs = [(ra, r)] ∧ ids r = [i] ∧
      Dict.get? t.data.attrs ra = u.data.id.or (some (lit! "None")) := by
  unfold makeTier at h
  split at h
  · obtain ⟨rfl, _⟩ := mkTier_inv h; cases hx
  simp only [bind, Except.bind] at h
  split at h
  · cases h
  rename_i xs hxs
  obtain ⟨rfl, _⟩ := mkTier_inv h
  obtain ⟨_, _, hitems⟩ := alnItems_inv _ _ _ hxs
  obtain ⟨item, tgt, toks, pre, tok, post, r, j, hm, e, hr, rfl⟩ := hitems x hx
  cases item with
  | none => exact absurd hr refOf_none
  | some y =>
    obtain ⟨k, hk1, hk2⟩ := zipLongest_mem hm
    obtain ⟨i, hi, hok⟩ := hu y (List.mem_of_getElem? hk1)
    refine ⟨k, y, i, tgt, toks, tok, r, hk1, hi, hk2, by rw [e]; simp, rfl, rfl, ?_, ?_⟩
    · rcases refOf_ids hr hi with rfl | ⟨b, e, rfl⟩
      · exact (C09_partial r).2.2 hok |>.2
      · exact ids_span hok
    · simp only [Obj.data_mk, Dict.get?, if_true]
      cases u.data.id <;> rfl

/-! ### C71: morphemes spelling their word select themselves -/

/-- C71: if the morphemes of a word (without boundary marks) spell the word, which is in lower case
and without hyphens, the reference of each evaluates to it.  (A sole morpheme must not have
boundary marks.) -/
theorem C71_morphemes {mid ra : Str} {aln : List Aln} {u t igt : Obj} {uid : Str}
    (hu : ∀ y ∈ u.kids, ∃ i, y.data.id = some i ∧ IdOK i)
    (hd : u.kids.Pairwise fun a b => a.data.id ≠ b.data.id) (huid : u.data.id = some uid)
    (hfind : contGet igt.kids uid = some u)
    (h : makeTier (some MORPHEMES) mid (some ra) aln (some u) = .ok t)
    (hspell : ∀ (j : Nat) (y : Obj) g toks, u.kids[j]? = some y → aln[j]? = some (some g, some toks) →
      (toks.length = 1 → ∀ t ∈ toks, bare t = t) ∧ y.data.text = some g ∧ Lex.lower g = g ∧ '-' ∉ g ∧ g = (toks.map bare).flatten)
    (x : Obj) (hx : x ∈ t.kids) (fuel : Nat) :
    ∃ tok, x.data.text = some tok ∧
      resolveRef (fun u i => value (fuel + 1) (some igt) (some u) i) (some igt) (some t) x ra =
        .ok (bare tok) := by
  unfold makeTier at h
  split at h
  · obtain ⟨rfl, _⟩ := mkTier_inv h; cases hx
  simp only [bind, Except.bind] at h
  split at h
  · cases h
  rename_i xs hxs
  obtain ⟨rfl, _⟩ := mkTier_inv h
  obtain ⟨_, _, hitems⟩ := alnItems_inv _ _ _ hxs
  obtain ⟨item, tgt, toks, pre, tok, post, r, j, hm, e, hr, rfl⟩ := hitems x hx
  cases item with
  | none => exact absurd hr refOf_none
  | some y =>
    obtain ⟨k, hk1, hk2⟩ := zipLongest_mem hm
    have hym := List.mem_of_getElem? hk1
    obtain ⟨i, hi, hok⟩ := hu y hym
    obtain ⟨span, hspan, hfmt⟩ := refOf_some hr
    cases tgt with
    | none => simp [spanOf, alignWord, Except.map] at hspan
    | some g =>
      obtain ⟨hn, hy, hl, hh, hg⟩ := hspell k y g toks hk1 hk2
      refine ⟨tok, rfl, ?_⟩
      have hsp := C71_spell g toks hn hh hg pre post tok e
      have hWM : MORPHEMES ≠ WORDS := by decide
      simp only [spanOf, alignWord, Except.map, or_true, if_true, hl, hsp, Option.some.injEq, hWM, if_false,
        Except.ok.injEq] at hspan
      rw [← hspan] at hfmt
      simp only [fmtRef, hi, Option.getD_some] at hfmt
      rw [if_pos (by omega)] at hfmt
      simp only [resolveRef, Obj.data_mk, Dict.getItem, Dict.get?, if_true, bind, Except.bind, huid,
        Option.getD_some, hfind]
      rw [hfmt]
      have hb : intStr ((pre.map bare).flatten.length : Int) = natStr (pre.map bare).flatten.length := rfl
      have he : intStr (((pre.map bare).flatten.length + (bare tok).length : Nat) : Int) =
        natStr ((pre.map bare).flatten.length + (bare tok).length) := rfl
      rw [hb, he, resolve_span (v := g) hok (by
        rw [find_of_distinct hd hym hi]
        simp [value, hy])]
      have hg' : g = (pre.map bare).flatten ++ (bare tok ++ (post.map bare).flatten) := by
        rw [hg, e]; simp
      rw [hg', slice_mid]

/-! ### C73: the ID of the igt -/

/-- C73 as far as it holds: a key beginning with an ASCII character gives a valid ID that ends with
the key. -/
theorem C73_partial (c : Char) (cs : Str) (hc : c.toNat < 128) :
    ∃ i, igtId (c :: cs) = .ok i ∧ idAccepted i = true ∧ (c :: cs) <:+ i := by
  simp only [igtId, Lex.ascii_alpha c hc]
  cases h : isLetter c with
  | true => exact ⟨c :: cs, by simp, (idAccepted_iff _).2 ⟨c, cs, rfl, h⟩, List.suffix_refl _⟩
  | false =>
    refine ⟨lit! "igt" ++ (c :: cs), by simp, (idAccepted_iff _).2 ⟨'i', lit! "gt" ++ (c :: cs), rfl, by decide⟩, ?_⟩
    exact List.suffix_append _ _

/-- C73 is false: with a key beginning with a letter outside ASCII no record is imported; the
ValueError ends the whole import. -/
theorem C73_refuted (o : Opts) (c : Char) (cs : Str) (h1 : Lex.isAlpha c = true) (h2 : 128 ≤ c.toNat)
    (data ctx : List (Str × Option Str)) (fs : List (Py Field)) :
    makeIgt o (c :: cs) data ctx fs = .error .valueError := by
  have hl : isLetter c = false := by
    simp only [isLetter, Bool.or_eq_false_iff, Bool.and_eq_false_iff, decide_eq_false_iff_not]
    omega
  have : idAccepted (c :: cs) = false := by
    cases h : idAccepted (c :: cs) with
    | false => rfl
    | true =>
      obtain ⟨c', cs', e, hc'⟩ := (idAccepted_iff _).1 h
      cases e
      rw [hl] at hc'; cases hc'
  simp [makeIgt, igtId, h1, this, bind, Except.bind]

/-- Different keys can give the same ID: `1` and `igt1`. -/
theorem C73_collision : igtId (lit! "1") = .ok (lit! "igt1") ∧ igtId (lit! "igt1") = .ok (lit! "igt1") := by
  have h1 : Lex.isAlpha '1' = false := by rw [Lex.ascii_alpha _ (by decide)]; decide
  have h2 : Lex.isAlpha 'i' = true := by rw [Lex.ascii_alpha _ (by decide)]; decide
  simp [igtId, h1, h2]

end

/-! ### Non-vacuity -/

section
attribute [local instance] asciiUni asciiLex

/-- a record with the fields `\t \m \g \f` -/
def exFields : List (Py Field) := [
  .ok (lit! "\\t", [(some (lit! "dogs bark"), some [lit! "dogs", lit! "bark"])]),
  .ok (lit! "\\m", [(some (lit! "dogs"), some [lit! "dog", lit! "-s"]), (some (lit! "bark"), some [lit! "bark"])]),
  .ok (lit! "\\g", [(some (lit! "dog"), some [lit! "Hund"]), (some (lit! "-s"), some [lit! "PL"]), (some (lit! "bark"), some [lit! "bell"])]),
  .ok (lit! "\\x", [(none, none)]),
  .ok (lit! "\\f", [(some (lit! "Hunde bellen"), some [lit! "Hunde bellen"])])]

/-- what it is imported as -/
def exIgt : Option Obj := match makeIgt defaults (lit! "7") [] [(lit! "\\id", some (lit! "c"))] exFields with
  | .ok x => x
  | .error _ => none

/- It is imported, with five tiers, under `igt7`, and the words and morphemes refer to spans. -/
example : (exIgt.map fun x => x.data) =
      some { cls := .igt, id := some (lit! "igt7"), attrs := [(lit! "corpus-id", lit! "c")] } ∧
    (exIgt.map fun x => x.kids.map fun t => (t.data.id, t.data.attrs, t.kids.map fun y => (y.data.id, y.data.attrs))) =
      some [
        (some (lit! "p"), [], [(some (lit! "p1"), [])]),
        (some (lit! "w"), [(SEGMENTATION, lit! "p")], [(some (lit! "w1"), [(SEGMENTATION, lit! "p1[0:4]")]),
          (some (lit! "w2"), [(SEGMENTATION, lit! "p1[5:9]")])]),
        (some (lit! "m"), [(SEGMENTATION, lit! "w")], [(some (lit! "m1"), [(SEGMENTATION, lit! "w1[0:3]")]),
          (some (lit! "m2"), [(SEGMENTATION, lit! "w1[3:4]")]), (some (lit! "m3"), [(SEGMENTATION, lit! "w2[0:4]")])]),
        (some (lit! "g"), [(ALIGNMENT, lit! "m")], [(some (lit! "g1"), [(ALIGNMENT, lit! "m1")]),
          (some (lit! "g2"), [(ALIGNMENT, lit! "m2")]), (some (lit! "g3"), [(ALIGNMENT, lit! "m3")])]),
        (some (lit! "t"), [(ALIGNMENT, lit! "p")], [(some (lit! "t1"), [(ALIGNMENT, lit! "p1")])])] := ⟨by decide +kernel, by rfl⟩

/- The default options meet the hypotheses of C55_words. -/
example : defaults.phrase = some (lit! "w", lit! "p") ∧
    Dict.get? defaults.alignments (lit! "w") = some (some SEGMENTATION, lit! "p") ∧
    Dict.get? defaults.tierTypes (lit! "w") = some (some WORDS) ∧ lit! "w" ≠ lit! "p" := by decide
example : IdOK (lit! "p") := ⟨'p', [], rfl, by decide, by simp⟩

/- A key for which C73 fails. -/
example : Lex.isAlpha 'é' = true ∧ 128 ≤ 'é'.toNat := by decide
end

end Xigt.Tbx
