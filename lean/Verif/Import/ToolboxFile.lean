import Verif.Import.ToolboxIgt
/-
C92: what a Toolbox file is turned into: an IGT for every record that has a key and can be aligned.
-/
set_option linter.unusedSectionVars false

namespace Xigt.Tbx

/-! ### Spec -/

/-- the last of the fields that has a value and whose marker is mapped to `a` has the value `v` -/
def LastValue (o : Opts) (fields : List (Str × Option Str)) (a v : Str) : Prop :=
  ∃ pre mkr post, fields = pre ++ (mkr, some v) :: post ∧ Dict.get? o.attMap mkr = some a ∧
    ∀ f ∈ post, f.2 ≠ none → Dict.get? o.attMap f.1 ≠ some a

/-- the number of items of the tier `aid` when the tier `tid` is made, `ts` being the tiers before -/
def ItemsOf (o : Opts) (ts : List Obj) (tid aid : Str) (n : Nat) : Prop :=
  (∃ t ∈ ts, t.data.id = some aid ∧ n = t.kids.length) ∨ (o.phrase = some (tid, aid) ∧ n = 1)

/-- a record that cannot be imported: Toolbox itself could not align one of the fields, or tokens of a
field that is aligned with another have nothing to be aligned with -/
inductive Unusable (o : Opts) (fs : List (Py Field)) : Prop
  | toolbox : .error .xigtImportError ∈ fs → Unusable o fs
  | token {pre mkr aln post ts tid ra aid} (k : Nat) {tgt toks n} : fs = pre ++ .ok (mkr, aln) :: post → Imported o pre ts →
      Dict.get? o.tierMap mkr = some tid → Dict.get? o.alignments tid = some (some ra, aid) → ItemsOf o ts tid aid n →
      aln[k]? = some (tgt, some toks) → toks ≠ [] → (tgt = none ∨ n ≤ k) → Unusable o fs

section
variable [Lex]

/-- the ID made of a key: itself, if it begins with a letter -/
def IsIgtId (key i : Str) : Prop :=
  ∃ c cs, key = c :: cs ∧ ((Lex.isAlpha c = true ∧ i = key) ∨ (Lex.isAlpha c = false ∧ i = lit! "igt" ++ key))

/-- `x` is what the record with the key is turned into -/
structure IsIgt (o : Opts) (key : Str) (r : Record) (x : Obj) : Prop where
  cls : x.cls = .igt
  id : ∃ i, IsIgtId key i ∧ x.data.id = some i
  type : x.data.type = none
  attrs : x.data.attrs.WF ∧ ∀ a v, Dict.get? x.data.attrs a = some v ↔ LastValue o (r.data ++ r.context) a v
  md : x.md = []
  tiers : Imported o r.fields x.kids

/-- the igts of the records, in order; `k` is the marker of keys -/
inductive FromRecords (o : Opts) (k : Str) : List Record → List Obj → Prop
  | nil : FromRecords o k [] []
  | header {r rs xs} : (∀ key, Dict.get? r.context k ≠ some (some key)) → FromRecords o k rs xs → FromRecords o k (r :: rs) xs
  | unusable {r rs key xs} : Dict.get? r.context k = some (some key) → Unusable o r.fields → FromRecords o k rs xs →
      FromRecords o k (r :: rs) xs
  | igt {r rs key x xs} : Dict.get? r.context k = some (some key) → IsIgt o key r x → FromRecords o k rs xs →
      FromRecords o k (r :: rs) (x :: xs)
end

/-! ### Attributes -/

theorem foldl_attrs (o : Opts) (a : Str) : ∀ (fs : List (Str × Option Str)) (acc : Dict Str Str), acc.WF →
    let out := fs.foldl (fun d f => match f.2, Dict.get? o.attMap f.1 with
      | some v, some a => Dict.set d a v
      | _, _ => d) acc
    out.WF ∧ ∀ v, Dict.get? out a = some v ↔ LastValue o fs a v ∨
      (Dict.get? acc a = some v ∧ ∀ f ∈ fs, f.2 ≠ none → Dict.get? o.attMap f.1 ≠ some a) := by
  intro fs
  induction fs with
  | nil =>
    intro acc h
    refine ⟨h, fun v => ⟨fun hv => .inr ⟨hv, by simp⟩, ?_⟩⟩
    rintro (⟨pre, _, _, e, _⟩ | ⟨hv, _⟩)
    · cases pre <;> cases e
    · exact hv
  | cons f fs ih =>
    intro acc h
    obtain ⟨mkr, val⟩ := f
    have skip : (val = none ∨ Dict.get? o.attMap mkr = none) → ∀ v, LastValue o ((mkr, val) :: fs) a v ↔ LastValue o fs a v := by
      intro hs v
      constructor
      · rintro ⟨pre, m, post, e, hm, hp⟩
        cases pre with
        | nil =>
          injection e with e1 e2
          injection e1 with e1 e3
          subst e1 e3
          rcases hs with hs | hs
          · cases hs
          · rw [hs] at hm; cases hm
        | cons p pre => injection e with _ e; exact ⟨pre, m, post, e, hm, hp⟩
      · rintro ⟨pre, m, post, e, hm, hp⟩
        exact ⟨(mkr, val) :: pre, m, post, by rw [e]; rfl, hm, hp⟩
    have none' : (val = none ∨ Dict.get? o.attMap mkr = none) → ((∀ f ∈ (mkr, val) :: fs, f.2 ≠ none → Dict.get? o.attMap f.1 ≠ some a) ↔
        ∀ f ∈ fs, f.2 ≠ none → Dict.get? o.attMap f.1 ≠ some a) := by
      intro hs
      constructor
      · exact fun h f hf => h f (by simp [hf])
      · intro h f hf
        rcases List.mem_cons.1 hf with rfl | hf
        · intro hv
          rcases hs with hs | hs
          · exact absurd hs hv
          · simp only [hs]; simp
        · exact h f hf
    cases hval : val with
    | none =>
      subst hval
      simp only [List.foldl_cons]
      obtain ⟨h1, h2⟩ := ih acc h
      refine ⟨h1, fun v => ?_⟩
      rw [h2 v, skip (.inl rfl), none' (.inl rfl)]
    | some w =>
      subst hval
      cases hm : Dict.get? o.attMap mkr with
      | none =>
        simp only [List.foldl_cons, hm]
        obtain ⟨h1, h2⟩ := ih acc h
        refine ⟨h1, fun v => ?_⟩
        rw [h2 v, skip (.inr hm), none' (.inr hm)]
      | some b =>
        simp only [List.foldl_cons, hm]
        obtain ⟨h1, h2⟩ := ih (Dict.set acc b w) (h.set _ _)
        refine ⟨h1, fun v => ?_⟩
        rw [h2 v, Dict.get?_set]
        constructor
        · rintro (⟨pre, m, post, e, hm', hp⟩ | ⟨hv, hp⟩)
          · exact .inl ⟨(mkr, some w) :: pre, m, post, by rw [e]; rfl, hm', hp⟩
          · split at hv
            · next hb =>
              cases hv
              exact .inl ⟨[], mkr, fs, rfl, by rw [hm, hb], hp⟩
            · next hb =>
              refine .inr ⟨hv, fun f hf => ?_⟩
              rcases List.mem_cons.1 hf with rfl | hf
              · intro _ e
                rw [hm] at e
                injection e with e
                exact hb e
              · exact hp f hf
        · rintro (⟨pre, m, post, e, hm', hp⟩ | ⟨hv, hp⟩)
          · cases pre with
            | nil =>
              injection e with e1 e2
              injection e1 with e1 e3
              injection e3 with e3
              subst e1 e3 e2
              rw [hm] at hm'
              injection hm' with hm'
              exact .inr ⟨by rw [if_pos hm'], hp⟩
            | cons p pre => injection e with _ e; exact .inl ⟨pre, m, post, e, hm', hp⟩
          · refine .inr ⟨?_, fun f hf => hp f (by simp [hf])⟩
            rw [if_neg, hv]
            intro hb
            exact hp (mkr, some w) (by simp) (by simp) (by rw [hm, hb])

theorem igtAttrs_spec (o : Opts) (fs : List (Str × Option Str)) :
    (igtAttrs o fs).WF ∧ ∀ a v, Dict.get? (igtAttrs o fs) a = some v ↔ LastValue o fs a v := by
  refine ⟨(foldl_attrs o [] fs [] Dict.wf_nil).1, fun a v => ?_⟩
  refine ((foldl_attrs o a fs [] Dict.wf_nil).2 v).trans ?_
  simp [Dict.get?]

section
variable [Uni] [Lex]

/-! ### Records that are dropped -/

theorem mkItem_err {tid : Str} {i : Nat} {t : Str} {a : Dict Str Str} {e : PyErr} (h : mkItem tid i t a = .error e) :
    e ≠ .attributeError ∧ e ≠ .assertionError ∧ e ≠ .xigtImportError := by
  unfold mkItem construct at h
  revert h
  repeat' split
  all_goals intro h
  all_goals first | (cases h; decide) | skip
  all_goals cases h

theorem mkTier_err {ty : Option Str} {tid : Str} {a : Dict Str Str} {xs : List Obj} {e : PyErr} (h : mkTier ty tid a xs = .error e) :
    e ≠ .attributeError ∧ e ≠ .assertionError ∧ e ≠ .xigtImportError := by
  unfold mkTier construct at h
  revert h
  repeat' split
  all_goals intro h
  all_goals first | (cases h; decide) | skip
  all_goals cases h

theorem refOf_err {ty : Option Str} {item : Option Obj} {tgt : Option Str} {s : Nat} {toks : List Str} {t : Str} {e : PyErr}
    (h : refOf ty item tgt s toks t = .error e) : tgt = none ∨ item = none := by
  unfold refOf at h
  split at h
  · next e' hs =>
    left
    unfold spanOf at hs
    split at hs
    · cases tgt with
      | none => rfl
      | some w =>
        exfalso
        unfold alignWord at hs
        revert hs
        repeat' split
        all_goals intro hs
        all_goals first | (cases hs; done) | contradiction
    · cases hs
  · exact .inr rfl
  · cases h

theorem refItems_err {ty : Option Str} {tid ra : Str} {item : Option Obj} {tgt : Option Str} {toks : List Str} {e : PyErr}
    (he : e = .attributeError ∨ e = .assertionError ∨ e = .xigtImportError) :
    ∀ (ts : List Str) (s i : Nat), refItems ty tid ra item tgt toks ts s i = .error e → ts ≠ [] ∧ (tgt = none ∨ item = none) := by
  intro ts
  induction ts with
  | nil => intro s i h; cases h
  | cons t ts ih =>
    intro s i h
    refine ⟨by simp, ?_⟩
    simp only [refItems, bind, Except.bind] at h
    split at h
    · next e' hr => exact refOf_err hr
    · split at h
      · next e' hx =>
        injection h with h
        subst h
        have := mkItem_err hx
        rcases he with rfl | rfl | rfl
        · exact absurd rfl this.1
        · exact absurd rfl this.2.1
        · exact absurd rfl this.2.2
      · split at h
        · next e' hx =>
          injection h with h
          subst h
          exact (ih _ _ hx).2
        · cases h

theorem zipLongest_get {α β : Type} : ∀ (xs : List α) (ys : List β) (k : Nat) (x : Option α) (y : β),
    (zipLongest xs ys)[k]? = some (x, some y) → ys[k]? = some y ∧ (x = none → xs.length ≤ k) := by
  intro xs
  induction xs with
  | nil =>
    intro ys k x y h
    rw [zipLongest, List.getElem?_map] at h
    cases hy : ys[k]? with
    | none => rw [hy] at h; cases h
    | some z => rw [hy] at h; cases h; exact ⟨rfl, by simp⟩
  | cons a xs ih =>
    intro ys k x y h
    cases ys with
    | nil =>
      simp only [zipLongest] at h
      rw [List.getElem?_map] at h
      cases hy : (a :: xs)[k]? with
      | none => rw [hy] at h; cases h
      | some z => rw [hy] at h; cases h
    | cons b ys =>
      rw [zipLongest] at h
      cases k with
      | zero => cases h; exact ⟨rfl, by simp⟩
      | succ k =>
        obtain ⟨h1, h2⟩ := ih ys k x y h
        exact ⟨h1, fun hx => by have := h2 hx; simp only [List.length_cons]; omega⟩

theorem alnItems_err {ty : Option Str} {tid ra : Str} {e : PyErr}
    (he : e = .attributeError ∨ e = .assertionError ∨ e = .xigtImportError) :
    ∀ (ps : List (Option Obj × Option Aln)) (i : Nat), alnItems ty tid ra ps i = .error e →
    ∃ (k : Nat), ∃ item tgt toks, ps[k]? = some (item, some (tgt, some toks)) ∧ toks ≠ [] ∧ (tgt = none ∨ item = none) := by
  intro ps
  induction ps with
  | nil => intro i h; cases h
  | cons p ps ih =>
    intro i h
    obtain ⟨item, a⟩ := p
    cases a with
    | none => simp only [alnItems] at h; cases h; simp at he
    | some a =>
      obtain ⟨tgt, toks⟩ := a
      cases toks with
      | none => simp only [alnItems] at h; cases h; simp at he
      | some toks =>
        simp only [alnItems, bind, Except.bind] at h
        split at h
        · next e' hx =>
          injection h with h
          subst h
          have := refItems_err he _ _ _ hx
          exact ⟨0, item, tgt, toks, rfl, this⟩
        · split at h
          · next e' hx =>
            injection h with h
            subst h
            obtain ⟨k, r⟩ := ih _ hx
            exact ⟨k + 1, r⟩
          · cases h

theorem plainToks_err {tid : Str} {e : PyErr} (he : e = .attributeError ∨ e = .assertionError ∨ e = .xigtImportError) :
    ∀ (ts : List Str) (i : Nat), plainToks tid ts i ≠ .error e := by
  intro ts
  induction ts with
  | nil => intro i h; cases h
  | cons t ts ih =>
    intro i h
    simp only [plainToks, bind, Except.bind] at h
    split at h
    · next e' hx =>
      injection h with h
      subst h
      have := mkItem_err hx
      rcases he with rfl | rfl | rfl
      · exact absurd rfl this.1
      · exact absurd rfl this.2.1
      · exact absurd rfl this.2.2
    · split at h
      · next e' hx => injection h with h; subst h; exact ih _ hx
      · cases h

theorem plainItems_err {tid : Str} {e : PyErr} (he : e = .attributeError ∨ e = .assertionError ∨ e = .xigtImportError) :
    ∀ (as : List Aln) (i : Nat), plainItems tid as i ≠ .error e := by
  intro as
  induction as with
  | nil => intro i h; cases h
  | cons a as ih =>
    obtain ⟨tgt, toks⟩ := a
    intro i h
    cases toks with
    | none => simp only [plainItems] at h; cases h; simp at he
    | some toks =>
      simp only [plainItems, bind, Except.bind] at h
      split at h
      · next e' hx => injection h with h; subst h; exact plainToks_err he _ _ hx
      · split at h
        · next e' hx => injection h with h; subst h; exact ih _ hx
        · cases h

theorem mkTier_err' {ty : Option Str} {tid : Str} {a : Dict Str Str} {xs : List Obj} {e : PyErr}
    (he : e = .attributeError ∨ e = .assertionError ∨ e = .xigtImportError) : mkTier ty tid a xs ≠ .error e := by
  intro h
  have := mkTier_err h
  rcases he with rfl | rfl | rfl
  · exact this.1 rfl
  · exact this.2.1 rfl
  · exact this.2.2 rfl

theorem makeTier_err {ty : Option Str} {tid : Str} {ra : Option Str} {aln : List Aln} {algn : Option Obj} {e : PyErr}
    (he : e = .attributeError ∨ e = .assertionError ∨ e = .xigtImportError) (h : makeTier ty tid ra aln algn = .error e) :
    ∃ r t, ra = some r ∧ algn = some t ∧ ∃ (k : Nat), ∃ tgt toks, aln[k]? = some (tgt, some toks) ∧ toks ≠ [] ∧ (tgt = none ∨ t.kids.length ≤ k) := by
  unfold makeTier at h
  split at h
  · exact absurd h (mkTier_err' he)
  · split at h
    · next r t =>
      refine ⟨r, t, rfl, rfl, ?_⟩
      simp only [bind, Except.bind] at h
      split at h
      · next e' hx =>
        injection h with h
        subst h
        obtain ⟨k, item, tgt, toks, hk, hne, hor⟩ := alnItems_err he _ _ hx
        obtain ⟨h1, h2⟩ := zipLongest_get _ _ _ _ _ hk
        exact ⟨k, tgt, toks, h1, hne, hor.imp id h2⟩
      · exact absurd h (mkTier_err' he)
    · simp only [bind, Except.bind] at h
      split at h
      · next e' hx => injection h with h; subst h; exact absurd hx (plainItems_err he _ _)
      · exact absurd h (mkTier_err' he)

theorem makePhraseTier_err {pid : Str} {aln : List Aln} : makePhraseTier pid aln ≠ .error .xigtImportError := by
  intro h
  simp only [makePhraseTier, bind, Except.bind] at h
  split at h
  · next e' hx => injection h with h; subst h; exact (mkItem_err hx).2.2 rfl
  · exact mkTier_err' (.inr (.inr rfl)) h

theorem phraseStep_err {o : Opts} {tid : Str} {aln : List Aln} {prev : Dict Str Obj} {done : List Obj} :
    phraseStep o tid aln prev done ≠ .error .xigtImportError := by
  intro h
  unfold phraseStep at h
  split at h
  · cases h
  · split at h
    · simp only [bind, Except.bind] at h
      split at h
      · next e' hx => injection h with h; subst h; exact makePhraseTier_err hx
      · split at h
        · next e' hx =>
          injection h with h
          subst h
          unfold yieldTier at hx
          split at hx <;> cases hx
        · cases h
    · cases h

/-- the tiers made so far, by ID -/
def Known (prev : Dict Str Obj) (done : List Obj) : Prop := ∀ a t, Dict.get? prev a = some t → t ∈ done ∧ t.data.id = some a

theorem Imported.append {o : Opts} {a b : List (Py Field)} {xs ys : List Obj} (ha : Imported o a xs) (hb : Imported o b ys) :
    Imported o (a ++ b) (xs ++ ys) := by
  induction ha with
  | nil => exact hb
  | skip h1 _ ih => exact .skip h1 ih
  | phrase h1 h2 h3 h4 h5 h6 _ ih => exact .phrase h1 h2 h3 h4 h5 h6 ih
  | tier h1 h2 h3 h4 _ ih => exact .tier h1 h2 h3 h4 ih

theorem makeAllTiers_err {o : Opts} {all : List (Py Field)} : ∀ (fs pre : List (Py Field)) (prev : Dict Str Obj) (done : List Obj),
    all = pre ++ fs → Imported o pre done → Known prev done → makeAllTiers o fs prev done = .error .xigtImportError → Unusable o all := by
  intro fs
  induction fs with
  | nil => intro pre prev done _ _ _ h; cases h
  | cons f fs ih =>
    intro pre prev done hall him hkn h
    cases f with
    | error e =>
      cases h
      exact .toolbox (by rw [hall]; simp)
    | ok f =>
      obtain ⟨mkr, aln⟩ := f
      cases hm : Dict.get? o.tierMap mkr with
      | none =>
        simp only [makeAllTiers, hm] at h
        refine ih (pre ++ [.ok (mkr, aln)]) prev done (by rw [hall]; simp) ?_ hkn h
        have := him.append (.skip (aln := aln) hm .nil)
        simpa using this
      | some tid =>
        simp only [makeAllTiers, hm, bind, Except.bind] at h
        split at h
        · next e' hx => injection h with h; subst h; exact absurd hx phraseStep_err
        next pd hpd =>
        obtain ⟨prev', done'⟩ := pd
        simp only at h
        cases hty : Dict.get? o.tierTypes tid with
        | none => simp [Dict.getItem, hty] at h
        | some ty =>
          simp only [Dict.getItem, hty] at h
          have hps := phraseStep_inv hpd
          -- the tiers known when the tier is made
          have hkn' : Known prev' done' := by
            rcases hps with ⟨_, rfl, rfl⟩ | ⟨pid, p, _, hp, rfl, rfl, _⟩
            · exact hkn
            · intro a t ht
              rw [Dict.get?_set] at ht
              split at ht
              · next e =>
                cases ht
                exact ⟨by simp, by rw [← e]; exact (makePhraseTier_holds hp).id⟩
              · exact ⟨by simp [(hkn a t ht).1], (hkn a t ht).2⟩
          have hlen : ∀ a t, Dict.get? prev' a = some t → ItemsOf o done tid a t.kids.length := by
            intro a t ht
            rcases hps with ⟨_, rfl, rfl⟩ | ⟨pid, p, hph, hp, rfl, rfl, _⟩
            · exact .inl ⟨t, (hkn a t ht).1, (hkn a t ht).2, rfl⟩
            · rw [Dict.get?_set] at ht
              split at ht
              · next e =>
                cases ht
                subst e
                refine .inr ⟨hph, ?_⟩
                have := congrArg List.length (makePhraseTier_holds hp).texts
                simpa using this
              · exact .inl ⟨t, (hkn a t ht).1, (hkn a t ht).2, rfl⟩
          split at h
          · next e' hx =>
            injection h with h
            subst h
            have hbad : ∃ e, (e = PyErr.attributeError ∨ e = .assertionError ∨ e = .xigtImportError) ∧
                makeTier ty tid (alignmentOf o tid).1 aln ((alignmentOf o tid).2.bind (Dict.get? prev')) = .error e := by
              unfold asImportError at hx
              split at hx
              · next hh => exact ⟨_, .inl rfl, hh⟩
              · next hh => exact ⟨_, .inr (.inl rfl), hh⟩
              · exact ⟨_, .inr (.inr rfl), hx⟩
            obtain ⟨e, he, hmk⟩ := hbad
            obtain ⟨r, t, hr, ht, k, tgt, toks, h1, h2, h3⟩ := makeTier_err he hmk
            unfold alignmentOf at hr ht
            cases hal : Dict.get? o.alignments tid with
            | none => rw [hal] at hr; cases hr
            | some ra =>
              obtain ⟨ra, aid⟩ := ra
              rw [hal] at hr ht
              simp only at hr ht
              subst hr
              exact .token k hall him hm hal (hlen aid t ht) h1 h2 h3
          · next t ht =>
            split at h
            · next e' hx =>
              injection h with h
              subst h
              unfold yieldTier at hx
              split at hx <;> cases hx
            · next d2 hd2 =>
              have hh := makeTier_holds (asImportError_ok ht)
              have hty' : Dict.get? o.tierTypes tid = some t.data.type := by rw [hh.2, hty]
              obtain ⟨e1, e2⟩ := yieldTier_inv hd2
              subst e1
              refine ih (pre ++ [.ok (mkr, aln)]) (Dict.set prev' tid t) (done' ++ [t]) (by rw [hall]; simp) ?_ ?_ h
              · rcases hps with ⟨hno, _, rfl⟩ | ⟨pid, p, hph, hp, _, rfl, _⟩
                · exact him.append (.tier hm hno hh.1 hty' .nil)
                · have := him.append (.phrase hm hph (makePhraseTier_holds hp) (makePhraseTier_type hp) hh.1 hty' .nil)
                  simpa using this
              · intro a u hu
                rw [Dict.get?_set] at hu
                split at hu
                · next e => cases hu; exact ⟨by simp, by rw [← e]; exact hh.1.id⟩
                · exact ⟨by simp [(hkn' a u hu).1], (hkn' a u hu).2⟩

/-- **C92** (dropped records): only a record that is `Unusable` is dropped. -/
theorem C92_dropped (o : Opts) (key : Str) (data ctx : List (Str × Option Str)) (fs : List (Py Field))
    (h : makeIgt o key data ctx fs = .ok none) : Unusable o fs := by
  simp only [makeIgt, bind, Except.bind] at h
  split at h
  · cases h
  split at h
  · cases h
  split at h
  · cases h
  · next he => exact makeAllTiers_err fs [] [] [] rfl .nil (by intro a t ht; cases ht) he
  · cases h

/-- **C92**: if the import finishes, every record with a key gives an igt, in order, unless it is
`Unusable`; records without key give none.  The igt has the key as ID (after `igt` if it does not begin
with a letter), the last value of every mapped marker as attribute and no others, and a tier for every
mapped field with all tokens of the field. -/
theorem C92_igts (o : Opts) (k : Str) : ∀ (rs : List Record) (xs : List Obj), toolboxIgts o k rs = .ok xs → FromRecords o k rs xs := by
  intro rs
  induction rs with
  | nil => intro xs h; cases h; exact .nil
  | cons r rs ih =>
    intro xs h
    rw [toolboxIgts] at h
    split at h
    · next key hk =>
      simp only [bind, Except.bind] at h
      split at h
      · cases h
      next x hx =>
      split at h
      · cases h
      next ys hys =>
      cases h
      cases x with
      | none => exact .unusable hk (C92_dropped o key _ _ _ hx) (ih ys hys)
      | some x =>
        refine .igt hk ?_ (ih ys hys)
        have ht := C72_tokens o _ _ _ _ x hx
        obtain ⟨i, ts, hi, _, _, rfl⟩ := makeIgt_inv hx
        refine ⟨rfl, ⟨i, ?_, rfl⟩, rfl, igtAttrs_spec o _, rfl, ht⟩
        cases key with
        | nil => cases hi
        | cons c cs =>
          simp only [igtId, Except.ok.injEq] at hi
          refine ⟨c, cs, rfl, ?_⟩
          cases hc : Lex.isAlpha c with
          | true => left; rw [hc] at hi; exact ⟨rfl, hi.symm⟩
          | false => right; rw [hc] at hi; exact ⟨rfl, hi.symm⟩
    · next hk =>
      refine .header ?_ (ih xs h)
      intro key hh
      exact hk key hh

end

/-! ### Examples -/
section
attribute [local instance] asciiUni asciiLex

def exRecords : List Record := [
  { context := [(lit! "\\id", some (lit! "c")), (lit! "\\ref", none)], data := [], fields := [] },
  { context := [(lit! "\\id", some (lit! "c")), (lit! "\\ref", some (lit! "7"))], data := [(lit! "\\id", some (lit! "d"))], fields := exFields },
  { context := [(lit! "\\ref", some (lit! "x"))], data := [], fields := [.error .xigtImportError] }]

/-- one of three records gives an igt -/
example : (match toolboxIgts defaults (lit! "\\ref") exRecords with
    | .ok xs => xs.map fun x => (x.data.id, x.data.attrs, x.kids.length) | _ => []) =
    [(some (lit! "igt7"), [(lit! "corpus-id", lit! "c")], exIgt.elim 0 fun x => x.kids.length)] := by decide +kernel

end
end Xigt.Tbx
