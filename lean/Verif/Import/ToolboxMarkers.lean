import Verif.Import.ToolboxModel
import Verif.Json.Lemmas
/-
C94: the alignment of markers that is passed on to Toolbox, /repo/xigt/importers/toolbox.py:133-142.
-/
set_option linter.unusedSectionVars false

namespace Xigt.Tbx

/-! ### Model -/

/-- `interlinear.get(t, False)` -/
def interl (il : Dict Str Bool) (t : Str) : Bool := (Dict.get? il t).getD false

/-- toolbox.py:138-141: the loop over the alignments -/
def tbLoop (inv : Dict Str Str) (il : Dict Str Bool) : Dict Str Str → List (Str × Option Str × Str) → Py (Dict Str Str)
  | acc, [] => .ok acc
  | acc, (t1, _, t2) :: rest =>
    if interl il t1 = true ∧ interl il t2 = true then do
      let m2 ← Dict.getItem inv t2
      let m1 ← Dict.getItem inv t1
      tbLoop inv il (Dict.set acc m1 m2) rest
    else tbLoop inv il acc rest

/-- toolbox.py:133-142 `_make_tb_alignments`; `il` says which tiers are interlinear (lines 135-136).
(`inverse` is `{t: m for m, t in tier_map.items()}`.) -/
def tbAlignments (tierMap : Dict Str Str) (il : Dict Str Bool) (alignments : Dict Str (Option Str × Str)) : Py (Dict Str Str) :=
  tbLoop (inverse tierMap) il [] alignments

/-! ### Spec -/

/-- the last marker that is mapped to the tier -/
def LastMarker (tierMap : Dict Str Str) (t m : Str) : Prop :=
  ∃ pre post, tierMap = pre ++ (m, t) :: post ∧ ∀ p ∈ post, p.2 ≠ t

/-- two tiers that are aligned and both interlinear -/
def Aligned (il : Dict Str Bool) (alignments : Dict Str (Option Str × Str)) (t1 t2 : Str) : Prop :=
  (∃ ra, (t1, ra, t2) ∈ alignments) ∧ Dict.get? il t1 = some true ∧ Dict.get? il t2 = some true

theorem inverse_last (tierMap : Dict Str Str) (t m : Str) : Dict.get? (inverse tierMap) t = some m ↔ LastMarker tierMap t m := by
  have aux : ∀ (l acc : Dict Str Str), Dict.get? (l.foldl (fun acc p => Dict.set acc p.2 p.1) acc) t = some m ↔
      LastMarker l t m ∨ (Dict.get? acc t = some m ∧ ∀ p ∈ l, p.2 ≠ t) := by
    intro l
    induction l with
    | nil =>
      intro acc
      refine ⟨fun h => .inr ⟨h, by simp⟩, ?_⟩
      rintro (⟨pre, _, e, _⟩ | ⟨h, _⟩)
      · cases pre <;> cases e
      · exact h
    | cons q l ih =>
      intro acc
      obtain ⟨m', t'⟩ := q
      rw [List.foldl_cons, ih, Dict.get?_set]
      constructor
      · rintro (⟨pre, post, e, h⟩ | ⟨h, hl⟩)
        · exact .inl ⟨(m', t') :: pre, post, by rw [e]; rfl, h⟩
        · split at h
          · next ht => cases h; exact .inl ⟨[], l, by rw [← ht]; rfl, hl⟩
          · next ht =>
            refine .inr ⟨h, fun p hp => ?_⟩
            rcases List.mem_cons.1 hp with rfl | hp
            · exact ht
            · exact hl p hp
      · rintro (⟨pre, post, e, h⟩ | ⟨h, hl⟩)
        · cases pre with
          | nil =>
            injection e with e1 e2
            injection e1 with e1 e3
            subst e1 e2 e3
            exact .inr ⟨by rw [if_pos rfl], h⟩
          | cons p pre => injection e with _ e; exact .inl ⟨pre, post, e, h⟩
        · exact .inr ⟨by rw [if_neg (hl (m', t') (by simp)), h], fun p hp => hl p (by simp [hp])⟩
  have := aux tierMap []
  simp only [Dict.get?] at this
  rw [inverse, this]
  simp

theorem interl_iff (il : Dict Str Bool) (t : Str) : interl il t = true ↔ Dict.get? il t = some true := by
  unfold interl
  cases Dict.get? il t <;> simp

theorem tbLoop_spec {inv : Dict Str Str} {il : Dict Str Bool} (hinj : ∀ t t' m, Dict.get? inv t = some m → Dict.get? inv t' = some m → t = t') :
    ∀ (al : List (Str × Option Str × Str)) (acc d : Dict Str Str), (al.map (·.1)).Nodup → acc.WF →
    (∀ a ∈ al, ∀ m, Dict.get? inv a.1 = some m → Dict.get? acc m = none) → tbLoop inv il acc al = .ok d →
    d.WF ∧ ∀ m1 m2, Dict.get? d m1 = some m2 ↔ Dict.get? acc m1 = some m2 ∨
      ∃ t1 t2, Aligned il al t1 t2 ∧ Dict.get? inv t1 = some m1 ∧ Dict.get? inv t2 = some m2 := by
  intro al
  induction al with
  | nil =>
    intro acc d _ hw _ h
    cases h
    refine ⟨hw, fun m1 m2 => ⟨.inl, ?_⟩⟩
    rintro (h | ⟨_, _, ⟨⟨_, h⟩, _⟩, _⟩)
    · exact h
    · cases h
  | cons a al ih =>
    obtain ⟨t1, ra, t2⟩ := a
    intro acc d hnd hw hacc h
    rw [List.map_cons, List.nodup_cons] at hnd
    have hnd' := hnd.2
    have hnotin : ∀ a ∈ al, a.1 ≠ t1 := by
      intro a ha e
      exact hnd.1 (by rw [← e]; exact List.mem_map.2 ⟨a, ha, rfl⟩)
    rw [tbLoop] at h
    split at h
    · next hil =>
      rw [interl_iff, interl_iff] at hil
      cases h2 : Dict.get? inv t2 with
      | none => simp [Dict.getItem, h2, bind, Except.bind] at h
      | some n2 =>
        cases h1 : Dict.get? inv t1 with
        | none => simp [Dict.getItem, h2, h1, bind, Except.bind] at h
        | some n1 =>
          simp only [Dict.getItem, h2, h1, bind, Except.bind] at h
          have hfresh : ∀ a ∈ al, ∀ m, Dict.get? inv a.1 = some m → Dict.get? (Dict.set acc n1 n2) m = none := by
            intro a ha m hm
            rw [Dict.get?_set, if_neg]
            · exact hacc a (by simp [ha]) m hm
            · rintro rfl
              exact hnotin a ha (hinj _ _ _ hm h1)
          obtain ⟨w, hd⟩ := ih _ _ hnd' (hw.set _ _) hfresh h
          refine ⟨w, fun m1 m2 => ?_⟩
          rw [hd, Dict.get?_set]
          constructor
          · rintro (hh | ⟨u1, u2, ⟨⟨r, hm⟩, hi⟩, he⟩)
            · split at hh
              · next e => cases hh; subst e; exact .inr ⟨t1, t2, ⟨⟨ra, by simp⟩, hil⟩, h1, h2⟩
              · exact .inl hh
            · exact .inr ⟨u1, u2, ⟨⟨r, by simp [hm]⟩, hi⟩, he⟩
          · rintro (hh | ⟨u1, u2, ⟨⟨r, hm⟩, hi⟩, he1, he2⟩)
            · left
              rw [if_neg, hh]
              rintro rfl
              rw [hacc (t1, ra, t2) (by simp) n1 h1] at hh
              cases hh
            · rcases List.mem_cons.1 hm with e | hm
              · cases e
                rw [h1] at he1
                rw [h2] at he2
                cases he1
                cases he2
                left
                rw [if_pos rfl]
              · exact .inr ⟨u1, u2, ⟨⟨r, hm⟩, hi⟩, he1, he2⟩
    · next hil =>
      obtain ⟨w, hd⟩ := ih _ _ hnd' hw (fun a ha => hacc a (by simp [ha])) h
      refine ⟨w, fun m1 m2 => ?_⟩
      rw [hd]
      constructor
      · rintro (hh | ⟨u1, u2, ⟨⟨r, hm⟩, hi⟩, he⟩)
        · exact .inl hh
        · exact .inr ⟨u1, u2, ⟨⟨r, by simp [hm]⟩, hi⟩, he⟩
      · rintro (hh | ⟨u1, u2, ⟨⟨r, hm⟩, hi⟩, he⟩)
        · exact .inl hh
        · rcases List.mem_cons.1 hm with e | hm
          · cases e
            exact absurd ⟨(interl_iff _ _).2 hi.1, (interl_iff _ _).2 hi.2⟩ hil
          · exact .inr ⟨u1, u2, ⟨⟨r, hm⟩, hi⟩, he⟩

/-- **C94**: if it succeeds, the alignment of markers relates exactly the markers of tiers that are
aligned and both interlinear (the last marker of each). -/
theorem C94_markers (tierMap : Dict Str Str) (il : Dict Str Bool) (al : Dict Str (Option Str × Str)) (hw : tierMap.WF) (ha : al.WF)
    (d : Dict Str Str) (h : tbAlignments tierMap il al = .ok d) : d.WF ∧ ∀ m1 m2, Dict.get? d m1 = some m2 ↔
      ∃ t1 t2, Aligned il al t1 t2 ∧ LastMarker tierMap t1 m1 ∧ LastMarker tierMap t2 m2 := by
  obtain ⟨w, hd⟩ := tbLoop_spec (inv := inverse tierMap) (il := il)
    (by intro t t' m h1 h2
        have e1 := inverse_some hw h1
        have e2 := inverse_some hw h2
        rw [e1] at e2
        injection e2) al [] d ha Dict.wf_nil (by intro _ _ _ _; rfl) h
  refine ⟨w, fun m1 m2 => ?_⟩
  rw [hd]
  simp only [inverse_last, Dict.get?]
  simp

theorem tbLoop_ok {inv : Dict Str Str} {il : Dict Str Bool} : ∀ (al : List (Str × Option Str × Str)) (acc : Dict Str Str),
    (∀ t1 t2, Aligned il al t1 t2 → (∃ m, Dict.get? inv t1 = some m) ∧ ∃ m, Dict.get? inv t2 = some m) → ∃ d, tbLoop inv il acc al = .ok d := by
  intro al
  induction al with
  | nil => intro acc _; exact ⟨acc, rfl⟩
  | cons a al ih =>
    obtain ⟨t1, ra, t2⟩ := a
    intro acc h
    have ih' := fun acc => ih acc (fun u1 u2 ⟨⟨r, hm⟩, hi⟩ => h u1 u2 ⟨⟨r, by simp [hm]⟩, hi⟩)
    rw [tbLoop]
    split
    · next hil =>
      rw [interl_iff, interl_iff] at hil
      obtain ⟨⟨m1, h1⟩, m2, h2⟩ := h t1 t2 ⟨⟨ra, by simp⟩, hil⟩
      simp only [Dict.getItem, h1, h2, bind, Except.bind]
      exact ih' _
    · exact ih' _

theorem tbLoop_err {inv : Dict Str Str} {il : Dict Str Bool} : ∀ (al : List (Str × Option Str × Str)) (acc : Dict Str Str) (t1 t2 : Str),
    Aligned il al t1 t2 → (Dict.get? inv t1 = none ∨ Dict.get? inv t2 = none) → tbLoop inv il acc al = .error .keyError := by
  intro al
  induction al with
  | nil => rintro acc t1 t2 ⟨⟨_, h⟩, _⟩; cases h
  | cons a al ih =>
    obtain ⟨u1, ra, u2⟩ := a
    rintro acc t1 t2 ⟨⟨r, hm⟩, hi⟩ hn
    rw [tbLoop]
    rcases List.mem_cons.1 hm with e | hm
    · cases e
      rw [if_pos ⟨(interl_iff _ _).2 hi.1, (interl_iff _ _).2 hi.2⟩]
      cases h2 : Dict.get? inv u2 with
      | none => simp [Dict.getItem, h2, bind, Except.bind]
      | some n2 =>
        rcases hn with hn | hn
        · simp [Dict.getItem, h2, hn, bind, Except.bind]
        · rw [hn] at h2; cases h2
    · split
      · cases h2 : Dict.get? inv u2 with
        | none => simp [Dict.getItem, h2, bind, Except.bind]
        | some n2 =>
          cases h1 : Dict.get? inv u1 with
          | none => simp [Dict.getItem, h2, h1, bind, Except.bind]
          | some n1 =>
            simp only [Dict.getItem, h2, h1, bind, Except.bind]
            exact ih _ t1 t2 ⟨⟨r, hm⟩, hi⟩ hn
      · exact ih _ t1 t2 ⟨⟨r, hm⟩, hi⟩ hn

/-- a tier that no marker is mapped to -/
def Unmapped (tierMap : Dict Str Str) (t : Str) : Prop := ∀ p ∈ tierMap, p.2 ≠ t

theorem unmapped_iff (tierMap : Dict Str Str) (hw : tierMap.WF) (t : Str) : Dict.get? (inverse tierMap) t = none ↔ Unmapped tierMap t := by
  constructor
  · intro h p hp e
    obtain ⟨q, hq⟩ := inverse_isSome (Dict.get?_of_mem hw (by rw [← e]; exact hp : (p.1, t) ∈ tierMap))
    rw [h] at hq; cases hq
  · intro h
    exact inverse_none (fun p hp => h _ (Dict.get?_mem hp) rfl) hw

/-- **C94**: it succeeds exactly if no two aligned interlinear tiers lack a marker, and raises KeyError
otherwise. -/
theorem C94_fails (tierMap : Dict Str Str) (il : Dict Str Bool) (al : Dict Str (Option Str × Str)) (hw : tierMap.WF) :
    ((∃ t1 t2, Aligned il al t1 t2 ∧ (Unmapped tierMap t1 ∨ Unmapped tierMap t2)) → tbAlignments tierMap il al = .error .keyError) ∧
    ((∀ t1 t2, Aligned il al t1 t2 → ¬ Unmapped tierMap t1 ∧ ¬ Unmapped tierMap t2) → ∃ d, tbAlignments tierMap il al = .ok d) := by
  constructor
  · rintro ⟨t1, t2, h, hn⟩
    rw [← unmapped_iff tierMap hw, ← unmapped_iff tierMap hw] at hn
    exact tbLoop_err al [] t1 t2 h hn
  · intro h
    refine tbLoop_ok al [] fun t1 t2 ha => ?_
    obtain ⟨h1, h2⟩ := h t1 t2 ha
    rw [← unmapped_iff tierMap hw] at h1 h2
    exact ⟨Option.ne_none_iff_exists'.1 h1, Option.ne_none_iff_exists'.1 h2⟩

/-! ### Examples -/

/-- toolbox.py:85-92, which of the default tiers are interlinear -/
def defaultInterlinear : Dict Str Bool := [(lit! "p", false), (lit! "w", true), (lit! "m", true), (lit! "g", true),
  (lit! "pos", true), (lit! "t", false)]

/-- the default options: morphemes are aligned with words, glosses and parts of speech with morphemes -/
example : tbAlignments defaults.tierMap defaultInterlinear defaults.alignments = .ok
    [(lit! "\\m", lit! "\\t"), (lit! "\\g", lit! "\\m"), (lit! "\\p", lit! "\\m")] := by decide +kernel

/-- a tier without marker -/
example : tbAlignments [(lit! "\\m", lit! "m")] defaultInterlinear defaults.alignments = .error .keyError := by decide +kernel

example : defaults.tierMap.WF ∧ defaults.alignments.WF := by unfold Dict.WF; decide

end Xigt.Tbx
