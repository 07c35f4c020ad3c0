import Verif.Igt.ValueSpec
import Verif.Ref.Laws
import Verif.DictLemmas
import Verif.Container.Lemmas

set_option linter.unusedSimpArgs false
set_option linter.unusedSectionVars false

namespace Xigt

/-! ### pigeonhole and chains -/

theorem nodup_length_le {α : Type} {l m : List α} (hl : l.Nodup) (h : ∀ x ∈ l, x ∈ m) :
    l.length ≤ m.length := by
  induction l generalizing m with
  | nil => simp
  | cons a l ih =>
    obtain ⟨s, t, rfl⟩ := List.append_of_mem (h a (by simp))
    have h2 := ih (m := s ++ t) (List.nodup_cons.1 hl).2 (by
      intro x hx
      have h1 := h x (by simp [hx])
      have : x ≠ a := by rintro rfl; exact (List.nodup_cons.1 hl).1 hx
      simp only [List.mem_append, List.mem_cons] at h1 ⊢
      grind)
    simp only [List.length_append, List.length_cons] at h2 ⊢
    omega

section
variable {α : Type} {R : α → α → Prop}

theorem Chain.trans {n m x y z} (h : Chain R n x y) (h' : Chain R m y z) : Chain R (n + m) x z := by
  induction h with
  | zero => simpa using h'
  | step r _ ih => have := ih h'; rw [Nat.add_right_comm]; exact .step r this

theorem Chain.repeat {n x} (h : Chain R (n + 1) x x) : ∀ k, Chain R (k * (n + 1)) x x := by
  intro k
  induction k with
  | zero => simp; exact .zero x
  | succ k ih => rw [Nat.succ_mul]; exact ih.trans h

/-- the vertices after the first of a chain, in order -/
theorem Chain.vertices {n x z} (h : Chain R n x z) : ∃ l : List α, l.length = n ∧
    (∀ y ∈ l, ∃ w, R w y) ∧
    (¬ l.Nodup → ∃ y k j, Chain R k x y ∧ Chain R (j + 1) y y ∧ k + (j + 1) ≤ n) ∧
    (∀ y ∈ l, ∃ k, Chain R (k + 1) x y ∧ k + 1 ≤ n) := by
  induction h with
  | zero => exact ⟨[], rfl, by simp, by simp, by simp⟩
  | @step n x y z r h ih =>
    obtain ⟨l, h1, h2, h4, h5⟩ := ih
    refine ⟨y :: l, by simp [h1], ?_, ?_, ?_⟩
    · intro w hw
      rcases List.mem_cons.1 hw with rfl | hw
      · exact ⟨x, r⟩
      · exact h2 w hw
    · intro hn
      by_cases hy : y ∈ l
      · obtain ⟨k, hk, hkn⟩ := h5 y hy
        exact ⟨y, 1, k, .step r (.zero _), hk, by omega⟩
      · have : ¬ l.Nodup := fun hl => hn (List.nodup_cons.2 ⟨hy, hl⟩)
        obtain ⟨w, k, j, hk, hj, hkj⟩ := h4 this
        exact ⟨w, k + 1, j, .step r hk, hj, by omega⟩
    · intro w hw
      rcases List.mem_cons.1 hw with rfl | hw
      · exact ⟨0, .step r (.zero _), by omega⟩
      · obtain ⟨k, hk, hkn⟩ := h5 w hw; exact ⟨k + 1, .step r hk, by omega⟩

/-- a chain longer than the number of vertices runs into a cycle -/
theorem Chain.cycle_le {n x z} (h : Chain R n x z) (m : List α) (hm : ∀ w y, R w y → y ∈ m)
    (hlen : m.length < n) : ∃ y k j, Chain R k x y ∧ Chain R (j + 1) y y ∧ k + (j + 1) ≤ n := by
  obtain ⟨l, h1, h2, h4, _⟩ := h.vertices
  refine h4 fun hn => ?_
  have := nodup_length_le hn (m := m) (fun y hy => by obtain ⟨w, hw⟩ := h2 y hy; exact hm w y hw)
  omega

theorem Chain.cycle {n x z} (h : Chain R n x z) (m : List α) (hm : ∀ w y, R w y → y ∈ m)
    (hlen : m.length < n) : ∃ y k j, Chain R k x y ∧ Chain R (j + 1) y y := by
  obtain ⟨y, k, j, h1, h2, _⟩ := h.cycle_le m hm hlen
  exact ⟨y, k, j, h1, h2⟩

theorem Chain.prefix {n x z} (h : Chain R n x z) : ∀ m, m ≤ n → ∃ y, Chain R m x y := by
  induction h with
  | zero x => intro m hm; exact ⟨x, by have : m = 0 := by omega
                                       subst this; exact .zero x⟩
  | step r _ ih =>
    intro m hm
    cases m with
    | zero => exact ⟨_, .zero _⟩
    | succ m =>
      obtain ⟨y, hy⟩ := ih m (by omega)
      exact ⟨y, .step r hy⟩

end

variable [Uni]

/-! ### resolve and its getter -/

theorem pyInt_error {s : Str} {e : PyErr} (h : pyInt s = .error e) : e = .valueError := by
  unfold pyInt at h
  repeat' split at h
  all_goals first | cases h; rfl | cases h

/-- one end of a span -/
def spanEnd (a : Str) : Py (Option Int) := if a = [] then pure none else (pyInt a).map some

theorem spanEnd_error {a : Str} {e : PyErr} (h : spanEnd a = .error e) : e = .valueError := by
  unfold spanEnd at h
  split at h
  · cases h
  · cases hp : pyInt a with
    | ok i => rw [hp] at h; cases h
    | error e' => rw [hp] at h; cases h; exact pyInt_error hp

theorem resolveSpans_cons (v d a b : Str) (us) : resolveSpans v ((d, a, b) :: us) =
    match spanEnd a with
    | .error e => .error e
    | .ok lo => match spanEnd b with
      | .error e => .error e
      | .ok hi => (resolveSpans v us).map fun tl => delimText d ++ pySlice v lo hi ++ tl := by
  rw [resolveSpans]
  unfold spanEnd
  by_cases ha : a = [] <;> by_cases hb : b = [] <;> simp only [ha, hb, if_true, if_false] <;>
    cases resolveSpans v us <;> cases pyInt a <;> cases pyInt b <;> rfl

theorem resolveSpans_error {v : Str} {us e} (h : resolveSpans v us = .error e) : e = .valueError := by
  induction us with
  | nil => cases h
  | cons u us ih =>
    obtain ⟨d, a, b⟩ := u
    rw [resolveSpans_cons] at h
    cases h1 : spanEnd a with
    | error e1 => rw [h1] at h; cases h; exact spanEnd_error h1
    | ok x =>
      cases h2 : spanEnd b with
      | error e2 => rw [h1, h2] at h; cases h; exact spanEnd_error h2
      | ok y =>
        cases h3 : resolveSpans v us with
        | error e3 => rw [h1, h2, h3] at h; cases h; exact ih h3
        | ok z => rw [h1, h2, h3] at h; cases h

/-- whether spans parse does not depend on the value they select from -/
theorem resolveSpans_indep {v w : Str} {us} : (∃ r, resolveSpans v us = .ok r) ↔
    (∃ r, resolveSpans w us = .ok r) := by
  have key : ∀ v w : Str, (∃ r, resolveSpans v us = .ok r) → ∃ r, resolveSpans w us = .ok r := by
    intro v w
    induction us with
    | nil => intro _; exact ⟨[], rfl⟩
    | cons u us ih =>
      obtain ⟨d, a, b⟩ := u
      simp only [resolveSpans_cons]
      rintro ⟨r, hr⟩
      cases h1 : spanEnd a with
      | error _ => rw [h1] at hr; cases hr
      | ok x =>
        cases h2 : spanEnd b with
        | error _ => rw [h1, h2] at hr; cases hr
        | ok y =>
          cases h3 : resolveSpans v us with
          | error e => rw [h1, h2, h3] at hr; cases hr
          | ok z =>
            obtain ⟨z', hz'⟩ := ih ⟨z, h3⟩
            exact ⟨_, by rw [hz']; rfl⟩
  exact ⟨key v w, key w v⟩

/-- text of one selection -/
def selText (v : Option Str) (rng : Str) : Py Str :=
  if rng ≠ [] then resolveSpans (v.getD []) (findTriples spanRe rng) else pure (v.getD [])

theorem resolveSels_cons (get : Str → Option (Py (Option Str))) (d i rng ts) :
    resolveSels get ((d, i, rng) :: ts) =
      match get i with
      | none => .error .xigtStructureError
      | some (.error e) => .error e
      | some (.ok v) =>
        match selText v rng with
        | .error e => .error e
        | .ok here => (resolveSels get ts).map fun tl => delimText d ++ here ++ tl := by
  rw [resolveSels]
  cases get i with
  | none => rfl
  | some r =>
    cases r with
    | error e => rfl
    | ok v =>
      simp only [selText]
      show (if rng ≠ [] then _ else _) = _
      by_cases hr : rng ≠ []
      · rw [if_pos hr, if_pos hr]
        cases resolveSpans (v.getD []) (findTriples spanRe rng) with
        | error e => rfl
        | ok x => cases resolveSels get ts <;> rfl
      · rw [if_neg hr, if_neg hr]
        cases resolveSels get ts <;> rfl

theorem selText_error {v rng e} (h : selText v rng = .error e) : e = .valueError := by
  unfold selText at h
  split at h
  · exact resolveSpans_error h
  · cases h

theorem resolveSels_ok {get ts r} (h : resolveSels get ts = .ok r) :
    ∀ t ∈ ts, ∃ v, get t.2.1 = some (.ok v) := by
  induction ts generalizing r with
  | nil => intro t ht; cases ht
  | cons t ts ih =>
    obtain ⟨d, i, rng⟩ := t
    rw [resolveSels_cons] at h
    cases hg : get i with
    | none => rw [hg] at h; cases h
    | some x =>
      cases x with
      | error e => rw [hg] at h; cases h
      | ok v =>
        rw [hg] at h
        simp only at h
        cases hs : selText v rng with
        | error e => rw [hs] at h; cases h
        | ok y =>
          rw [hs] at h
          cases hr : resolveSels get ts with
          | error e => rw [hr] at h; cases h
          | ok z =>
            intro t ht
            rcases List.mem_cons.1 ht with rfl | ht
            · exact ⟨v, hg⟩
            · exact ih hr t ht

theorem resolveSels_error {get ts e} (h : resolveSels get ts = .error e) :
    (∃ t ∈ ts, get t.2.1 = some (.error e)) ∨
    (e = .xigtStructureError ∧ ∃ t ∈ ts, get t.2.1 = none) ∨
    (e = .valueError ∧ ∀ get', ¬ ∃ r, resolveSels get' ts = .ok r) := by
  induction ts generalizing e with
  | nil => cases h
  | cons t ts ih =>
    obtain ⟨d, i, rng⟩ := t
    rw [resolveSels_cons] at h
    cases hg : get i with
    | none => rw [hg] at h; cases h; exact Or.inr (Or.inl ⟨rfl, (d, i, rng), by simp, hg⟩)
    | some x =>
      cases x with
      | error e' => rw [hg] at h; cases h; exact Or.inl ⟨(d, i, rng), by simp, hg⟩
      | ok v =>
        rw [hg] at h
        simp only at h
        cases hs : selText v rng with
        | error e' =>
          rw [hs] at h; cases h
          refine Or.inr (Or.inr ⟨selText_error hs, ?_⟩)
          rintro get' ⟨r, hr⟩
          obtain ⟨v', hv'⟩ := resolveSels_ok hr _ (List.mem_cons_self ..)
          simp only at hv'
          rw [resolveSels_cons, hv'] at hr
          simp only at hr
          cases hs' : selText v' rng with
          | error e'' => rw [hs'] at hr; cases hr
          | ok y =>
            unfold selText at hs hs'
            by_cases hr : rng ≠ []
            · rw [if_pos hr] at hs hs'
              obtain ⟨z, hz⟩ := (resolveSpans_indep (w := v.getD [])).1 ⟨y, hs'⟩
              rw [hz] at hs; cases hs
            · rw [if_neg hr] at hs; cases hs
        | ok y =>
          rw [hs] at h
          cases hr : resolveSels get ts with
          | error e' =>
            rw [hr] at h; cases h
            rcases ih hr with ⟨t, ht, h1⟩ | ⟨h1, t, ht, h2⟩ | ⟨h1, h2⟩
            · exact Or.inl ⟨t, by simp [ht], h1⟩
            · exact Or.inr (Or.inl ⟨h1, t, by simp [ht], h2⟩)
            · refine Or.inr (Or.inr ⟨h1, ?_⟩)
              rintro get' ⟨r, hr'⟩
              apply h2 get'
              rw [resolveSels_cons] at hr'
              cases hg' : get' i with
              | none => rw [hg'] at hr'; cases hr'
              | some x =>
                cases x with
                | error e => rw [hg'] at hr'; cases hr'
                | ok v =>
                  rw [hg'] at hr'
                  simp only at hr'
                  cases hs' : selText v rng with
                  | error e => rw [hs'] at hr'; cases hr'
                  | ok y =>
                    rw [hs'] at hr'
                    cases hq : resolveSels get' ts with
                    | error e => rw [hq] at hr'; cases hr'
                    | ok z => exact ⟨z, rfl⟩
          | ok z => rw [hr] at h; cases h

theorem resolveSels_congr {get get' : Str → Option (Py (Option Str))} {ts} {bad : PyErr}
    (hg : ∀ i, get i ≠ some (.error bad) → get' i = get i)
    (h : resolveSels get ts ≠ .error bad) : resolveSels get' ts = resolveSels get ts := by
  induction ts with
  | nil => rfl
  | cons t ts ih =>
    obtain ⟨d, i, rng⟩ := t
    rw [resolveSels_cons] at h ⊢
    rw [resolveSels_cons]
    have hi : get i ≠ some (.error bad) := by
      intro e; rw [e] at h; exact h rfl
    rw [hg i hi]
    cases hgi : get i with
    | none => rfl
    | some x =>
      cases x with
      | error e => rfl
      | ok v =>
        rw [hgi] at h
        simp only at h ⊢
        cases hs : selText v rng with
        | error e => rfl
        | ok y =>
          rw [hs] at h
          simp only at h ⊢
          rw [ih]
          intro e
          rw [e] at h; exact h rfl

/-! ### lookups -/

theorem contGet_mem {xs : List Obj} {s x} (h : contGet xs s = some x) : x ∈ xs := by
  unfold contGet at h
  split at h
  · rename_i y hy; cases h; exact List.mem_of_find?_eq_some hy
  · split at h
    · unfold pyGet at h
      split at h
      · split at h
        · rename_i hk; cases h; exact List.mem_of_getElem? hk
        · cases h
      · cases h
    · cases h

/-- an ID is looked up by ID only -/
theorem contGet_id {xs : List Obj} {s} (hs : idAccepted s = true) :
    contGet xs s = xs.find? (fun x => decide (x.data.id = some s)) := by
  unfold contGet
  split
  · rename_i h; rw [h]
  · rename_i h
    rw [h]
    rw [pyInt_letter hs]

/-! ### value -/

theorem content_ne_segmentation : CONTENT ≠ SEGMENTATION := by decide

theorem exists_mem_iff {d : Dict Str Str} {k : Str} : (∃ v, (k, v) ∈ d) ↔ Dict.has d k = true := by
  rw [Dict.has_iff]
  simp [Dict.keys, List.mem_map]

theorem valueBy_cases (recur : Str → Py Str) (i : Obj) (ht : i.data.text = none) :
    (∃ ra, ValueAttr i ra ∧ valueBy recur i [CONTENT, SEGMENTATION] = (recur ra).map some) ∨
    ((∀ v, (CONTENT, v) ∉ i.data.attrs) ∧ (∀ v, (SEGMENTATION, v) ∉ i.data.attrs) ∧
      valueBy recur i [CONTENT, SEGMENTATION] = .ok none) := by
  simp only [valueBy]
  by_cases h1 : Dict.has i.data.attrs CONTENT = true
  · rw [if_pos h1]
    exact Or.inl ⟨_, ⟨ht, Or.inl ⟨rfl, exists_mem_iff.2 h1⟩⟩, rfl⟩
  · have h1' : ∀ v, (CONTENT, v) ∉ i.data.attrs := fun v hv => h1 (exists_mem_iff.1 ⟨v, hv⟩)
    rw [if_neg h1]
    by_cases h2 : Dict.has i.data.attrs SEGMENTATION = true
    · rw [if_pos h2]
      exact Or.inl ⟨_, ⟨ht, Or.inr ⟨rfl, exists_mem_iff.2 h2, h1'⟩⟩, rfl⟩
    · rw [if_neg h2]
      exact Or.inr ⟨h1', fun v hv => h2 (exists_mem_iff.1 ⟨v, hv⟩), rfl⟩

theorem ValueAttr.unique {i : Obj} {ra rb : Str} (h : ValueAttr i ra) (h' : ValueAttr i rb) : ra = rb := by
  obtain ⟨_, h⟩ := h
  obtain ⟨_, h'⟩ := h'
  rcases h with ⟨rfl, v, hv⟩ | ⟨rfl, _, hn⟩ <;> rcases h' with ⟨rfl, w, hw⟩ | ⟨rfl, _, hm⟩
  · rfl
  · exact absurd hv (hm v)
  · exact absurd hw (hn w)
  · rfl

theorem value_of_attr {i : Obj} {ra : Str} (h : ValueAttr i ra) (n igt t) :
    value (n + 1) igt t i = (resolveRef (fun t i => value n igt (some t) i) igt t i ra).map some := by
  rw [value]
  rw [h.1]
  rcases valueBy_cases (resolveRef (fun t i => value n igt (some t) i) igt t i) i h.1 with
    ⟨rb, hb, he⟩ | ⟨h1, h2, _⟩
  · rw [h.unique hb]; exact he
  · rcases h.2 with ⟨rfl, v, hv⟩ | ⟨rfl, ⟨v, hv⟩, _⟩
    · exact absurd hv (h1 v)
    · exact absurd hv (h2 v)

theorem value_text {i : Obj} {s} (h : i.data.text = some s) (n igt t) :
    value (n + 1) igt t i = .ok (some s) := by rw [value, h]

theorem value_none {i : Obj} (h : i.data.text = none) (h1 : ∀ v, (CONTENT, v) ∉ i.data.attrs)
    (h2 : ∀ v, (SEGMENTATION, v) ∉ i.data.attrs) (n igt t) : value (n + 1) igt t i = .ok none := by
  rw [value, h]
  rcases valueBy_cases (resolveRef (fun t i => value n igt (some t) i) igt t i) i h with
    ⟨ra, ⟨_, ha⟩, _⟩ | ⟨_, _, he⟩
  · rcases ha with ⟨rfl, v, hv⟩ | ⟨rfl, ⟨v, hv⟩, _⟩
    · exact absurd hv (h1 v)
    · exact absurd hv (h2 v)
  · exact he

theorem value_cases (i : Obj) : (∃ s, i.data.text = some s) ∨ (∃ ra, ValueAttr i ra) ∨
    (i.data.text = none ∧ (∀ v, (CONTENT, v) ∉ i.data.attrs) ∧ ∀ v, (SEGMENTATION, v) ∉ i.data.attrs) := by
  cases ht : i.data.text with
  | some s => exact Or.inl ⟨s, rfl⟩
  | none =>
    rcases valueBy_cases (fun _ => .ok []) i ht with ⟨ra, h, _⟩ | ⟨h1, h2, _⟩
    · exact Or.inr (Or.inl ⟨ra, h⟩)
    · exact Or.inr (Or.inr ⟨rfl, h1, h2⟩)

/-- `resolve_ref` in a complete context -/
theorem resolveRef_def {val} {igt t i : Obj} {ra e tid : Str} {r : Obj}
    (h1 : Dict.get? i.data.attrs ra = some e) (h2 : Dict.get? t.data.attrs ra = some tid)
    (h3 : contGet igt.kids tid = some r) : resolveRef val (some igt) (some t) i ra =
      resolve (fun j => (contGet r.kids j).map (val r)) e := by
  simp only [resolveRef, Dict.getItem, h1, h2, bind, Except.bind, h3]

/-- what `resolve_ref` in a complete context does -/
theorem resolveRef_cases (val) (igt t i : Obj) (ra : Str) :
    (resolveRef val (some igt) (some t) i ra = .error .keyError ∧
      (Dict.get? i.data.attrs ra = none ∨ Dict.get? t.data.attrs ra = none)) ∨
    (resolveRef val (some igt) (some t) i ra = .error .xigtStructureError ∧
      ∃ tid, Dict.get? t.data.attrs ra = some tid ∧ contGet igt.kids tid = none) ∨
    ∃ e tid r, Dict.get? i.data.attrs ra = some e ∧ Dict.get? t.data.attrs ra = some tid ∧
      contGet igt.kids tid = some r ∧ resolveRef val (some igt) (some t) i ra =
      resolve (fun j => (contGet r.kids j).map (val r)) e := by
  cases h1 : Dict.get? i.data.attrs ra with
  | none => refine Or.inl ⟨?_, Or.inl rfl⟩; simp only [resolveRef, Dict.getItem, h1]; rfl
  | some e =>
    cases h2 : Dict.get? t.data.attrs ra with
    | none => refine Or.inl ⟨?_, Or.inr rfl⟩; simp only [resolveRef, Dict.getItem, h1, h2]; rfl
    | some tid =>
      cases h3 : contGet igt.kids tid with
      | none =>
        refine Or.inr (Or.inl ⟨?_, tid, rfl, h3⟩)
        simp only [resolveRef, Dict.getItem, h1, h2, bind, Except.bind, h3]
      | some r => exact Or.inr (Or.inr ⟨e, tid, r, rfl, rfl, h3, resolveRef_def h1 h2 h3⟩)

theorem map_ok {α β : Type} {x : Py α} {f : α → β} {b} (h : x.map f = .ok b) : ∃ a, x = .ok a ∧ f a = b := by
  cases x with
  | error e => cases h
  | ok a => cases h; exact ⟨a, rfl, rfl⟩

theorem map_error {α β : Type} {x : Py α} {f : α → β} {e} : x.map f = .error e ↔ x = .error e := by
  cases x with
  | error e' => simp [Except.map]
  | ok a => simp [Except.map]

theorem mem_selIds {e j : Str} : j ∈ selIds e ↔ ∃ t ∈ findTriples selectionRe (strip e), t.2.1 = j := by
  simp [selIds]

/-- a value is composed of values -/
theorem value_ok_needs {igt : Obj} {n x v} (h : value n (some igt) (some x.1) x.2 = .ok v) :
    ∀ y, Needs igt x y → ∃ m w, n = m + 1 ∧ value m (some igt) (some y.1) y.2 = .ok w := by
  rintro y ⟨ra, e, tid, ha, h1, h2, h3, j, hj, hy⟩
  cases n with
  | zero => cases h
  | succ n =>
    rw [value_of_attr ha] at h
    obtain ⟨s, hs, _⟩ := map_ok h
    rw [resolveRef_def h1 h2 h3, resolve] at hs
    obtain ⟨t, ht, rfl⟩ := mem_selIds.1 hj
    obtain ⟨w, hw⟩ := resolveSels_ok hs t ht
    simp only [hy, Option.map_some, Option.some.injEq] at hw
    exact ⟨n, w, rfl, hw⟩

theorem value_ok_chain {igt : Obj} {k x y} (hc : Chain (Needs igt) k x y) : ∀ {n v},
    value n (some igt) (some x.1) x.2 = .ok v → k < n := by
  induction hc with
  | zero x =>
    intro n v h
    cases n with
    | zero => cases h
    | succ n => omega
  | step r _ ih =>
    intro n v h
    obtain ⟨m, w, rfl, hm⟩ := value_ok_needs h _ r
    have := ih hm
    omega

/-- only the stack limit itself produces a recursion error -/
theorem value_recursion_needs {igt : Obj} {n x}
    (h : value (n + 1) (some igt) (some x.1) x.2 = .error .recursionError) :
    ∃ y, Needs igt x y ∧ value n (some igt) (some y.1) y.2 = .error .recursionError := by
  rcases value_cases x.2 with ⟨s, hs⟩ | ⟨ra, ha⟩ | ⟨h0, h1, h2⟩
  · rw [value_text hs] at h; cases h
  · rw [value_of_attr ha, map_error] at h
    rcases resolveRef_cases (fun t i => value n (some igt) (some t) i) igt x.1 x.2 ra with
      ⟨he, _⟩ | ⟨he, _⟩ | ⟨e, tid, r, h1, h2, h3, he⟩
    · rw [he] at h; cases h
    · rw [he] at h; cases h
    · rw [he, resolve] at h
      rcases resolveSels_error h with ⟨t, ht, hg⟩ | ⟨hx, _⟩ | ⟨hx, _⟩
      · cases hy : contGet r.kids t.2.1 with
        | none => rw [hy] at hg; cases hg
        | some y =>
          rw [hy] at hg
          simp only [Option.map_some, Option.some.injEq] at hg
          exact ⟨(r, y), ⟨ra, e, tid, ha, h1, h2, h3, t.2.1, mem_selIds.2 ⟨t, ht, rfl⟩, hy⟩, hg⟩
      · cases hx
      · cases hx
  · rw [value_none h0 h1 h2] at h; cases h

theorem value_recursion_chain {igt : Obj} : ∀ {n x},
    value n (some igt) (some x.1) x.2 = .error .recursionError → ∃ y, Chain (Needs igt) n x y := by
  intro n
  induction n with
  | zero => intro x _; exact ⟨x, .zero x⟩
  | succ n ih =>
    intro x h
    obtain ⟨y, hr, hy⟩ := value_recursion_needs h
    obtain ⟨z, hz⟩ := ih hy
    exact ⟨z, .step hr hz⟩

theorem needs_mem {igt : Obj} (x y) (h : Needs igt x y) : y ∈ nodes igt := by
  obtain ⟨ra, e, tid, _, _, _, h3, i, _, hy⟩ := h
  simp only [nodes, List.mem_flatMap, List.mem_map]
  exact ⟨y.1, contGet_mem h3, y.2, contGet_mem hy, rfl⟩

/-- once within the stack limit, always the same result -/
theorem value_mono {igt : Obj} : ∀ {n} {x : Node}, value n (some igt) (some x.1) x.2 ≠ .error .recursionError →
    value (n + 1) (some igt) (some x.1) x.2 = value n (some igt) (some x.1) x.2 := by
  intro n
  induction n with
  | zero => intro x h; exact absurd rfl h
  | succ n ih =>
    intro x h
    rcases value_cases x.2 with ⟨s, hs⟩ | ⟨ra, ha⟩ | ⟨h0, h1, h2⟩
    · rw [value_text hs, value_text hs]
    · rw [value_of_attr ha] at h
      rw [value_of_attr ha (n + 1), value_of_attr ha n]
      refine congrArg (Except.map some) ?_
      rcases resolveRef_cases (fun t i => value n (some igt) (some t) i) igt x.1 x.2 ra with
        ⟨he, hc⟩ | ⟨he, tid, hc, hd⟩ | ⟨e, tid, r, h1, h2, h3, he⟩
      · rw [he]
        rcases resolveRef_cases (fun t i => value (n + 1) (some igt) (some t) i) igt x.1 x.2 ra with
          ⟨he', _⟩ | ⟨he', tid, hc', _⟩ | ⟨e, tid, r, h1, h2, _, _⟩
        · exact he'
        · exfalso
          obtain ⟨v, hv⟩ : ∃ v, Dict.get? x.2.data.attrs ra = some v := by
            rw [← Dict.has_true_iff, ← exists_mem_iff]
            rcases ha.2 with ⟨rfl, h⟩ | ⟨rfl, h, _⟩ <;> exact h
          rcases hc with hc | hc
          · rw [hv] at hc; cases hc
          · rw [hc'] at hc; cases hc
        · exfalso
          rcases hc with hc | hc
          · rw [h1] at hc; cases hc
          · rw [h2] at hc; cases hc
      · rw [he]
        rcases resolveRef_cases (fun t i => value (n + 1) (some igt) (some t) i) igt x.1 x.2 ra with
          ⟨he', hc'⟩ | ⟨he', _⟩ | ⟨e, tid', r, h1, h2, h3, _⟩
        · exfalso
          obtain ⟨v, hv⟩ : ∃ v, Dict.get? x.2.data.attrs ra = some v := by
            rw [← Dict.has_true_iff, ← exists_mem_iff]
            rcases ha.2 with ⟨rfl, h⟩ | ⟨rfl, h, _⟩ <;> exact h
          rcases hc' with hc' | hc'
          · rw [hv] at hc'; cases hc'
          · rw [hc] at hc'; cases hc'
        · exact he'
        · exfalso
          rw [hc] at h2; cases h2
          rw [hd] at h3; cases h3
      · rw [he] at h ⊢
        rw [resolveRef_def h1 h2 h3]
        simp only [resolve] at h ⊢
        refine resolveSels_congr (bad := .recursionError) ?_ ?_
        · intro j hj
          cases hy : contGet r.kids j with
          | none => rfl
          | some y =>
            rw [hy] at hj
            simp only [Option.map_some, Option.some.injEq, ne_eq] at hj ⊢
            exact ih (x := (r, y)) hj
        · intro hx
          rw [hx] at h
          exact h rfl
    · rw [value_none h0 h1 h2, value_none h0 h1 h2]

theorem value_stable {igt : Obj} {n} {x : Node} (h : value n (some igt) (some x.1) x.2 ≠ .error .recursionError) :
    ∀ {m}, n ≤ m → value m (some igt) (some x.1) x.2 = value n (some igt) (some x.1) x.2 := by
  intro m hm
  induction m with
  | zero => have : n = 0 := by omega
            subst this; rfl
  | succ m ih =>
    by_cases hmn : n = m + 1
    · subst hmn; rfl
    · have := ih (by omega)
      rw [value_mono (by rw [this]; exact h), this]

/-- with resolvable references, only the stack limit can fail -/
theorem value_error_recursion {igt : Obj} : ∀ {n} {x : Node} {e},
    (∀ k y, Chain (Needs igt) k x y → Resolvable igt y) →
    value n (some igt) (some x.1) x.2 = .error e → e = .recursionError := by
  intro n
  induction n with
  | zero => intro x e _ h; cases h; rfl
  | succ n ih =>
    intro x e hr h
    rcases value_cases x.2 with ⟨s, hs⟩ | ⟨ra, ha⟩ | ⟨h0, h1, h2⟩
    · rw [value_text hs] at h; cases h
    · rw [value_of_attr ha, map_error] at h
      obtain ⟨ex, hex⟩ : ∃ v, Dict.get? x.2.data.attrs ra = some v := by
        rw [← Dict.has_true_iff, ← exists_mem_iff]
        rcases ha.2 with ⟨rfl, h⟩ | ⟨rfl, h, _⟩ <;> exact h
      obtain ⟨tid, t, h2, h3, h4, r, h5⟩ := hr 0 x (.zero x) ra ex ha hex
      rw [resolveRef_def hex h2 h3, resolve] at h
      rcases resolveSels_error h with ⟨u, hu, hg⟩ | ⟨_, u, hu, hg⟩ | ⟨_, hn⟩
      · cases hy : contGet t.kids u.2.1 with
        | none => rw [hy] at hg; cases hg
        | some y =>
          rw [hy] at hg
          simp only [Option.map_some, Option.some.injEq] at hg
          have hn : Needs igt x (t, y) := ⟨ra, ex, tid, ha, hex, h2, h3, u.2.1, mem_selIds.2 ⟨u, hu, rfl⟩, hy⟩
          exact ih (x := (t, y)) (fun k z hz => hr (k + 1) z (.step hn hz)) hg
      · obtain ⟨y, hy⟩ := h4 u.2.1 (mem_selIds.2 ⟨u, hu, rfl⟩)
        rw [hy] at hg; cases hg
      · exact absurd ⟨r, h5⟩ (hn _)
    · rw [value_none h0 h1 h2] at h; cases h

/-! ### value and denotation -/

theorem selIds_render {e : Expr} (h : e.Simple) : selIds e.render = e.sels.map Sel.id := by
  rw [selIds, strip_render h.ok, triples_selection h]
  simp [Expr.sels, List.map_map, Function.comp_def]

theorem denote_congr {get get' : Str → Option (Py (Option Str))} {e : Expr}
    (h : ∀ j ∈ e.sels.map Sel.id, get j = get' j) : e.denote get = e.denote get' := by
  have one : ∀ s ∈ e.sels, s.denote get = s.denote get' := by
    intro s hs
    rw [Sel.denote, Sel.denote, h s.id (List.mem_map.2 ⟨s, hs, rfl⟩)]
  have tl : ∀ l : List (Str × Sel), (∀ p ∈ l, p.2 ∈ e.sels) → denoteTail get l = denoteTail get' l := by
    intro l
    induction l with
    | nil => intro _; rfl
    | cons p l ih =>
      intro hl
      obtain ⟨d, s⟩ := p
      rw [denoteTail, denoteTail, one s (hl (d, s) (by simp)), ih (fun p hp => hl p (by simp [hp]))]
  rw [Expr.denote, Expr.denote, one _ (by simp [Expr.sels]),
    tl _ (fun p hp => by simp only [Expr.sels, List.mem_cons, List.mem_map]; exact Or.inr ⟨p, hp, rfl⟩)]

theorem bounded_max {α : Type} (l : List α) (P : α → Nat → Prop)
    (h : ∀ x ∈ l, ∃ N, ∀ n, N ≤ n → P x n) : ∃ N, ∀ x ∈ l, ∀ n, N ≤ n → P x n := by
  induction l with
  | nil => exact ⟨0, by simp⟩
  | cons a l ih =>
    obtain ⟨N, hN⟩ := ih fun x hx => h x (by simp [hx])
    obtain ⟨M, hM⟩ := h a (by simp)
    refine ⟨N + M, fun x hx n hn => ?_⟩
    rcases List.mem_cons.1 hx with rfl | hx
    · exact hM n (by omega)
    · exact hN x hx n (by omega)

theorem Val.value {igt t i v} (h : Val igt t i v) :
    ∃ N, ∀ n, N ≤ n → Xigt.value n (some igt) (some t) i = .ok v := by
  induction h with
  | text hs =>
    refine ⟨1, fun n hn => ?_⟩
    obtain ⟨m, rfl⟩ : ∃ m, n = m + 1 := ⟨n - 1, by omega⟩
    exact value_text hs _ _ _
  | none h0 h1 h2 =>
    refine ⟨1, fun n hn => ?_⟩
    obtain ⟨m, rfl⟩ : ∃ m, n = m + 1 := ⟨n - 1, by omega⟩
    exact value_none h0 h1 h2 _ _ _
  | @ref t i ra tid e r item val s ha h1 hs h2 h3 h4 h5 h6 ih =>
    obtain ⟨N, hN⟩ := bounded_max _ _ ih
    refine ⟨N + 1, fun n hn => ?_⟩
    obtain ⟨m, rfl⟩ : ∃ m, n = m + 1 := ⟨n - 1, by omega⟩
    rw [value_of_attr ha, resolveRef_def h1 h2 h3, resolve_render _ hs]
    rw [denote_congr (get' := fun j => some (.ok (val j))), h6]
    · rfl
    · intro j hj
      rw [h4 j hj, Option.map_some, hN j hj m (by omega)]

theorem value_Val {igt : Obj} : ∀ {n t i v}, (∀ k y, Chain (Needs igt) k (t, i) y → ∀ ra e,
      ValueAttr y.2 ra → Dict.get? y.2.data.attrs ra = some e → ∃ ex : Expr, ex.Simple ∧ e = ex.render) →
    value n (some igt) (some t) i = .ok v → Val igt t i v := by
  intro n
  induction n with
  | zero => intro t i v _ h; cases h
  | succ n ih =>
    intro t i v hw h
    rcases value_cases i with ⟨s, hs⟩ | ⟨ra, ha⟩ | ⟨h0, h1, h2⟩
    · rw [value_text hs] at h; cases h; exact .text hs
    · rw [value_of_attr ha] at h
      obtain ⟨s, hs, rfl⟩ := map_ok h
      rcases resolveRef_cases (fun t i => value n (some igt) (some t) i) igt t i ra with
        ⟨he, _⟩ | ⟨he, _⟩ | ⟨e, tid, r, h1, h2, h3, he⟩
      · rw [he] at hs; cases hs
      · rw [he] at hs; cases hs
      · rw [he] at hs
        obtain ⟨ex, hex, rfl⟩ := hw 0 (t, i) (.zero _) ra e ha h1
        have hall : ∀ j ∈ ex.sels.map Sel.id, ∃ y w, contGet r.kids j = some y ∧
            value n (some igt) (some r) y = .ok w := by
          intro j hj
          have hs' := hs
          rw [resolve] at hs'
          rw [← selIds_render hex] at hj
          obtain ⟨u, hu, rfl⟩ := mem_selIds.1 hj
          obtain ⟨w, hw⟩ := resolveSels_ok hs' u hu
          cases hy : contGet r.kids u.2.1 with
          | none => rw [hy] at hw; cases hw
          | some y =>
            rw [hy] at hw
            simp only [Option.map_some, Option.some.injEq] at hw
            exact ⟨y, w, rfl, hw⟩
        rw [resolve_render _ hex] at hs
        refine .ref ex r (fun j => (contGet r.kids j).getD t)
          (fun j => match contGet r.kids j with
            | some y => match value n (some igt) (some r) y with
              | .ok w => w
              | .error _ => none
            | none => none) ha h1 hex h2 h3 ?_ ?_ ?_
        · intro j hj
          obtain ⟨y, w, hy, _⟩ := hall j hj
          simp [hy]
        · intro j hj
          obtain ⟨y, w, hy, hw'⟩ := hall j hj
          simp only [hy, hw', Option.getD_some]
          refine ih (fun k z hz => hw (k + 1) z (.step (y := (r, y)) ?_ hz)) hw'
          exact ⟨ra, _, tid, ha, h1, h2, h3, j, by rw [selIds_render hex]; exact hj, hy⟩
        · rw [← hs]
          refine denote_congr fun j hj => ?_
          obtain ⟨y, w, hy, hw'⟩ := hall j hj
          simp only [hy, hw', Option.map_some]
    · rw [value_none h0 h1 h2] at h; cases h; exact .none h0 h1 h2

end Xigt
