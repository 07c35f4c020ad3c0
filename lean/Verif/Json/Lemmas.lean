import Verif.Json.Model
import Verif.Json.Spec
import Verif.DictLemmas
import Verif.Attr.Props
import Verif.Container.Lemmas
/- Lemmas for the JSON round trip. -/

namespace Xigt

/-! ### Dicts -/

theorem get?_append {κ ν : Type} [DecidableEq κ] (a b : Dict κ ν) (k : κ) :
    Dict.get? (a ++ b) k = (Dict.get? a k).or (Dict.get? b k) := by
  induction a with
  | nil => simp [Dict.get?]
  | cons p a ih =>
    obtain ⟨k', v⟩ := p
    simp only [List.cons_append, Dict.get?]
    split
    · simp
    · exact ih

theorem set_append_new {κ ν : Type} [DecidableEq κ] {d : Dict κ ν} {k : κ} {v : ν} (h : k ∉ Dict.keys d) :
    Dict.set d k v = d ++ [(k, v)] := by
  induction d with
  | nil => rfl
  | cons p d ih =>
    obtain ⟨k', v'⟩ := p
    simp only [Dict.keys, List.map_cons, List.mem_cons, not_or] at h
    rw [Dict.set, if_neg (fun e => h.1 e.symm), ih h.2]
    rfl

theorem get?_update {κ ν : Type} [DecidableEq κ] (e : Dict κ ν) (he : e.WF) : ∀ (d : Dict κ ν) (k : κ),
    Dict.get? (Dict.update d e) k = (Dict.get? e k).or (Dict.get? d k) := by
  induction e with
  | nil => intro d k; simp [Dict.update, Dict.get?]
  | cons p e ih =>
    intro d k
    obtain ⟨j, v⟩ := p
    have hwf : j ∉ Dict.keys e ∧ Dict.WF e := by simpa [Dict.WF, Dict.keys] using he
    have := ih hwf.2 (Dict.set d j v) k
    rw [Dict.update, List.foldl_cons]
    rw [Dict.update] at this
    rw [this, Dict.get?_set, Dict.get?]
    by_cases hjk : j = k
    · subst hjk
      rw [(Dict.get?_eq_none_iff e j).2 hwf.1]
      simp
    · simp [hjk]

theorem WF_update {κ ν : Type} [DecidableEq κ] (e : Dict κ ν) : ∀ (d : Dict κ ν), d.WF → (Dict.update d e).WF := by
  induction e with
  | nil => intro d h; exact h
  | cons p e ih => intro d h; exact ih _ (h.set _ _)

/-- the inverse of a namespace map gives a prefix of the URI -/
theorem inverse_some {m : Dict Str Str} (hm : m.WF) {u p : Str} (h : Dict.get? (inverse m) u = some p) :
    Dict.get? m p = some u := by
  have aux : ∀ (l : Dict Str Str) (acc : Dict Str Str), Dict.get? (l.foldl (fun acc p => Dict.set acc p.2 p.1) acc) u = some p →
      (p, u) ∈ l ∨ Dict.get? acc u = some p := by
    intro l
    induction l with
    | nil => intro acc h; exact Or.inr h
    | cons q l ih =>
      intro acc h
      rw [List.foldl_cons] at h
      rcases ih _ h with h | h
      · exact Or.inl (List.mem_cons_of_mem _ h)
      · rw [Dict.get?_set] at h
        split at h
        · rename_i hq
          cases h
          left
          rw [← hq]
          simp
        · exact Or.inr h
  rcases aux m [] h with h | h
  · exact Dict.get?_of_mem hm h
  · cases h

theorem inverse_none {m : Dict Str Str} {u : Str} (h : ∀ p, Dict.get? m p ≠ some u) (hm : m.WF) :
    Dict.get? (inverse m) u = none := by
  cases hg : Dict.get? (inverse m) u with
  | none => rfl
  | some p => exact absurd (inverse_some hm hg) (h p)

theorem inverse_isSome {m : Dict Str Str} {u p : Str} (h : Dict.get? m p = some u) :
    ∃ q, Dict.get? (inverse m) u = some q := by
  have aux : ∀ (l : Dict Str Str) (acc : Dict Str Str), ((p, u) ∈ l ∨ (Dict.get? acc u).isSome) →
      (Dict.get? (l.foldl (fun acc p => Dict.set acc p.2 p.1) acc) u).isSome := by
    intro l
    induction l with
    | nil => intro acc h; rcases h with h | h; · cases h
             · exact h
    | cons q l ih =>
      intro acc h
      rw [List.foldl_cons]
      refine ih _ ?_
      rw [Dict.get?_set]
      rcases h with h | h
      · rcases List.mem_cons.1 h with rfl | h
        · right; simp
        · exact Or.inl h
      · right; split
        · simp
        · exact h
  exact Option.isSome_iff_exists.1 (aux m [] (Or.inl (Dict.get?_mem h)))

/-! ### Lists -/

theorem mapPy_rt {α β : Type} {enc : α → Py J} {dec : J → Py β} {f : α → β} : ∀ {xs : List α},
    (∀ x ∈ xs, ∃ j, enc x = .ok j ∧ dec j = .ok (f x)) →
    ∃ js, mapPy enc xs = .ok js ∧ mapPy dec js = .ok (xs.map f) ∧ js.length = xs.length := by
  intro xs
  induction xs with
  | nil => intro _; exact ⟨[], rfl, rfl, rfl⟩
  | cons x xs ih =>
    intro h
    obtain ⟨j, h1, h2⟩ := h x (by simp)
    obtain ⟨js, h3, h4, h5⟩ := ih fun y hy => h y (by simp [hy])
    exact ⟨j :: js, by simp [mapPy, h1, h3, bind, Except.bind, pure, Except.pure],
      by simp [mapPy, h2, h4, bind, Except.bind, pure, Except.pure], by simp [h5]⟩

theorem encodeMcs_eq (eff ctx : Dict Str Str) (xs : List Obj) : encodeMcs eff ctx xs = mapPy (encodeMc eff ctx) xs := by
  induction xs with
  | nil => simp [encodeMcs, mapPy]
  | cons x xs ih => simp [encodeMcs, mapPy, ih]

theorem decodeMcs_eq [Uni] (m : Dict Str Str) (xs : List J) : decodeMcs m xs = mapPy (decodeMc m) xs := by
  induction xs with
  | nil => simp [decodeMcs, mapPy]
  | cons x xs ih => simp [decodeMcs, mapPy, ih]

theorem decodeMcKids_eq [Uni] (m : Dict Str Str) (d : List (Str × J)) : decodeMcKids m d =
    (jList d (lit! "children")).bind (mapPy (decodeMc m)) := by
  induction d with
  | nil => simp [decodeMcKids, jList, Dict.get?, Except.bind, mapPy]
  | cons p d ih =>
    obtain ⟨k, v⟩ := p
    simp only [decodeMcKids, jList, Dict.get?]
    split
    · cases v <;> simp [decodeMcArr, Except.bind, decodeMcs_eq]
    · rw [ih, jList]

/-! ### The common members -/

theorem jPairs_map (acc d : Dict Str Str) (h : (acc ++ d).WF) :
    jPairs acc (d.map fun p => (p.1, J.str p.2)) = .ok (acc ++ d) := by
  induction d generalizing acc with
  | nil => simp [jPairs]
  | cons p d ih =>
    obtain ⟨k, v⟩ := p
    have hk : k ∉ Dict.keys acc := by
      intro hm
      simp only [Dict.WF, Dict.keys, List.map_append, List.nodup_append, List.map_cons] at h
      exact h.2.2 k hm k (by simp) rfl
    simp only [List.map_cons, jPairs]
    rw [set_append_new hk, ih]
    · simp
    · simpa using h

theorem jsonAttrs_kept {inv : Dict Str Str} : ∀ (d acc : Dict Str Str), (acc ++ d).WF →
    (∀ k v, (k, v) ∈ d → jsonKey inv k = .ok k) → jsonAttrs inv acc d = .ok (acc ++ d) := by
  intro d
  induction d with
  | nil => intro acc _ _; simp [jsonAttrs]
  | cons p d ih =>
    intro acc h hk
    obtain ⟨k, v⟩ := p
    have hn : k ∉ Dict.keys acc := by
      intro hm
      simp only [Dict.WF, Dict.keys, List.map_append, List.nodup_append, List.map_cons] at h
      exact h.2.2 k hm k (by simp) rfl
    simp only [jsonAttrs, hk k v (by simp), bind, Except.bind]
    rw [set_append_new hn, ih]
    · simp
    · simpa using h
    · intro k' v' h'; exact hk k' v' (by simp [h'])

theorem jsonKey_kept {m : Dict Str Str} (hm : m.WF) {k : Str} (h : KeyKept (Dict.get? m) k) :
    jsonKey (inverse m) k = .ok k := by
  cases k with
  | nil => rfl
  | cons c r =>
    by_cases hc : c = '{'
    · subst hc
      obtain ⟨uri, key, hr, hu, hp⟩ := h r rfl
      rw [jsonKey, hr, splitOnce_some _ _ hu]
      simp only [inverse_none hp hm]
    · unfold jsonKey
      split
      · rename_i heq; exact absurd (List.cons.inj heq).1 hc
      · rfl

/-- the entries made by `_make_obj` -/
def baseFields (d : Data) (ns : Dict Str Str) : List (Str × J) :=
  strField (lit! "id") d.id ++ strField (lit! "type") d.type ++
    (if d.attrs.isEmpty then [] else [(lit! "attributes", jDict d.attrs)]) ++
    strField (lit! "namespace") d.ns ++ (if ns.isEmpty then [] else [(lit! "namespaces", jDict ns)])

theorem get?_strField (k j : Str) (s : Option Str) : Dict.get? (strField k s) j =
    if k = j then (s.filter fun s => !s.isEmpty).map .str else none := by
  unfold strField field
  cases h : (s.filter fun s => !s.isEmpty) with
  | none => simp [Dict.get?]
  | some v => simp [Dict.get?]

theorem get?_optField (b : Bool) (k j : Str) (v : J) : Dict.get? (if b then [] else [(k, v)]) j =
    if k = j ∧ b = false then some v else none := by
  cases b <;> simp [Dict.get?]

theorem filter_nonempty {s : Option Str} (h : s ≠ some []) : s.filter (fun s => !s.isEmpty) = s := by
  cases s with
  | none => rfl
  | some s => cases s with
    | nil => exact absurd rfl h
    | cons c cs => rfl

/-- the keys of the entries made by `_make_obj` -/
def baseKeys : List Str := [lit! "id", lit! "type", lit! "attributes", lit! "namespace", lit! "namespaces"]

theorem get?_baseFields (d : Data) (ns : Dict Str Str) (hid : d.id ≠ some []) (htype : d.type ≠ some []) (hns : d.ns ≠ some []) :
    Dict.get? (baseFields d ns) (lit! "id") = d.id.map .str ∧
    Dict.get? (baseFields d ns) (lit! "type") = d.type.map .str ∧
    Dict.get? (baseFields d ns) (lit! "attributes") = (if d.attrs.isEmpty then none else some (jDict d.attrs)) ∧
    Dict.get? (baseFields d ns) (lit! "namespace") = d.ns.map .str ∧
    Dict.get? (baseFields d ns) (lit! "namespaces") = (if ns.isEmpty then none else some (jDict ns)) ∧
    ∀ k, k ∉ baseKeys → Dict.get? (baseFields d ns) k = none := by
  have e1 := filter_nonempty hid
  have e2 := filter_nonempty htype
  have e3 := filter_nonempty hns
  have g : ∀ k, Dict.get? (baseFields d ns) k =
      (((((if lit! "id" = k then d.id.map J.str else none).or (if lit! "type" = k then d.type.map J.str else none)).or
        (if lit! "attributes" = k ∧ d.attrs.isEmpty = false then some (jDict d.attrs) else none)).or
        (if lit! "namespace" = k then d.ns.map J.str else none)).or
        (if lit! "namespaces" = k ∧ ns.isEmpty = false then some (jDict ns) else none)) := by
    intro k
    simp only [baseFields, get?_append, get?_strField, get?_optField, e1, e2, e3]
  refine ⟨?_, ?_, ?_, ?_, ?_, ?_⟩
  · rw [g]; simp
  · rw [g]; simp
  · rw [g]; cases d.attrs <;> simp
  · rw [g]; simp
  · rw [g]; cases ns <;> simp
  · intro k hk
    simp only [baseKeys, List.mem_cons, List.not_mem_nil, or_false, not_or] at hk
    rw [g]
    simp only [Ne.symm hk.1, Ne.symm hk.2.1, Ne.symm hk.2.2.1, Ne.symm hk.2.2.2.1, Ne.symm hk.2.2.2.2, if_false, false_and, Option.or_none]

/-- the namespace map a decoded object gets -/
def decNs (ns : Dict Str Str) : Option (Dict Str Str) := if ns.isEmpty then none else some ns

theorem jDictGet_jDict {fs : List (Str × J)} {k : Str} {d : Dict Str Str} (hd : d.WF)
    (h : Dict.get? fs k = if d.isEmpty then none else some (jDict d)) : jDictGet fs k = .ok (decNs d) := by
  rw [jDictGet, h, decNs]
  split
  · rename_i hh; split at hh
    · rename_i he; simpa using he
    · cases hh
  · rename_i o hh
    split at hh
    · cases hh
    · rename_i he
      simp only [jDict, Option.some.injEq, J.obj.injEq] at hh
      rw [← hh, jPairs_map [] d (by simpa using hd)]
      simp [he]
      rfl
  · rename_i hno hh
    split at hh
    · cases hh
    · cases hh; exact absurd rfl (hno _)

theorem jAttrs_eq {fs : List (Str × J)} (h : Dict.get? fs (lit! "attributes") ≠ some .null) : jAttrs fs = jDictGet fs (lit! "attributes") := by
  unfold jAttrs
  split
  · rename_i h'; exact absurd h' h
  · rfl

/-- decoding the common members from entries among which they are -/
theorem decodeData_base (cls : Cls) (d : Data) (ns : Dict Str Str) (fs : List (Str × J)) (hattrs : d.attrs.WF) (hns : ns.WF)
    (h : ∀ k ∈ baseKeys, Dict.get? fs k = Dict.get? (baseFields d ns) k)
    (hi : d.id ≠ some []) (ht : d.type ≠ some []) (hn : d.ns ≠ some []) :
    decodeData cls fs = .ok { cls := cls, id := d.id, type := d.type, attrs := d.attrs, ns := d.ns, nsmap := decNs ns } ∧
    jDictGet fs (lit! "namespaces") = .ok (decNs ns) := by
  obtain ⟨h1, h2, h3, h4, h5, _⟩ := get?_baseFields d ns hi ht hn
  rw [← h _ (by simp [baseKeys])] at h1 h2 h3 h4 h5
  have j1 : jStr fs (lit! "id") = .ok d.id := by rw [jStr, h1]; cases d.id <;> rfl
  have j2 : jStr fs (lit! "type") = .ok d.type := by rw [jStr, h2]; cases d.type <;> rfl
  have j3 : jAttrs fs = .ok (decNs d.attrs) := by
    rw [jAttrs_eq, jDictGet_jDict hattrs h3]
    rw [h3]
    split <;> simp [jDict]
  have j4 : jStr fs (lit! "namespace") = .ok d.ns := by rw [jStr, h4]; cases d.ns <;> rfl
  have j5 := jDictGet_jDict hns h5
  refine ⟨?_, j5⟩
  have : (decNs d.attrs).getD [] = d.attrs := by
    rw [decNs]; cases d.attrs <;> simp
  simp only [decodeData, j1, j2, j3, j4, j5, bind, Except.bind, pure, Except.pure, this]

/-! ### Constructing -/

theorem dupId_false {xs : List Obj} (h : (xs.filterMap fun x => x.data.id).Nodup) : dupId xs = false := by
  induction xs with
  | nil => rfl
  | cons x xs ih =>
    rw [dupId, Bool.or_eq_false_iff]
    cases hx : x.data.id with
    | none =>
      rw [List.filterMap_cons, hx] at h
      exact ⟨by simp, ih h⟩
    | some i =>
      rw [List.filterMap_cons, hx, List.nodup_cons] at h
      refine ⟨?_, ih h.2⟩
      rw [Bool.and_eq_false_iff]
      right
      rw [List.any_eq_false]
      intro y hy
      simp only [decide_eq_true_eq]
      intro hyi
      exact h.1 (List.mem_filterMap.2 ⟨y, hy, hyi⟩)

theorem construct_ok [Uni] {d : Data} {md kids : List Obj} (h1 : ∀ i, d.id = some i → idAccepted i = true)
    (h2 : ∀ n, d.name = some n → nameOK n = true) (h3 : (md.filterMap fun x => x.data.id).Nodup)
    (h4 : (kids.filterMap fun x => x.data.id).Nodup) : construct d md kids = .ok (.mk d md kids) := by
  unfold construct
  rw [dupId_false h3, dupId_false h4]
  have e1 : d.id.all idAccepted = true := by
    cases hd : d.id with
    | none => rfl
    | some i => exact h1 i hd
  have e2 : d.name.all nameOK = true := by
    cases hd : d.name with
    | none => rfl
    | some n => exact h2 n hd
  simp [e1, e2]

theorem nameOK_no_colon [Uni] {n : Str} (h : nameOK n = true) : ':' ∉ n := by
  have hw : Uni.isWord ':' = false := by rw [Uni.ascii_word ':' (by decide)]; decide
  have aux : ∀ s, nameChars s = true → ':' ∉ s := by
    intro s hs
    cases s with
    | nil => simp
    | cons c cs =>
      simp only [nameChars, Bool.and_eq_true, List.all_eq_true] at hs
      intro hm
      rcases List.mem_cons.1 hm with rfl | hm
      · rw [hw] at hs; simp at hs
      · have := hs.2 _ hm
        rw [hw] at this
        simp at this
  rw [nameOK, Bool.or_eq_true, Bool.and_eq_true] at h
  rcases h with h | ⟨hl, h⟩
  · exact aux n h
  · intro hm
    have hne : n ≠ [] := by rintro rfl; cases hm
    rw [← List.dropLast_concat_getLast hne] at hm
    rcases List.mem_append.1 hm with hm | hm
    · exact aux _ h hm
    · simp only [List.mem_singleton] at hm
      rw [List.getLast?_eq_some_getLast hne, ← hm] at hl
      revert hl; decide

theorem idAccepted_ne_nil [Uni] {i : Str} (h : idAccepted i = true) : i ≠ [] := by
  obtain ⟨c, cs, rfl, _⟩ := (idAccepted_iff i).1 h
  simp

end Xigt
