import Verif.Attr.Model
import Verif.DictLemmas
/-
Properties of attribute, metadata and namespace lookup, select and the reference attribute
constructor: C32–C35, C62, C63.
-/

namespace Xigt

/-! ### Specification -/

/-- `x` is the nearest object of the chain with the property -/
def Nearest (chain : List Obj) (P : Obj → Prop) (x : Obj) : Prop :=
  ∃ pre post, chain = pre ++ x :: post ∧ P x ∧ ∀ y ∈ pre, ¬ P y

/-- the key is taken as it is: it is in `{uri}name` form or has no prefix -/
def PlainKey (key : Str) : Prop := key.head? = some '{' ∨ ':' ∉ key

/-- what a lookup with `inherit` shall give: the value on the nearest object that has the key -/
def Inherited (chain : List Obj) (key : Str) (default r : Option Str) : Prop :=
  (∃ x v, Nearest chain (fun y => ∃ v, (key, v) ∈ y.data.attrs) x ∧ (key, v) ∈ x.data.attrs ∧ r = some v) ∨
  ((∀ x ∈ chain, ∀ v, (key, v) ∉ x.data.attrs) ∧ r = default)

/-! ### Helpers -/

theorem splitOnce_none {c : Char} {s : Str} (h : c ∉ s) : splitOnce c s = none := by
  induction s with
  | nil => rfl
  | cons x s ih =>
    simp only [List.mem_cons, not_or] at h
    rw [splitOnce, if_neg (fun e => h.1 e.symm), ih h.2]

theorem splitOnce_some {c : Char} (a b : Str) (h : c ∉ a) : splitOnce c (a ++ c :: b) = some (a, b) := by
  induction a with
  | nil => simp [splitOnce]
  | cons x a ih =>
    simp only [List.mem_cons, not_or] at h
    rw [List.cons_append, splitOnce, if_neg (fun e => h.1 e.symm), ih h.2]

theorem qualify_plain {nsmap key} (h : PlainKey key) : qualify nsmap key none = .ok key := by
  rw [qualify]
  rcases h with h | h
  · rw [if_pos h]
  · split
    · rename_i hs
      split at hs
      · cases hs
      · rw [splitOnce_none h] at hs; cases hs
    · rfl

theorem qualify_qual {nsmap uri key} : qualify nsmap (qual uri key) none = .ok (qual uri key) :=
  qualify_plain (Or.inl rfl)

theorem nearest_cons {x : Obj} {rest : List Obj} {P : Obj → Prop} {y : Obj} (hx : ¬ P x) (h : Nearest rest P y) :
    Nearest (x :: rest) P y := by
  obtain ⟨pre, post, rfl, h1, h2⟩ := h
  refine ⟨x :: pre, post, rfl, h1, fun z hz => ?_⟩
  rcases List.mem_cons.1 hz with rfl | hz
  · exact hx
  · exact h2 z hz

theorem not_mem_of_get?_none {d : Dict Str Str} {k} (h : Dict.get? d k = none) (v) : (k, v) ∉ d := by
  intro hm
  exact (Dict.get?_eq_none_iff d k).1 h (List.mem_map.2 ⟨(k, v), hm, rfl⟩)

theorem getAttribute_plain {key : Str} (h : PlainKey key) (default : Option Str) : ∀ chain : List Obj,
    ∃ r, getAttribute chain key default true none = .ok r ∧ Inherited chain key default r := by
  intro chain
  induction chain with
  | nil => exact ⟨default, rfl, Or.inr ⟨by simp, rfl⟩⟩
  | cons x rest ih =>
    rw [getAttribute, qualify_plain h]
    simp only
    cases hg : Dict.get? x.data.attrs key with
    | some v =>
      exact ⟨some v, rfl, Or.inl ⟨x, v, ⟨[], rest, rfl, ⟨v, Dict.get?_mem hg⟩, by simp⟩, Dict.get?_mem hg, rfl⟩⟩
    | none =>
      have hn := not_mem_of_get?_none hg
      cases rest with
      | nil => exact ⟨default, rfl, Or.inr ⟨by simpa using hn, rfl⟩⟩
      | cons y rest =>
        obtain ⟨r, hr, hI⟩ := ih
        refine ⟨r, by simpa using hr, ?_⟩
        rcases hI with ⟨z, v, hz, hv, rfl⟩ | ⟨hall, rfl⟩
        · exact Or.inl ⟨z, v, nearest_cons (fun ⟨v, hv⟩ => hn v hv) hz, hv, rfl⟩
        · refine Or.inr ⟨fun z hz => ?_, rfl⟩
          rcases List.mem_cons.1 hz with rfl | hz
          · exact hn
          · exact hall z hz

/-! ### C32 -/

/-- C32: `get_attribute(key, default, inherit=True)` gives the value on the nearest object of the chain
that has the key, or the default; a prefix in the key stands for the URI it has in the object's
namespace map, an unknown prefix raises KeyError. -/
theorem C32_inherit (x : Obj) (rest : List Obj) (default : Option Str) :
    (∀ key, PlainKey key → ∃ r, getAttribute (x :: rest) key default true none = .ok r ∧
      Inherited (x :: rest) key default r) ∧
    (∀ pre suf uri, pre.head? ≠ some '{' → ':' ∉ pre → Dict.get? (nsmapOf (x :: rest)) pre = some uri →
      ∃ r, getAttribute (x :: rest) (pre ++ ':' :: suf) default true none = .ok r ∧
        Inherited (x :: rest) (qual uri suf) default r) ∧
    (∀ pre suf inherit, pre.head? ≠ some '{' → ':' ∉ pre → Dict.get? (nsmapOf (x :: rest)) pre = none →
      getAttribute (x :: rest) (pre ++ ':' :: suf) default inherit none = .error .keyError) := by
  have hq : ∀ pre suf, pre.head? ≠ some '{' → ':' ∉ pre →
      qualify (nsmapOf (x :: rest)) (pre ++ ':' :: suf) none =
        (Dict.getItem (nsmapOf (x :: rest)) pre).map fun uri => qual uri suf := by
    intro pre suf h1 h2
    have : (pre ++ ':' :: suf).head? ≠ some '{' := by
      cases pre with
      | nil => simp
      | cons c cs => simpa using h1
    rw [qualify, if_neg this, splitOnce_some _ _ h2]
  refine ⟨fun key h => getAttribute_plain h default _, fun pre suf uri h1 h2 h3 => ?_, fun pre suf inh h1 h2 h3 => ?_⟩
  · obtain ⟨r, hr, hI⟩ := getAttribute_plain (key := qual uri suf) (Or.inl rfl) default (x :: rest)
    refine ⟨r, ?_, hI⟩
    rw [← hr, getAttribute, getAttribute, hq pre suf h1 h2, qualify_qual, Dict.getItem, h3]
    rfl
  · rw [getAttribute, hq pre suf h1 h2, Dict.getItem, h3]
    rfl

/-- C32 with `inherit=False`: only the object itself matters (besides its namespace map). -/
theorem C32_no_inherit (x : Obj) (rest rest' : List Obj) (key : Str) (default ns : Option Str)
    (hns : nsmapOf (x :: rest) = nsmapOf (x :: rest')) :
    getAttribute (x :: rest) key default false ns = getAttribute (x :: rest') key default false ns ∧
    (ns = none → PlainKey key → ∃ r, getAttribute (x :: rest) key default false none = .ok r ∧
      Inherited [x] key default r) := by
  constructor
  · rw [getAttribute, getAttribute, hns]
    cases qualify (nsmapOf (x :: rest')) key ns with
    | error e => rfl
    | ok key => simp only; cases Dict.get? x.data.attrs key <;> simp
  · rintro rfl h
    obtain ⟨r, hr, hI⟩ := getAttribute_plain h default [x]
    refine ⟨r, ?_, hI⟩
    rw [← hr, getAttribute, getAttribute, qualify_plain h, qualify_plain h]
    simp

/-! ### C33 -/

/-- the key looked up after qualifying it again on each of the objects passed -/
theorem qualify_ns {nsmap : Dict Str Str} {key n : Str} (hk : PlainKey key) (hn : n ≠ []) :
    ∃ uri, qualify nsmap key (some n) = .ok (qual uri key) ∧
      uri = (Dict.get? nsmap n).getD n := by
  have : (if key.head? = some '{' then none else splitOnce ':' key) = none := by
    rcases hk with h | h
    · rw [if_pos h]
    · rw [splitOnce_none h]; simp
  rw [qualify, this]
  cases hg : Dict.get? nsmap n with
  | some uri => exact ⟨uri, by simp [hg], rfl⟩
  | none => exact ⟨n, by simp [hg, hn], rfl⟩

/-- C33 fails throughout: with a namespace argument nothing is ever inherited, as long as no attribute
name of an ancestor is of the impossible form `{uri}{...` (which no XML or JSON document has). -/
theorem C33_never_inherits (x : Obj) (rest : List Obj) (key n : Str) (default : Option Str)
    (hk : PlainKey key) (hn : n ≠ [])
    (hnames : ∀ y ∈ rest, ∀ uri s v, (qual uri ('{' :: s), v) ∉ y.data.attrs) :
    getAttribute (x :: rest) key default true (some n) = getAttribute (x :: rest) key default false (some n) := by
  have aux : ∀ (chain : List Obj) (u s : Str),
      (∀ y ∈ chain, ∀ uri s v, (qual uri ('{' :: s), v) ∉ y.data.attrs) →
      getAttribute chain (qual u s) default true (some n) = .ok default := by
    intro chain
    induction chain with
    | nil => intro u s _; rfl
    | cons y chain ih =>
      intro u s hy
      obtain ⟨uri, hq, _⟩ := qualify_ns (nsmap := nsmapOf (y :: chain)) (key := qual u s) (Or.inl rfl) hn
      rw [getAttribute, hq]
      simp only
      cases hg : Dict.get? y.data.attrs (qual uri (qual u s)) with
      | some v => exact absurd (Dict.get?_mem hg) (hy y (by simp) uri (u ++ '}' :: s) v)
      | none =>
        simp only
        split
        · exact ih uri (qual u s) fun z hz => hy z (by simp [hz])
        · rfl
  obtain ⟨uri, hq, _⟩ := qualify_ns (nsmap := nsmapOf (x :: rest)) hk hn
  rw [getAttribute, getAttribute, hq]
  simp only
  cases hg : Dict.get? x.data.attrs (qual uri key) with
  | some v => rfl
  | none =>
    simp only
    by_cases hr : rest = []
    · simp [hr]
    · simp [hr, aux rest uri key hnames]

/-- C33, where it holds: if the object itself has the namespaced attribute, it is found like under its
prefix.
Missing: inheritance (`C33_never_inherits`). -/
theorem C33_partial (x : Obj) (rest : List Obj) (key n v : Str) (default : Option Str) (inherit : Bool)
    (hk : PlainKey key) (hn : n ≠ [])
    (hv : Dict.get? x.data.attrs (qual ((Dict.get? (nsmapOf (x :: rest)) n).getD n) key) = some v) :
    getAttribute (x :: rest) key default inherit (some n) = .ok (some v) := by
  obtain ⟨uri, hq, rfl⟩ := qualify_ns (nsmap := nsmapOf (x :: rest)) hk hn
  rw [getAttribute, hq]
  simp only [hv]

def exAttrItem : Obj := .mk { cls := .item } [] []
def exAttrData : Data :=
  { cls := .tier, attrs := [(lit! "{http://e}lang", lit! "de"), (lit! "k", lit! "v")], nsmap := some [(lit! "e", lit! "http://e")] }
def exAttrTier : Obj := .mk exAttrData [] [exAttrItem]

/-- C33 is false: the prefixed key is inherited, the same key with `namespace=` is not. -/
theorem C33_refuted : ∃ (chain : List Obj) (key ns : Str),
    getAttribute chain (ns ++ ':' :: key) none true none = .ok (some (lit! "de")) ∧
    getAttribute chain key none true (some ns) = .ok none :=
  ⟨[exAttrItem, exAttrTier], lit! "lang", lit! "e", by decide +kernel, by decide +kernel⟩

/-- the hypotheses of the theorems above are met by the example -/
example : PlainKey (lit! "k") ∧ getAttribute [exAttrItem, exAttrTier] (lit! "k") none true none = .ok (some (lit! "v")) ∧
    getAttribute [exAttrItem, exAttrTier] (lit! "k") none false none = .ok none ∧
    getAttribute [exAttrItem, exAttrTier] (lit! "x:k") none true none = .error .keyError := by
  exact ⟨Or.inr (by decide), by decide +kernel, by decide +kernel, by decide +kernel⟩
example : Dict.get? exAttrTier.data.attrs (qual ((Dict.get? (nsmapOf [exAttrTier]) (lit! "e")).getD (lit! "e"))
    (lit! "lang")) = some (lit! "de") := by decide +kernel
example : ∀ y ∈ [exAttrTier], ∀ uri s v, (qual uri ('{' :: s), v) ∉ y.data.attrs := by
  intro y hy uri s v hm
  simp only [List.mem_singleton] at hy
  subst hy
  simp only [exAttrTier, exAttrData, Obj.data, List.mem_cons, Prod.mk.injEq, List.not_mem_nil, or_false, qual] at hm
  rcases hm with ⟨h, _⟩ | ⟨h, _⟩
  · have h1 : (List.count '{' (lit! "{http://e}lang")) = 1 := by decide +kernel
    rw [← h] at h1
    simp [List.count_cons] at h1
  · simp at h

/-! ### C34 -/

/-- C34: the namespace map of an object is that of the nearest object of the chain that has one, or
empty. -/
theorem C34_nsmap (chain : List Obj) :
    (∃ x m, Nearest chain (fun y => y.data.nsmap ≠ none) x ∧ x.data.nsmap = some m ∧ nsmapOf chain = m) ∨
    ((∀ x ∈ chain, x.data.nsmap = none) ∧ nsmapOf chain = []) := by
  induction chain with
  | nil => exact Or.inr ⟨by simp, rfl⟩
  | cons x rest ih =>
    rw [nsmapOf]
    cases hx : x.data.nsmap with
    | some m => exact Or.inl ⟨x, m, ⟨[], rest, rfl, by simp [hx], by simp⟩, hx, rfl⟩
    | none =>
      rcases ih with ⟨y, m, hy, h1, h2⟩ | ⟨h1, h2⟩
      · exact Or.inl ⟨y, m, nearest_cons (by simp [hx]) hy, h1, h2⟩
      · refine Or.inr ⟨fun z hz => ?_, h2⟩
        rcases List.mem_cons.1 hz with rfl | hz
        · exact hx
        · exact h1 z hz

example : nsmapOf [exAttrItem, exAttrTier] = [(lit! "e", lit! "http://e")] := rfl

/-! ### C35 -/

/-- the metas of an object that match: of the given type, in its "xigt-meta" metadata, satisfying all
conditions -/
def Matches (key : Option Str) (conds : List (Obj → Bool)) (x m : Obj) : Prop :=
  (∃ md ∈ x.md, md.data.type = some "xigt-meta".toList ∧ m ∈ md.kids) ∧ m.data.type = key ∧ ∀ c ∈ conds, c m = true

/-- all metas of an object in document order -/
def allMetas (x : Obj) : List Obj := x.md.flatMap fun md => md.kids

theorem mem_ownMetas {key conds x m} : m ∈ ownMetas key conds x ↔ Matches key conds x m := by
  have e : "xigt-meta".toList = lit! "xigt-meta" := by decide
  simp only [ownMetas, Matches, List.mem_flatMap, e]
  constructor
  · rintro ⟨md, hmd, h⟩
    split at h
    · rename_i ht
      rw [List.mem_filter] at h
      simp only [Bool.and_eq_true, decide_eq_true_eq, List.all_eq_true] at h
      exact ⟨⟨md, hmd, ht, h.1⟩, h.2.1, h.2.2⟩
    · cases h
  · rintro ⟨⟨md, hmd, ht, hm⟩, h1, h2⟩
    refine ⟨md, hmd, ?_⟩
    rw [if_pos ht, List.mem_filter]
    exact ⟨hm, by simp [h1]; exact h2⟩

theorem ownMetas_sublist (key conds) (x : Obj) : (ownMetas key conds x).Sublist (allMetas x) := by
  rw [ownMetas, allMetas]
  generalize x.md = l
  induction l with
  | nil => simp
  | cons md l ih =>
    simp only [List.flatMap_cons]
    refine List.Sublist.append ?_ ih
    split
    · exact List.filter_sublist
    · simp

/-- C35: `get_meta` returns the matching metas of the nearest object that has any, all of them, in
document order; otherwise the default.  Without `inherit` only the object itself is considered. -/
theorem C35_get_meta (x : Obj) (rest : List Obj) (key : Option Str) (conds : List (Obj → Bool)) :
    ((∃ y, Nearest (x :: rest) (fun z => ∃ m, Matches key conds z m) y ∧
        ∃ ms, getMeta (x :: rest) key conds true = some ms ∧ ms.Sublist (allMetas y) ∧
          ∀ m, m ∈ ms ↔ Matches key conds y m) ∨
     ((∀ y ∈ x :: rest, ∀ m, ¬ Matches key conds y m) ∧ getMeta (x :: rest) key conds true = none)) ∧
    getMeta (x :: rest) key conds false = getMeta [x] key conds true := by
  constructor
  · have : ∀ chain : List Obj,
      (∃ y, Nearest chain (fun z => ∃ m, Matches key conds z m) y ∧
        ∃ ms, getMeta chain key conds true = some ms ∧ ms.Sublist (allMetas y) ∧ ∀ m, m ∈ ms ↔ Matches key conds y m) ∨
      ((∀ y ∈ chain, ∀ m, ¬ Matches key conds y m) ∧ getMeta chain key conds true = none) := by
      intro chain
      induction chain with
      | nil => exact Or.inr ⟨by simp, rfl⟩
      | cons x rest ih =>
        rw [getMeta]
        cases ho : ownMetas key conds x with
        | cons m ms =>
          refine Or.inl ⟨x, ⟨[], rest, rfl, ⟨m, mem_ownMetas.1 (by simp [ho])⟩, by simp⟩, _, rfl, ?_, ?_⟩
          · rw [← ho]; exact ownMetas_sublist key conds x
          · intro m'; rw [← ho]; exact mem_ownMetas
        | nil =>
          have hx : ∀ m, ¬ Matches key conds x m := by
            intro m hm; have := mem_ownMetas.2 hm; rw [ho] at this; cases this
          cases rest with
          | nil => exact Or.inr ⟨by simpa using hx, by simp⟩
          | cons z rest =>
            rcases ih with ⟨y, hy, ms, h1, h2, h3⟩ | ⟨h1, h2⟩
            · exact Or.inl ⟨y, nearest_cons (fun ⟨m, hm⟩ => hx m hm) hy, ms, by simpa using h1, h2, h3⟩
            · refine Or.inr ⟨fun w hw => ?_, by simpa using h2⟩
              rcases List.mem_cons.1 hw with rfl | hw
              · exact hx
              · exact h1 w hw
    exact this _
  · rw [getMeta, getMeta]
    cases ownMetas key conds x <;> simp

def exMetaTier : Obj := .mk { cls := .tier } [.mk { cls := .metadata, type := some (lit! "xigt-meta") } []
  [.mk { cls := .metaC, type := some (lit! "language"), text := some (lit! "de") } [] []],
  .mk { cls := .metadata, type := some (lit! "other") } []
  [.mk { cls := .metaC, type := some (lit! "language"), text := some (lit! "fr") } [] []]] []
example : getMeta [.mk { cls := .tier } [] [], exMetaTier] (some (lit! "language")) [] true =
    some [.mk { cls := .metaC, type := some (lit! "language"), text := some (lit! "de") } [] []] := rfl

/-! ### C62 -/

/-- the object has the value for each criterion; a prefix given as namespace stands for its URI -/
def Selected (nsmap : Dict Str Str) (crit : Dict Str (Option Str)) (x : Obj) : Prop :=
  ∀ k v, Dict.get? crit k = some v →
    (k ≠ "namespace".toList → member x k = v) ∧
    (k = "namespace".toList → (∀ n, v = some n → member x k = some ((Dict.get? nsmap n).getD n)) ∧
      (v = none → member x k = none))

theorem all_get? {d : Dict Str (Option Str)} (hd : Dict.WF d) (x : Obj) :
    (d.all fun p => decide (member x p.1 = p.2)) = true ↔ ∀ k v, Dict.get? d k = some v → member x k = v := by
  rw [List.all_eq_true]
  constructor
  · intro h k v hkv
    have := h (k, v) (Dict.get?_mem hkv)
    simpa using this
  · rintro h ⟨k, v⟩ hp
    simpa using h k v (Dict.get?_of_mem hd hp)

theorem nsCriterion_wf {m crit} (h : Dict.WF crit) : Dict.WF (nsCriterion m crit) := by
  rw [nsCriterion]
  split
  · split
    · exact h.set _ _
    · exact h
  · exact h

theorem selected_iff {m crit} (hc : Dict.WF crit) (x : Obj) :
    ((nsCriterion m crit).all fun p => decide (member x p.1 = p.2)) = true ↔ Selected m crit x := by
  have e : "namespace".toList = lit! "namespace" := by decide
  rw [all_get? (nsCriterion_wf hc), Selected, e]
  have hget : ∀ k, Dict.get? (nsCriterion m crit) k =
      if k = lit! "namespace" then (Dict.get? crit k).map (fun v => v.map fun n => (Dict.get? m n).getD n)
      else Dict.get? crit k := by
    intro k
    rw [nsCriterion]
    split
    · rename_i n hn
      split
      · rename_i uri hu
        rw [Dict.get?_set]
        by_cases hk : k = lit! "namespace"
        · subst hk; rw [if_pos rfl, if_pos rfl, hn]; simp [hu]
        · rw [if_neg (fun e => hk e.symm), if_neg hk]
      · rename_i hu
        by_cases hk : k = lit! "namespace"
        · subst hk; rw [if_pos rfl, hn]; simp [hu]
        · rw [if_neg hk]
    · rename_i hno
      by_cases hk : k = lit! "namespace"
      · subst hk
        rw [if_pos rfl]
        cases hg : Dict.get? crit (lit! "namespace") with
        | none => rfl
        | some v => cases v with
          | none => rfl
          | some n => exact absurd hg (hno n)
      · rw [if_neg hk]
  constructor
  · intro h k v hkv
    have hk := hget k
    rw [hkv] at hk
    refine ⟨fun hne => ?_, fun he => ?_⟩
    · rw [if_neg hne] at hk; exact h k v hk
    · rw [if_pos he] at hk
      simp only [Option.map_some] at hk
      have := h k _ hk
      exact ⟨fun n hn => by rw [this, hn]; rfl, fun hn => by rw [this, hn]; rfl⟩
  · intro h k v hkv
    rw [hget k] at hkv
    by_cases hk : k = lit! "namespace"
    · rw [if_pos hk] at hkv
      obtain ⟨w, hw, rfl⟩ := Option.map_eq_some_iff.1 hkv
      obtain ⟨h1, h2⟩ := (h k w hw).2 hk
      cases w with
      | none => exact h2 rfl
      | some n => exact h1 n rfl
    · rw [if_neg hk] at hkv
      exact (h k v hkv).1 hk

/-- C62, for containers with a namespace map (all but the metadata lists): `select` gives the
contained objects that meet all criteria, in order.
Missing: the metadata list of an object, on which a namespace criterion raises (`C62_refuted`). -/
theorem C62_partial (m : Dict Str Str) (xs : List Obj) (crit : Dict Str (Option Str)) (hc : Dict.WF crit) :
    ∃ r, select (some m) xs crit = .ok r ∧ r.Sublist xs ∧
      (∀ x ∈ xs, x ∈ r ↔ Selected m crit x) ∧
      (∀ a b : List Obj, xs = a ++ b → ∃ ra rb, select (some m) a crit = .ok ra ∧ select (some m) b crit = .ok rb ∧
        r = ra ++ rb) := by
  have hsel : ∀ ys, select (some m) ys crit = .ok (ys.filter fun x => (nsCriterion m crit).all fun p =>
      decide (member x p.1 = p.2)) := by
    intro ys
    unfold select
    split
    · rfl
    · rename_i hno
      have : nsCriterion m crit = crit := by
        have := (Dict.has_false_iff crit (lit! "namespace")).1 (by simpa using hno)
        rw [nsCriterion, this]
      rw [this]
  refine ⟨_, hsel xs, List.filter_sublist, fun x hx => ?_, ?_⟩
  · rw [List.mem_filter, selected_iff hc]; simp [hx]
  · rintro a b rfl
    exact ⟨_, _, hsel a, hsel b, List.filter_append ..⟩

/-- the same for every container without a namespace criterion -/
theorem C62_partial_no_namespace (m : Option (Dict Str Str)) (xs : List Obj) (crit : Dict Str (Option Str))
    (hc : Dict.WF crit) (hn : Dict.get? crit "namespace".toList = none) :
    ∃ r, select m xs crit = .ok r ∧ r.Sublist xs ∧ ∀ x ∈ xs, x ∈ r ↔ ∀ k v, Dict.get? crit k = some v → member x k = v := by
  have e : "namespace".toList = lit! "namespace" := by decide
  rw [e] at hn
  refine ⟨xs.filter fun x => crit.all fun p => decide (member x p.1 = p.2), ?_, List.filter_sublist, fun x hx => ?_⟩
  · unfold select; rw [if_neg]; rw [(Dict.has_false_iff _ _).2 hn]; simp
  · rw [List.mem_filter, all_get? hc]; simp [hx]

/-- C62 is false for the metadata list of an object: `igt.metadata.select(namespace=...)` raises
AttributeError, as this list has no namespace map. -/
theorem C62_refuted : ∃ xs crit, select none xs crit = .error .attributeError :=
  ⟨[], [(lit! "namespace", some (lit! "e"))], rfl⟩

example : Dict.WF [(lit! "type", some (lit! "words")), (lit! "namespace", some (lit! "e"))] := by unfold Dict.WF; decide
example : select (some [(lit! "e", lit! "http://e")])
    [.mk { cls := .tier, type := some (lit! "words"), ns := some (lit! "http://e") } [] [],
     .mk { cls := .tier, type := some (lit! "words") } [] []]
    [(lit! "type", some (lit! "words")), (lit! "namespace", some (lit! "e"))] =
    .ok [.mk { cls := .tier, type := some (lit! "words"), ns := some (lit! "http://e") } [] []] := rfl

/-! ### C63 -/

/-- given and not empty -/
def NonEmpty (s : Option Str) : Prop := ∃ c cs, s = some (c :: cs)

theorem truthy_iff {s} : truthy s = true ↔ NonEmpty s := by
  cases s with
  | none => simp [truthy, NonEmpty]
  | some s => cases s <;> simp [truthy, NonEmpty]

theorem get?_setOpt {d : Dict Str Str} {k v} (j) :
    Dict.get? (setOpt d k v) j = if k = j then v.or (Dict.get? d j) else Dict.get? d j := by
  cases v with
  | none => simp [setOpt]
  | some v => rw [setOpt, Dict.get?_set]; simp

/-- C63: the constructor raises XigtError exactly if segmentation comes with content or alignment (all
non-empty); otherwise each given argument is stored and nothing else changes. -/
theorem C63_constructor (attrs : Dict Str Str) (a c s : Option Str) :
    ((NonEmpty s ∧ (NonEmpty c ∨ NonEmpty a)) → refInit attrs a c s = .error .xigtError) ∧
    (¬ (NonEmpty s ∧ (NonEmpty c ∨ NonEmpty a)) → ∃ d, refInit attrs a c s = .ok d ∧
      Dict.get? d "alignment".toList = a.or (Dict.get? attrs "alignment".toList) ∧
      Dict.get? d "content".toList = c.or (Dict.get? attrs "content".toList) ∧
      Dict.get? d "segmentation".toList = s.or (Dict.get? attrs "segmentation".toList) ∧
      ∀ k, k ∉ ["alignment".toList, "content".toList, "segmentation".toList] → Dict.get? d k = Dict.get? attrs k) := by
  have e1 : "alignment".toList = ALIGN := by decide
  have e2 : "content".toList = CONT := by decide
  have e3 : "segmentation".toList = SEGM := by decide
  have n12 : ALIGN ≠ CONT := by decide
  have n13 : ALIGN ≠ SEGM := by decide
  have n23 : CONT ≠ SEGM := by decide
  have hiff : (truthy s && (truthy c || truthy a)) = true ↔ (NonEmpty s ∧ (NonEmpty c ∨ NonEmpty a)) := by
    simp [Bool.and_eq_true, Bool.or_eq_true, truthy_iff]
  constructor
  · intro h; rw [refInit, if_pos (hiff.2 h)]
  · intro h
    refine ⟨_, by rw [refInit, if_neg (fun h' => h (hiff.1 h'))], ?_, ?_, ?_, ?_⟩
    · rw [e1]; simp [get?_setOpt, n12.symm, n13.symm]
    · rw [e2]; simp [get?_setOpt, n12, n23.symm]
    · rw [e3]; simp [get?_setOpt, n13, n23]
    · intro k hk
      rw [e1, e2, e3] at hk
      simp only [List.mem_cons, List.not_mem_nil, or_false, not_or] at hk
      simp [get?_setOpt, Ne.symm hk.1, Ne.symm hk.2.1, Ne.symm hk.2.2]

example : refInit [] none (some (lit! "a1")) (some (lit! "b1")) = .error .xigtError := by decide
example : refInit [(CONT, lit! "a1")] none none (some (lit! "b1")) =
    .ok [(CONT, lit! "a1"), (SEGM, lit! "b1")] := by decide

end Xigt
