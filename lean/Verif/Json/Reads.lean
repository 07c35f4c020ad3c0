import Verif.Json.TextProps
import Verif.PySpec
/- C144: JSON documents, however they were made, are read as they say. -/

set_option linter.unusedSectionVars false

namespace Xigt.Js

/-! ### Spec -/

/-- the member of a JSON object -/
def member : J → Str → Option J
  | .obj d, k => (d.find? fun p => decide (p.1 = k)).map (·.2)
  | _, _ => none

/-- a member that is a string, or is missing or `null` -/
def StrAt (j : J) (k : Str) : Option Str → Prop
  | some s => member j k = some (.str s)
  | none => member j k = none ∨ member j k = some .null

/-- a member that is an object of strings, or is missing -/
def MapAt (j : J) (k : Str) (m : Option (Dict Str Str)) : Prop := member j k = m.map fun m => .obj (m.map fun p => (p.1, .str p.2))

/-- the member for attributes, which can be `null` as well -/
def AttrsAt (j : J) (m : Dict Str Str) : Prop :=
  (∃ a, MapAt j (lit! "attributes") a ∧ m = a.getD []) ∨ (member j (lit! "attributes") = some .null ∧ m = [])

/-- a member that is an array, or is missing; there need be no such member -/
def ListAt (j : J) : Option Str → List J → Prop
  | none, l => l = []
  | some k, l => member j k = some (.arr l) ∨ (member j k = none ∧ l = [])

/-- where the metadata is -/
def mdMember : Cls → Option Str
  | .corpus | .igt | .tier => some (lit! "metadata")
  | _ => none

/-- where the contents are, and what they are -/
def kidMember : Cls → Option Str × Cls
  | .corpus => (some (lit! "igts"), .igt)
  | .igt => (some (lit! "tiers"), .tier)
  | .tier => (some (lit! "items"), .item)
  | .item => (none, .item)
  | .metadata => (some (lit! "metas"), .metaC)
  | .metaC => (some (lit! "children"), .metaChild)
  | .metaChild => (some (lit! "children"), .metaChild)

/-- the name and namespace of a MetaChild: a prefix is resolved, in the name or as namespace -/
def NameSays (scope : Str → Option Str) (name : Str) (ns : Option Str) (d : Data) : Prop :=
  (∃ pre loc, name = pre ++ ':' :: loc ∧ ':' ∉ pre ∧ d.name = some loc ∧ d.ns = some ((scope pre).getD pre)) ∨
    (':' ∉ name ∧ d.name = some name ∧ d.ns = ns.map fun n => (scope n).getD n)

/-- The data of an object says what the members say.  A corpus has no type, and a MetaChild neither type nor ID, whatever the
members say (but they have to be strings). -/
structure DataSays (c : Cls) (scope : Str → Option Str) (j : J) (d : Data) : Prop where
  obj : ∃ o, j = .obj o
  cls : d.cls = c
  id : if c = .metaChild then d.id = none ∧ ∃ s, StrAt j (lit! "id") s else StrAt j (lit! "id") d.id
  type : if c = .metaChild ∨ c = .corpus then d.type = none ∧ ∃ s, StrAt j (lit! "type") s else StrAt j (lit! "type") d.type
  attrs : AttrsAt j d.attrs
  nsmap : MapAt j (lit! "namespaces") d.nsmap
  text : if c = .item ∨ c = .metaC ∨ c = .metaChild then StrAt j (lit! "text") d.text else d.text = none
  name : ∃ ns, StrAt j (lit! "namespace") ns ∧
    if c = .metaChild then ∃ n, member j (lit! "name") = some (.str n) ∧ NameSays (inner d.nsmap scope) n ns d else d.name = none ∧ d.ns = ns

/-- each of the first is so with that of the second -/
def Each {α β : Type} (R : α → β → Prop) (l : List α) (l' : List β) : Prop :=
  l.length = l'.length ∧ ∀ (i : Nat) a b, l[i]? = some a → l'[i]? = some b → R a b

/-- the object is what the document says, where these prefixes are declared around it -/
inductive Says : Cls → (Str → Option Str) → J → Obj → Prop
  | mk {c : Cls} {scope : Str → Option Str} {j : J} {d : Data} {md kids : List Obj} {ml kl : List J} : DataSays c scope j d →
      ListAt j (mdMember c) ml → ml.length = md.length →
      (∀ (i : Nat) a b, ml[i]? = some a → md[i]? = some b → Says .metadata (inner d.nsmap scope) a b) →
      ListAt j (kidMember c).1 kl → kl.length = kids.length →
      (∀ (i : Nat) a b, kl[i]? = some a → kids[i]? = some b → Says (kidMember c).2 (inner d.nsmap scope) a b) →
      Says c scope j (.mk d md kids)

/-- the names of members -/
def known : List Str := [lit! "id", lit! "type", lit! "attributes", lit! "namespace", lit! "namespaces", lit! "text", lit! "name",
  lit! "metadata", lit! "igts", lit! "tiers", lit! "items", lit! "metas", lit! "children"]

/-- documents with the same members, in any order and with any others besides; so within them (the order in the objects of
attributes and of namespaces is kept, as it is in the dicts that are made of them) -/
inductive SameDoc : J → J → Prop
  | null : SameDoc .null .null
  | str (s) : SameDoc (.str s) (.str s)
  | arr {l l' : List J} : l.length = l'.length → (∀ (i : Nat) a b, l[i]? = some a → l'[i]? = some b → SameDoc a b) → SameDoc (.arr l) (.arr l')
  | obj {d d' : List (Str × J)} : (∀ k ∈ known, (member (.obj d) k = none ↔ member (.obj d') k = none)) →
      (∀ k ∈ [lit! "attributes", lit! "namespaces"], member (.obj d) k = member (.obj d') k) →
      (∀ k ∈ known, k ∉ [lit! "attributes", lit! "namespaces"] → ∀ v v', member (.obj d) k = some v → member (.obj d') k = some v' → SameDoc v v') →
      SameDoc (.obj d) (.obj d')

/-! ### Members -/

theorem get?_member (d : List (Str × J)) (k : Str) : Dict.get? d k = member (.obj d) k := by
  rw [member]
  induction d with
  | nil => rfl
  | cons p d ih =>
    rw [Dict.get?, List.find?_cons]
    by_cases h : p.1 = k
    · simp [h]
    · simp [h, ih]

theorem jStr_iff {d : List (Str × J)} {k : Str} {s : Option Str} : jStr d k = .ok s ↔ StrAt (.obj d) k s := by
  rw [jStr, get?_member]
  cases hm : member (.obj d) k with
  | none => cases s <;> simp [StrAt, hm]
  | some v => cases v <;> cases s <;> simp [StrAt, hm, eq_comm]

theorem jList_iff {d : List (Str × J)} {k : Str} {l : List J} : jList d k = .ok l ↔ ListAt (.obj d) (some k) l := by
  rw [jList, ListAt, get?_member]
  cases member (.obj d) k with
  | none => simp [eq_comm]
  | some v => cases v <;> simp

theorem jPairs_ok : ∀ {o : List (Str × J)} {acc m : Dict Str Str}, jPairs acc o = .ok m → (acc.map (·.1) ++ o.map (·.1)).Nodup →
    ∃ m', m = acc ++ m' ∧ o = m'.map fun p => (p.1, J.str p.2) := by
  intro o
  induction o with
  | nil => intro acc m h _; cases h; exact ⟨[], by simp, rfl⟩
  | cons p o ih =>
    intro acc m h hn
    obtain ⟨k, v⟩ := p
    cases v with
    | str v =>
      rw [jPairs] at h
      have hk : k ∉ acc.map (·.1) := by
        intro hk
        rw [List.nodup_append] at hn
        exact hn.2.2 k hk k (by simp) rfl
      rw [set_append_new hk] at h
      obtain ⟨m', h1, h2⟩ := ih h (by simpa [List.append_assoc] using hn)
      exact ⟨(k, v) :: m', by rw [h1, List.append_assoc]; rfl, by rw [h2]; rfl⟩
    | null => cases h
    | arr l => cases h
    | obj l => cases h

theorem jok_member {j v : J} {k : Str} (h : JOK j) (hm : member j k = some v) : JOK v := by
  cases h with
  | null => cases hm
  | str s => cases hm
  | arr h => cases hm
  | obj hn h =>
    rw [member] at hm
    cases hf : List.find? (fun p : Str × J => decide (p.1 = k)) _ with
    | none => rw [hf] at hm; cases hm
    | some p =>
      rw [hf] at hm
      cases hm
      exact h p (List.mem_of_find?_eq_some hf)

theorem jDictGet_iff {d : List (Str × J)} (hj : JOK (.obj d)) {k : Str} {m : Option (Dict Str Str)} :
    jDictGet d k = .ok m ↔ MapAt (.obj d) k m := by
  rw [jDictGet, MapAt, get?_member]
  cases hm : member (.obj d) k with
  | none => cases m <;> simp
  | some v =>
    cases v with
    | null => cases m <;> simp
    | str s => cases m <;> simp
    | arr s => cases m <;> simp
    | obj o =>
      have hn : (o.map (·.1)).Nodup := by
        have := jok_member hj hm
        cases this
        assumption
      constructor
      · intro h
        replace h : Except.map some (jPairs [] o) = Except.ok m := h
        cases hp : jPairs [] o with
        | error e => rw [hp] at h; cases h
        | ok m' =>
          rw [hp] at h
          cases h
          obtain ⟨m'', h1, h2⟩ := jPairs_ok hp (by simpa using hn)
          rw [List.nil_append] at h1
          subst h1
          simp [h2]
      · intro h
        cases m with
        | none => cases h
        | some m =>
          simp only [Option.map_some, Option.some.injEq, J.obj.injEq] at h
          subst h
          have : m.WF := by
            rw [List.map_map] at hn
            exact hn
          simp only [jPairs_map [] m (by simpa using this), Except.map, List.nil_append]


theorem mapAt_wf {j : J} (hj : JOK j) {k : Str} {m : Dict Str Str} (h : MapAt j k (some m)) : m.WF := by
  have := jok_member hj h
  cases this with
  | obj hn _ => rw [List.map_map] at hn; exact hn

theorem listAt_jok {j : J} (hj : JOK j) {k : Option Str} {l : List J} (h : ListAt j k l) : ∀ v ∈ l, JOK v := by
  cases k with
  | none => cases h; simp
  | some k =>
    rcases h with h | ⟨-, h⟩
    · have := jok_member hj h
      cases this
      assumption
    · subst h; simp

theorem listAt_one {j : J} {k : Option Str} {l l' : List J} (h : ListAt j k l) (h' : ListAt j k l') : l = l' := by
  cases k with
  | none => rw [h, h']
  | some k =>
    rcases h with h | ⟨h, rfl⟩ <;> rcases h' with h' | ⟨h', rfl⟩
    · rw [h] at h'; cases h'; rfl
    · rw [h] at h'; cases h'
    · rw [h] at h'; cases h'
    · rfl

theorem bind_ok_iff {α β : Type} {x : Py α} {f : α → Py β} {y : β} : (x >>= f) = .ok y ↔ ∃ a, x = .ok a ∧ f a = .ok y := by
  cases x with
  | error e => simp [bind, Except.bind]
  | ok a => simp [bind, Except.bind]

theorem jAttrs_iff {d : List (Str × J)} (hj : JOK (.obj d)) {m : Dict Str Str} :
    (∃ a, jAttrs d = .ok a ∧ m = a.getD []) ↔ AttrsAt (.obj d) m := by
  unfold AttrsAt
  by_cases hn : Dict.get? d (lit! "attributes") = some .null
  · have h1 : jAttrs d = .ok none := by rw [jAttrs, hn]
    rw [h1]
    rw [get?_member] at hn
    constructor
    · rintro ⟨a, h, rfl⟩
      cases h
      exact .inr ⟨hn, rfl⟩
    · rintro (⟨a, h, -⟩ | ⟨-, rfl⟩)
      · rw [MapAt, hn] at h
        cases a <;> cases h
      · exact ⟨none, rfl, rfl⟩
  · rw [jAttrs_eq hn]
    constructor
    · rintro ⟨a, h, rfl⟩
      exact .inl ⟨a, (jDictGet_iff hj).1 h, rfl⟩
    · rintro (⟨a, h, rfl⟩ | ⟨h, -⟩)
      · exact ⟨a, (jDictGet_iff hj).2 h, rfl⟩
      · rw [← get?_member] at h
        exact absurd h hn

theorem attrsAt_one {j : J} {m m' : Dict Str Str} (ho : ∀ {m m' : Option (Dict Str Str)}, MapAt j (lit! "attributes") m → MapAt j (lit! "attributes") m' → m = m')
    (h : AttrsAt j m) (h' : AttrsAt j m') : m = m' := by
  rcases h with ⟨a, h, rfl⟩ | ⟨h, rfl⟩ <;> rcases h' with ⟨a', h', rfl⟩ | ⟨h', rfl⟩
  · rw [ho h h']
  · rw [MapAt, h'] at h
    cases a <;> cases h
  · rw [MapAt, h] at h'
    cases a' <;> cases h'
  · rfl

theorem decodeData_iff {c : Cls} {d : List (Str × J)} (hj : JOK (.obj d)) {data : Data} : decodeData c d = .ok data ↔
    StrAt (.obj d) (lit! "id") data.id ∧ StrAt (.obj d) (lit! "type") data.type ∧
    AttrsAt (.obj d) data.attrs ∧ StrAt (.obj d) (lit! "namespace") data.ns ∧
    MapAt (.obj d) (lit! "namespaces") data.nsmap ∧ data.cls = c ∧ data.text = none ∧ data.name = none := by
  unfold decodeData
  simp only [bind_ok_iff, jStr_iff, jDictGet_iff hj, pure, Except.pure, Except.ok.injEq]
  constructor
  · rintro ⟨i, h1, t, h2, a, h3, ns, h4, m, h5, rfl⟩
    exact ⟨h1, h2, (jAttrs_iff hj).1 ⟨a, h3, rfl⟩, h4, h5, rfl, rfl, rfl⟩
  · rintro ⟨h1, h2, h3, h4, h5, h6, h7, h8⟩
    obtain ⟨a, h3, h3'⟩ := (jAttrs_iff hj).2 h3
    refine ⟨_, h1, _, h2, a, h3, _, h4, _, h5, ?_⟩
    cases data
    simp_all

/-- prefixes of dicts -/
theorem activeJson_iff {d : List (Str × J)} (hj : JOK (.obj d)) {m m' : Dict Str Str} : activeJson d m = .ok m' ↔
    ∃ own, MapAt (.obj d) (lit! "namespaces") own ∧ m' = Dict.update m (own.getD []) := by
  unfold activeJson
  simp only [bind_ok_iff, jDictGet_iff hj, pure, Except.pure, Except.ok.injEq]
  constructor <;> rintro ⟨o, h, rfl⟩ <;> exact ⟨o, h, rfl⟩

theorem scope_active {d : List (Str × J)} (hj : JOK (.obj d)) {m : Dict Str Str} {own : Option (Dict Str Str)}
    (h : MapAt (.obj d) (lit! "namespaces") own) : Dict.get? (Dict.update m (own.getD [])) = inner own (Dict.get? m) := by
  funext p
  cases own with
  | none => rfl
  | some o => exact get?_update o (mapAt_wf hj h) m p

theorem mapAt_one {j : J} {k : Str} {m m' : Option (Dict Str Str)} (h : MapAt j k m) (h' : MapAt j k m') : m = m' := by
  have := h.symm.trans h'
  have hi : ∀ a b : Dict Str Str, (a.map fun p => (p.1, J.str p.2)) = b.map (fun p => (p.1, J.str p.2)) → a = b := by
    intro a
    induction a with
    | nil => intro b hb; cases b with
      | nil => rfl
      | cons p b => cases hb
    | cons p a ih =>
      intro b hb
      cases b with
      | nil => cases hb
      | cons q b =>
        simp only [List.map_cons, List.cons.injEq, Prod.mk.injEq, J.str.injEq] at hb
        rw [ih b hb.2, Prod.ext hb.1.1 hb.1.2]
  cases m <;> cases m' <;> simp only [Option.map_some, Option.map_none, Option.some.injEq, J.obj.injEq, reduceCtorEq] at this
  · rfl
  · rw [hi _ _ this]

theorem strAt_one {j : J} {k : Str} {m m' : Option Str} (h : StrAt j k m) (h' : StrAt j k m') : m = m' := by
  cases m <;> cases m' <;> simp only [StrAt] at h h'
  · rfl
  · rcases h with h | h <;> rw [h] at h' <;> cases h'
  · rcases h' with h' | h' <;> rw [h] at h' <;> cases h'
  · rw [h] at h'; cases h'; rfl

theorem mapPy_each {α β : Type} {f : α → Py β} : ∀ {l : List α} {ys : List β}, mapPy f l = .ok ys ↔ Each (fun a b => f a = .ok b) l ys := by
  intro l
  induction l with
  | nil =>
    intro ys
    rw [mapPy, Each]
    cases ys <;> simp
  | cons x l ih =>
    intro ys
    rw [mapPy]
    simp only [bind_ok_iff, pure, Except.pure, Except.ok.injEq, ih]
    constructor
    · rintro ⟨y, hy, zs, ⟨h1, h2⟩, rfl⟩
      refine ⟨by simp [h1], fun i a b ha hb => ?_⟩
      cases i with
      | zero => cases ha; cases hb; exact hy
      | succ i => exact h2 i a b ha hb
    · rintro ⟨h1, h2⟩
      cases ys with
      | nil => cases h1
      | cons y ys => exact ⟨y, h2 0 x y rfl rfl, ys, ⟨by simpa using h1, fun i a b ha hb => h2 (i + 1) a b ha hb⟩, rfl⟩

section
variable [Uni]

theorem nodup_of_dupId {xs : List Obj} (h : dupId xs = false) : (xs.filterMap fun x => x.data.id).Nodup := by
  induction xs with
  | nil => simp
  | cons x xs ih =>
    rw [dupId, Bool.or_eq_false_iff] at h
    rw [List.filterMap_cons]
    cases hx : x.data.id with
    | none => exact ih h.2
    | some i =>
      simp only
      rw [List.nodup_cons]
      refine ⟨fun hm => ?_, ih h.2⟩
      obtain ⟨y, hy, hi⟩ := List.mem_filterMap.1 hm
      have := h.1
      rw [hx] at this
      simp only [ne_eq, reduceCtorEq, not_false_eq_true, decide_true, Bool.true_and, List.any_eq_false, decide_eq_true_eq] at this
      exact this y hy hi

/-- what `construct` demands of the object itself -/
def Own (d : Data) (md kids : List Obj) : Prop :=
  (∀ i, d.id = some i → idAccepted i = true) ∧ (∀ n, d.name = some n → nameOK n = true) ∧
    (md.filterMap fun x => x.data.id).Nodup ∧ (kids.filterMap fun x => x.data.id).Nodup

theorem construct_iff {d : Data} {md kids : List Obj} {x : Obj} : construct d md kids = .ok x ↔ x = .mk d md kids ∧ Own d md kids := by
  constructor
  · intro h
    unfold construct at h
    split at h
    · cases h
    rename_i h1
    split at h
    · cases h
    rename_i h2
    split at h
    · cases h
    rename_i h3
    cases h
    rw [Bool.or_eq_true, not_or, Bool.not_eq_true, Bool.not_eq_true] at h3
    refine ⟨rfl, fun i hi => ?_, fun i hi => ?_, nodup_of_dupId h3.1, nodup_of_dupId h3.2⟩
    · rw [hi] at h1; simpa using h1
    · rw [hi] at h2; simpa using h2
  · rintro ⟨rfl, h1, h2, h3, h4⟩
    exact construct_ok h1 h2 h3 h4


/-- a decoder of objects of a class does what it should, with this document -/
def Right (c : Cls) (f : Dict Str Str → J → Py Obj) (j : J) : Prop :=
  ∀ (m : Dict Str Str) (y : Obj), f m j = .ok y ↔ Says c (Dict.get? m) j y ∧ y.Valid

theorem each_valid {f : J → Py Obj} {c : Cls} {scope : Str → Option Str} {l : List J} (h : ∀ j ∈ l, ∀ y, f j = .ok y ↔ Says c scope j y ∧ y.Valid) {ys : List Obj} :
    mapPy f l = .ok ys ↔ l.length = ys.length ∧ (∀ (i : Nat) a b, l[i]? = some a → ys[i]? = some b → Says c scope a b) ∧ ∀ y ∈ ys, y.Valid := by
  rw [mapPy_each, Each]
  constructor
  · rintro ⟨h1, h2⟩
    refine ⟨h1, fun i a b ha hb => ((h a (List.mem_of_getElem? ha) b).1 (h2 i a b ha hb)).1, fun y hy => ?_⟩
    obtain ⟨i, hi, rfl⟩ := List.mem_iff_getElem.1 hy
    have hi' : i < l.length := h1 ▸ hi
    exact ((h l[i] (List.getElem_mem hi') ys[i]).1 (h2 i _ _ (List.getElem?_eq_getElem hi') (List.getElem?_eq_getElem hi))).2
  · rintro ⟨h1, h2, h3⟩
    exact ⟨h1, fun i a b ha hb => (h a (List.mem_of_getElem? ha) b).2 ⟨h2 i a b ha hb, h3 b (List.mem_of_getElem? hb)⟩⟩

theorem node_iff {c : Cls} {d : List (Str × J)} (hj : JOK (.obj d)) {m : Dict Str Str} {fm fk : Dict Str Str → J → Py Obj}
    (hm : ∀ l, ListAt (.obj d) (mdMember c) l → ∀ j ∈ l, Right .metadata fm j)
    (hk : ∀ l, ListAt (.obj d) (kidMember c).1 l → ∀ j ∈ l, Right (kidMember c).2 fk j) (x : Obj) :
    (∃ data ml md kl kids, DataSays c (Dict.get? m) (.obj d) data ∧ ListAt (.obj d) (mdMember c) ml ∧
      mapPy (fm (Dict.update m (data.nsmap.getD []))) ml = .ok md ∧ ListAt (.obj d) (kidMember c).1 kl ∧
      mapPy (fk (Dict.update m (data.nsmap.getD []))) kl = .ok kids ∧ construct data md kids = .ok x) ↔
    Says c (Dict.get? m) (.obj d) x ∧ x.Valid := by
  constructor
  · rintro ⟨data, ml, md, kl, kids, h1, h2, h3, h4, h5, h6⟩
    obtain ⟨rfl, o1, o2, o3, o4⟩ := construct_iff.1 h6
    have hs := scope_active hj h1.nsmap (m := m)
    obtain ⟨a1, a2, a3⟩ := (each_valid (fun j hjl y => hm ml h2 j hjl _ y)).1 h3
    obtain ⟨b1, b2, b3⟩ := (each_valid (fun j hjl y => hk kl h4 j hjl _ y)).1 h5
    rw [hs] at a2 b2
    exact ⟨.mk h1 h2 a1 a2 h4 b1 b2, .mk o1 o2 o3 o4 (fun n hn => mapAt_wf hj (hn ▸ h1.nsmap)) a3 b3⟩
  · rintro ⟨h, hv⟩
    cases h with
    | @mk _ _ _ data md kids ml kl h1 h2 a1 a2 h4 b1 b2 =>
      cases hv with
      | mk o1 o2 o3 o4 o5 a3 b3 =>
        have hs := scope_active hj h1.nsmap (m := m)
        rw [← hs] at a2 b2
        exact ⟨data, ml, md, kl, kids, h1, h2, (each_valid (fun j hjl y => hm ml h2 j hjl _ y)).2 ⟨a1, a2, a3⟩, h4,
          (each_valid (fun j hjl y => hk kl h4 j hjl _ y)).2 ⟨b1, b2, b3⟩, construct_iff.2 ⟨rfl, o1, o2, o3, o4⟩⟩

theorem says_obj {c : Cls} {scope : Str → Option Str} {j : J} {x : Obj} (h : Says c scope j x) : ∃ d, j = .obj d := by
  cases h with
  | mk h => exact h.obj

theorem jObj_iff {j : J} {d : List (Str × J)} : jObj j = .ok d ↔ j = .obj d := by
  cases j <;> simp [jObj]

theorem right_item {j : J} (hj : JOK j) : Right .item decodeItem j := by
  intro m x
  constructor
  · intro h
    unfold decodeItem at h
    simp only [bind_ok_iff, jObj_iff] at h
    obtain ⟨d, rfl, m', h1, data, h2, text, h3, h4⟩ := h
    obtain ⟨g1, g2, g3, g4, g5, g6, g7, g8⟩ := (decodeData_iff hj).1 h2
    refine (node_iff hj (fm := decodeItem) (fk := decodeItem) (by rintro l hl j hjl; cases hl; cases hjl) (by rintro l hl j hjl; cases hl; cases hjl) x).1
      ⟨{ data with text := text }, [], [], [], [], ⟨⟨d, rfl⟩, g6, ?_, ?_, g3, g5, ?_, data.ns, g4, ?_⟩, rfl, rfl, rfl, rfl, h4⟩
    · simpa using g1
    · simpa using g2
    · simpa using jStr_iff.1 h3
    · simpa using g8
  · rintro ⟨h, hv⟩
    obtain ⟨d, rfl⟩ := says_obj h
    obtain ⟨data, ml, md, kl, kids, h1, h2, h3, h4, h5, h6⟩ := (node_iff hj (fm := decodeItem) (fk := decodeItem)
      (by rintro l hl j hjl; cases hl; cases hjl) (by rintro l hl j hjl; cases hl; cases hjl) x).2 ⟨h, hv⟩
    cases h2
    cases h3
    cases h4
    cases h5
    unfold decodeItem
    simp only [bind_ok_iff, jObj_iff]
    obtain ⟨ns, n1, n2⟩ := h1.name
    have i1 := h1.id
    have i2 := h1.type
    have i3 := h1.text
    simp only [reduceCtorEq, if_false, or_false, false_or, or_true, true_or, if_true] at n2 i1 i2 i3
    exact ⟨d, rfl, _, (activeJson_iff hj).2 ⟨_, h1.nsmap, rfl⟩, { data with text := none },
      (decodeData_iff hj).2 ⟨i1, i2, h1.attrs, n2.2 ▸ n1, h1.nsmap, h1.cls, rfl, n2.1⟩, data.text, jStr_iff.2 i3, h6⟩


theorem decodeMcs_eq (m : Dict Str Str) (l : List J) : decodeMcs m l = mapPy (decodeMc m) l := by
  induction l with
  | nil => rw [decodeMcs, mapPy]
  | cons x l ih => rw [decodeMcs, mapPy, ih]

theorem decodeMcKids_eq (m : Dict Str Str) (d : List (Str × J)) : decodeMcKids m d = (do mapPy (decodeMc m) (← jList d (lit! "children"))) := by
  induction d with
  | nil => rw [decodeMcKids]; rfl
  | cons p d ih =>
    obtain ⟨k, v⟩ := p
    rw [decodeMcKids, jList, Dict.get?]
    by_cases hk : k = lit! "children"
    · rw [if_pos hk, if_pos hk]
      cases v with
      | null => rw [decodeMcArr]; rfl; simp
      | str s => rw [decodeMcArr]; rfl; simp
      | arr l => rw [decodeMcArr, decodeMcs_eq]; rfl
      | obj o => rw [decodeMcArr]; rfl; simp
    · rw [if_neg hk, if_neg hk, ih]; rfl

theorem nameSays_iff {scope : Str → Option Str} {m : Dict Str Str} (hs : Dict.get? m = scope) {name : Str} {ns : Option Str} {d : Data} :
    NameSays scope name ns d ↔ d.name = some (mcNameNs m name ns).1 ∧ d.ns = (mcNameNs m name ns).2 := by
  subst hs
  rw [NameSays, mcNameNs]
  cases h : splitOnce ':' name with
  | none =>
    have hn := (py_splitOnce ':' name).2.1 h
    constructor
    · rintro (⟨pre, loc, rfl, -⟩ | ⟨-, h1, h2⟩)
      · exact absurd hn (by simp)
      · exact ⟨h1, h2⟩
    · exact fun h => .inr ⟨hn, h.1, h.2⟩
  | some p =>
    obtain ⟨a, b⟩ := p
    obtain ⟨rfl, ha⟩ := ((py_splitOnce ':' name).1 a b).1 h
    constructor
    · rintro (⟨pre, loc, he, hp, h1, h2⟩ | ⟨hn, -⟩)
      · have := ((py_splitOnce ':' _).1 pre loc).2 ⟨he, hp⟩
        rw [h] at this
        cases this
        exact ⟨h1, h2⟩
      · exact absurd hn (by simp)
    · exact fun h => .inl ⟨a, b, rfl, ha, h.1, h.2⟩

theorem jName_iff {d : List (Str × J)} {n : Str} : jName d = .ok n ↔ member (.obj d) (lit! "name") = some (.str n) := by
  rw [jName, get?_member]
  cases member (.obj d) (lit! "name") with
  | none => simp
  | some v => cases v <;> simp

theorem size_listAt {j v : J} {k : Option Str} {l : List J} (h : ListAt j k l) (hv : v ∈ l) : sizeOf v < sizeOf j := by
  cases k with
  | none => cases h; cases hv
  | some k =>
    rcases h with h | ⟨-, rfl⟩
    · cases j with
      | null => cases h
      | str s => cases h
      | arr s => cases h
      | obj d =>
        rw [member] at h
        cases hf : List.find? (fun p : Str × J => decide (p.1 = k)) d with
        | none => rw [hf] at h; cases h
        | some p =>
          rw [hf] at h
          simp only [Option.map_some, Option.some.injEq] at h
          have h1 := List.sizeOf_lt_of_mem (List.mem_of_find?_eq_some hf)
          have h2 := List.sizeOf_lt_of_mem hv
          obtain ⟨a, b⟩ := p
          cases h
          simp only [Prod.mk.sizeOf_spec, J.arr.sizeOf_spec, J.obj.sizeOf_spec] at h1 ⊢
          omega
    · cases hv

theorem right_mc : ∀ (n : Nat) (j : J), sizeOf j < n → JOK j → Right .metaChild decodeMc j := by
  intro n
  induction n with
  | zero => intro j h; omega
  | succ n ih =>
    intro j hn hj
    have n1 : ∀ l, ListAt j (mdMember .metaChild) l → ∀ j ∈ l, Right .metadata decodeMc j := by
      rintro l hl j hjl; cases hl; cases hjl
    have n2 : ∀ l, ListAt j (kidMember .metaChild).1 l → ∀ j ∈ l, Right (kidMember .metaChild).2 decodeMc j :=
      fun l hl v hv => ih v (by have := size_listAt hl hv; omega) (listAt_jok hj hl v hv)
    intro m x
    constructor
    · intro h
      cases j with
      | null => rw [decodeMc] at h; cases h; simp
      | str s => rw [decodeMc] at h; cases h; simp
      | arr s => rw [decodeMc] at h; cases h; simp
      | obj d =>
        rw [decodeMc] at h
        simp only [bind_ok_iff, decodeMcKids_eq] at h
        obtain ⟨m', h1, nm, h0, data, h2, text, h3, kids, ⟨ks, h5, h6⟩, h7⟩ := h
        obtain ⟨g1, g2, g3, g4, g5, g6, g7, g8⟩ := (decodeData_iff hj).1 h2
        obtain ⟨own, a1, rfl⟩ := (activeJson_iff hj).1 h1
        cases mapAt_one a1 g5
        refine (node_iff hj n1 n2 x).1
          ⟨{ data with
              id := none, type := none, text := text, name := some (mcNameNs (Dict.update m (data.nsmap.getD [])) nm data.ns).1,
              ns := (mcNameNs (Dict.update m (data.nsmap.getD [])) nm data.ns).2 },
            [], [], ks, kids, ⟨⟨d, rfl⟩, g6, ?_, ?_, g3, g5, ?_, data.ns, g4, ?_⟩, rfl, rfl, jList_iff.1 h5, h6, h7⟩
        · rw [if_pos rfl]; exact ⟨rfl, _, g1⟩
        · rw [if_pos (.inl rfl)]; exact ⟨rfl, _, g2⟩
        · rw [if_pos (.inr (.inr rfl))]; exact jStr_iff.1 h3
        · rw [if_pos rfl]
          exact ⟨nm, jName_iff.1 h0, (nameSays_iff (scope_active hj g5)).2 ⟨rfl, rfl⟩⟩
    · rintro ⟨h, hv⟩
      obtain ⟨d, rfl⟩ := says_obj h
      obtain ⟨data, ml, md, kl, kids, h1, h2, h3, h4, h5, h6⟩ := (node_iff hj n1 n2 x).2 ⟨h, hv⟩
      cases h2
      cases h3
      rw [decodeMc]
      simp only [bind_ok_iff, decodeMcKids_eq]
      obtain ⟨ns, n1, n2⟩ := h1.name
      have i1 := h1.id
      have i2 := h1.type
      have i3 := h1.text
      simp only [reduceCtorEq, if_false, or_false, false_or, or_true, true_or, if_true, or_self] at n2 i1 i2 i3
      obtain ⟨i1, t1, i1'⟩ := i1
      obtain ⟨i2, t2, i2'⟩ := i2
      obtain ⟨nm, n2, n3⟩ := n2
      obtain ⟨n3, n4⟩ := (nameSays_iff (scope_active hj h1.nsmap)).1 n3
      refine ⟨_, (activeJson_iff hj).2 ⟨_, h1.nsmap, rfl⟩, nm, jName_iff.2 n2, { data with id := t1, type := t2, text := none, name := none, ns := ns },
        (decodeData_iff hj).2 ⟨i1', i2', h1.attrs, n1, h1.nsmap, h1.cls, rfl, rfl⟩, data.text, jStr_iff.2 i3, kids, ⟨kl, jList_iff.2 h4, h5⟩, ?_⟩
      rw [← h6]
      congr 1
      cases data
      simp_all

theorem right_meta {j : J} (hj : JOK j) : Right .metaC decodeMeta j := by
  have n1 : ∀ {d : List (Str × J)}, JOK (.obj d) → ∀ l, ListAt (.obj d) (mdMember .metaC) l → ∀ j ∈ l, Right .metadata decodeMc j := by
    rintro d - l hl j hjl; cases hl; cases hjl
  have n2 : ∀ {d : List (Str × J)}, JOK (.obj d) → ∀ l, ListAt (.obj d) (kidMember .metaC).1 l → ∀ j ∈ l, Right (kidMember .metaC).2 decodeMc j :=
    fun hd l hl v hv => right_mc _ v (Nat.lt_succ_self _) (listAt_jok hd hl v hv)
  intro m x
  constructor
  · intro h
    unfold decodeMeta at h
    simp only [bind_ok_iff, jObj_iff, decodeMcKids_eq] at h
    obtain ⟨d, rfl, m', h1, data, h2, text, h3, kids, ⟨ks, h5, h6⟩, h7⟩ := h
    obtain ⟨g1, g2, g3, g4, g5, g6, g7, g8⟩ := (decodeData_iff hj).1 h2
    obtain ⟨own, a1, rfl⟩ := (activeJson_iff hj).1 h1
    cases mapAt_one a1 g5
    refine (node_iff hj (n1 hj) (n2 hj) x).1
      ⟨{ data with text := text }, [], [], ks, kids, ⟨⟨d, rfl⟩, g6, ?_, ?_, g3, g5, ?_, data.ns, g4, ?_⟩, rfl, rfl, jList_iff.1 h5, h6, h7⟩
    · simpa using g1
    · simpa using g2
    · simpa using jStr_iff.1 h3
    · simpa using g8
  · rintro ⟨h, hv⟩
    obtain ⟨d, rfl⟩ := says_obj h
    obtain ⟨data, ml, md, kl, kids, h1, h2, h3, h4, h5, h6⟩ := (node_iff hj (n1 hj) (n2 hj) x).2 ⟨h, hv⟩
    cases h2
    cases h3
    unfold decodeMeta
    simp only [bind_ok_iff, jObj_iff, decodeMcKids_eq]
    obtain ⟨ns, n1, n2⟩ := h1.name
    have i1 := h1.id
    have i2 := h1.type
    have i3 := h1.text
    simp only [reduceCtorEq, if_false, or_false, false_or, or_true, true_or, if_true, or_self] at n2 i1 i2 i3
    exact ⟨d, rfl, _, (activeJson_iff hj).2 ⟨_, h1.nsmap, rfl⟩, { data with text := none },
      (decodeData_iff hj).2 ⟨i1, i2, h1.attrs, n2.2 ▸ n1, h1.nsmap, h1.cls, rfl, n2.1⟩, data.text, jStr_iff.2 i3, kids, ⟨kl, jList_iff.2 h4, h5⟩, h6⟩

theorem right_md {j : J} (hj : JOK j) : Right .metadata decodeMd j := by
  have n1 : ∀ {d : List (Str × J)}, JOK (.obj d) → ∀ l, ListAt (.obj d) (mdMember .metadata) l → ∀ j ∈ l, Right .metadata decodeMeta j := by
    rintro d - l hl j hjl; cases hl; cases hjl
  have n2 : ∀ {d : List (Str × J)}, JOK (.obj d) → ∀ l, ListAt (.obj d) (kidMember .metadata).1 l → ∀ j ∈ l, Right (kidMember .metadata).2 decodeMeta j := 
    fun hd l hl v hv => right_meta (listAt_jok hd hl v hv)
  intro m x
  constructor
  · intro h
    unfold decodeMd at h
    simp only [bind_ok_iff, jObj_iff] at h
    obtain ⟨d, rfl, m', h1, data, h2, ks, h5, kids, h6, h7⟩ := h
    obtain ⟨g1, g2, g3, g4, g5, g6, g7, g8⟩ := (decodeData_iff hj).1 h2
    obtain ⟨own, a1, rfl⟩ := (activeJson_iff hj).1 h1
    cases mapAt_one a1 g5
    refine (node_iff hj (n1 hj) (n2 hj) x).1
      ⟨data, [], [], ks, kids, ⟨⟨d, rfl⟩, g6, ?_, ?_, g3, g5, ?_, data.ns, g4, ?_⟩, rfl, rfl, jList_iff.1 h5, h6, h7⟩
    · simpa using g1
    · simpa using g2
    · simpa using g7
    · simpa using g8
  · rintro ⟨h, hv⟩
    obtain ⟨d, rfl⟩ := says_obj h
    obtain ⟨data, ml, md, kl, kids, h1, h2, h3, h4, h5, h6⟩ := (node_iff hj (n1 hj) (n2 hj) x).2 ⟨h, hv⟩
    unfold decodeMd
    simp only [bind_ok_iff, jObj_iff]
    obtain ⟨ns, n1, n2⟩ := h1.name
    have i1 := h1.id
    have i2 := h1.type
    have i3 := h1.text
    simp only [reduceCtorEq, if_false, or_false, false_or, or_true, true_or, if_true, or_self] at n2 i1 i2 i3
    cases h2
    cases h3
    refine ⟨d, rfl, _, (activeJson_iff hj).2 ⟨_, h1.nsmap, rfl⟩, data,
      (decodeData_iff hj).2 ⟨i1, i2, h1.attrs, n2.2 ▸ n1, h1.nsmap, h1.cls, i3, n2.1⟩, kl, jList_iff.2 h4, kids, h5, ?_⟩
    exact h6

theorem right_tier {j : J} (hj : JOK j) : Right .tier decodeTier j := by
  have n1 : ∀ {d : List (Str × J)}, JOK (.obj d) → ∀ l, ListAt (.obj d) (mdMember .tier) l → ∀ j ∈ l, Right .metadata decodeMd j := 
    fun hd l hl v hv => right_md (listAt_jok hd hl v hv)
  have n2 : ∀ {d : List (Str × J)}, JOK (.obj d) → ∀ l, ListAt (.obj d) (kidMember .tier).1 l → ∀ j ∈ l, Right (kidMember .tier).2 decodeItem j := 
    fun hd l hl v hv => right_item (listAt_jok hd hl v hv)
  intro m x
  constructor
  · intro h
    unfold decodeTier at h
    simp only [bind_ok_iff, jObj_iff] at h
    obtain ⟨d, rfl, m', h1, data, h2, ms, h3, md, h4, ks, h5, kids, h6, h7⟩ := h
    obtain ⟨g1, g2, g3, g4, g5, g6, g7, g8⟩ := (decodeData_iff hj).1 h2
    obtain ⟨own, a1, rfl⟩ := (activeJson_iff hj).1 h1
    cases mapAt_one a1 g5
    refine (node_iff hj (n1 hj) (n2 hj) x).1
      ⟨data, ms, md, ks, kids, ⟨⟨d, rfl⟩, g6, ?_, ?_, g3, g5, ?_, data.ns, g4, ?_⟩, jList_iff.1 h3, h4, jList_iff.1 h5, h6, h7⟩
    · simpa using g1
    · simpa using g2
    · simpa using g7
    · simpa using g8
  · rintro ⟨h, hv⟩
    obtain ⟨d, rfl⟩ := says_obj h
    obtain ⟨data, ml, md, kl, kids, h1, h2, h3, h4, h5, h6⟩ := (node_iff hj (n1 hj) (n2 hj) x).2 ⟨h, hv⟩
    unfold decodeTier
    simp only [bind_ok_iff, jObj_iff]
    obtain ⟨ns, n1, n2⟩ := h1.name
    have i1 := h1.id
    have i2 := h1.type
    have i3 := h1.text
    simp only [reduceCtorEq, if_false, or_false, false_or, or_true, true_or, if_true, or_self] at n2 i1 i2 i3
    refine ⟨d, rfl, _, (activeJson_iff hj).2 ⟨_, h1.nsmap, rfl⟩, data,
      (decodeData_iff hj).2 ⟨i1, i2, h1.attrs, n2.2 ▸ n1, h1.nsmap, h1.cls, i3, n2.1⟩, ml, jList_iff.2 h2, md, h3, kl, jList_iff.2 h4, kids, h5, ?_⟩
    exact h6

theorem right_igt {j : J} (hj : JOK j) : Right .igt decodeIgt j := by
  have n1 : ∀ {d : List (Str × J)}, JOK (.obj d) → ∀ l, ListAt (.obj d) (mdMember .igt) l → ∀ j ∈ l, Right .metadata decodeMd j := 
    fun hd l hl v hv => right_md (listAt_jok hd hl v hv)
  have n2 : ∀ {d : List (Str × J)}, JOK (.obj d) → ∀ l, ListAt (.obj d) (kidMember .igt).1 l → ∀ j ∈ l, Right (kidMember .igt).2 decodeTier j := 
    fun hd l hl v hv => right_tier (listAt_jok hd hl v hv)
  intro m x
  constructor
  · intro h
    unfold decodeIgt at h
    simp only [bind_ok_iff, jObj_iff] at h
    obtain ⟨d, rfl, m', h1, data, h2, ms, h3, md, h4, ks, h5, kids, h6, h7⟩ := h
    obtain ⟨g1, g2, g3, g4, g5, g6, g7, g8⟩ := (decodeData_iff hj).1 h2
    obtain ⟨own, a1, rfl⟩ := (activeJson_iff hj).1 h1
    cases mapAt_one a1 g5
    refine (node_iff hj (n1 hj) (n2 hj) x).1
      ⟨data, ms, md, ks, kids, ⟨⟨d, rfl⟩, g6, ?_, ?_, g3, g5, ?_, data.ns, g4, ?_⟩, jList_iff.1 h3, h4, jList_iff.1 h5, h6, h7⟩
    · simpa using g1
    · simpa using g2
    · simpa using g7
    · simpa using g8
  · rintro ⟨h, hv⟩
    obtain ⟨d, rfl⟩ := says_obj h
    obtain ⟨data, ml, md, kl, kids, h1, h2, h3, h4, h5, h6⟩ := (node_iff hj (n1 hj) (n2 hj) x).2 ⟨h, hv⟩
    unfold decodeIgt
    simp only [bind_ok_iff, jObj_iff]
    obtain ⟨ns, n1, n2⟩ := h1.name
    have i1 := h1.id
    have i2 := h1.type
    have i3 := h1.text
    simp only [reduceCtorEq, if_false, or_false, false_or, or_true, true_or, if_true, or_self] at n2 i1 i2 i3
    refine ⟨d, rfl, _, (activeJson_iff hj).2 ⟨_, h1.nsmap, rfl⟩, data,
      (decodeData_iff hj).2 ⟨i1, i2, h1.attrs, n2.2 ▸ n1, h1.nsmap, h1.cls, i3, n2.1⟩, ml, jList_iff.2 h2, md, h3, kl, jList_iff.2 h4, kids, h5, ?_⟩
    exact h6

theorem right_corpus {j : J} (hj : JOK j) (x : Obj) : decodeCorpus j = .ok x ↔ Says .corpus (Dict.get? ([] : Dict Str Str)) j x ∧ x.Valid := by
  have n1 : ∀ {d : List (Str × J)}, JOK (.obj d) → ∀ l, ListAt (.obj d) (mdMember .corpus) l → ∀ j ∈ l, Right .metadata decodeMd j := 
    fun hd l hl v hv => right_md (listAt_jok hd hl v hv)
  have n2 : ∀ {d : List (Str × J)}, JOK (.obj d) → ∀ l, ListAt (.obj d) (kidMember .corpus).1 l → ∀ j ∈ l, Right (kidMember .corpus).2 decodeIgt j := 
    fun hd l hl v hv => right_igt (listAt_jok hd hl v hv)
  constructor
  · intro h
    unfold decodeCorpus at h
    simp only [bind_ok_iff, jObj_iff] at h
    obtain ⟨d, rfl, m', h1, data, h2, ms, h3, md, h4, ks, h5, kids, h6, h7⟩ := h
    obtain ⟨g1, g2, g3, g4, g5, g6, g7, g8⟩ := (decodeData_iff hj).1 h2
    obtain ⟨own, a1, rfl⟩ := (activeJson_iff hj).1 h1
    cases mapAt_one a1 g5
    refine (node_iff hj (n1 hj) (n2 hj) x).1
      ⟨{ data with type := none }, ms, md, ks, kids, ⟨⟨d, rfl⟩, g6, ?_, ?_, g3, g5, ?_, data.ns, g4, ?_⟩, jList_iff.1 h3, h4, jList_iff.1 h5, h6, h7⟩
    · simpa using g1
    · simpa using ⟨_, g2⟩
    · simpa using g7
    · simpa using g8
  · rintro ⟨h, hv⟩
    obtain ⟨d, rfl⟩ := says_obj h
    obtain ⟨data, ml, md, kl, kids, h1, h2, h3, h4, h5, h6⟩ := (node_iff hj (n1 hj) (n2 hj) x).2 ⟨h, hv⟩
    unfold decodeCorpus
    simp only [bind_ok_iff, jObj_iff]
    obtain ⟨ns, n1, n2⟩ := h1.name
    have i1 := h1.id
    have i2 := h1.type
    have i3 := h1.text
    simp only [reduceCtorEq, if_false, or_false, false_or, or_true, true_or, if_true, or_self] at n2 i1 i2 i3
    obtain ⟨i2, t, i2'⟩ := i2
    refine ⟨d, rfl, _, (activeJson_iff hj).2 ⟨_, h1.nsmap, rfl⟩, { data with type := t },
      (decodeData_iff hj).2 ⟨i1, i2', h1.attrs, n2.2 ▸ n1, h1.nsmap, h1.cls, i3, n2.1⟩, ml, jList_iff.2 h2, md, h3, kl, jList_iff.2 h4, kids, h5, ?_⟩
    rw [← i2]
    exact h6

end

/-! ### Texts -/

/-- an open array or object has values without repeated keys, and no repeated key -/
def FrameOK : JFrame → Prop
  | .arr acc => ∀ x ∈ acc, JOK x
  | .obj acc _ => JOK (.obj acc)

/-- the reader has only such -/
def Good (r : JRd) : Prop := (∀ f ∈ r.stack, FrameOK f) ∧ ∀ j, r.root = some j → JOK j

theorem jok_set {d : List (Str × J)} {k : Str} {v : J} (h : JOK (.obj d)) (hv : JOK v) : JOK (.obj (Dict.set d k v)) := by
  cases h with
  | obj hn hd =>
    refine .obj (Dict.WF.set (d := d) hn k v) fun p hp => ?_
    clear hn
    induction d with
    | nil => simp only [Dict.set, List.mem_singleton] at hp; subst hp; exact hv
    | cons q d ih =>
      obtain ⟨k', v'⟩ := q
      rw [Dict.set] at hp
      split at hp
      · rcases List.mem_cons.1 hp with rfl | hp
        · exact hv
        · exact hd p (List.mem_cons_of_mem _ hp)
      · rcases List.mem_cons.1 hp with rfl | hp
        · exact hd _ List.mem_cons_self
        · exact ih (fun q hq => hd q (List.mem_cons_of_mem _ hq)) hp

theorem good_attach {r : JRd} {j : J} (h : Good r) (hj : JOK j) : Good (r.attach j) := by
  unfold JRd.attach
  split
  · exact ⟨h.1, fun v hv => by cases hv; exact hj⟩
  · rename_i acc fs hs
    refine ⟨fun f hf => ?_, h.2⟩
    rcases List.mem_cons.1 hf with rfl | hf
    · have : FrameOK (.arr acc) := h.1 _ (hs ▸ List.mem_cons_self)
      intro x hx
      rcases List.mem_append.1 hx with hx | hx
      · exact this x hx
      · rw [List.mem_singleton.1 hx]; exact hj
    · exact h.1 f (hs ▸ List.mem_cons_of_mem _ hf)
  · rename_i acc k fs hs
    refine ⟨fun f hf => ?_, h.2⟩
    rcases List.mem_cons.1 hf with rfl | hf
    · have : FrameOK (.obj acc k) := h.1 _ (hs ▸ List.mem_cons_self)
      exact jok_set this hj
    · exact h.1 f (hs ▸ List.mem_cons_of_mem _ hf)

theorem good_mode {r : JRd} {m : JMode} (h : Good r) : Good { r with mode := m } := h

theorem good_string {r r' : JRd} {k : Bool} {s : Str} (hr : r.string k s = .ok r') (h : Good r) : Good r' := by
  unfold JRd.string at hr
  split at hr
  · split at hr
    · rename_i acc k fs hs
      cases hr
      refine ⟨fun f hf => ?_, h.2⟩
      rcases List.mem_cons.1 hf with rfl | hf
      · exact h.1 (.obj acc k) (hs ▸ List.mem_cons_self)
      · exact h.1 f (hs ▸ List.mem_cons_of_mem _ hf)
    · cases hr
  · cases hr
    exact good_attach h (.str s)

theorem good_start {r r' : JRd} {c : Char} (hr : r.start c = .ok r') (h : Good r) : Good r' := by
  unfold JRd.start at hr
  split at hr
  · cases hr; exact h
  split at hr
  · cases hr
    refine ⟨fun f hf => ?_, h.2⟩
    rcases List.mem_cons.1 hf with rfl | hf
    · intro x hx; cases hx
    · exact h.1 f hf
  split at hr
  · cases hr
    refine ⟨fun f hf => ?_, h.2⟩
    rcases List.mem_cons.1 hf with rfl | hf
    · exact JOK.obj (by simp) (by simp)
    · exact h.1 f hf
  split at hr
  · cases hr; exact h
  · cases hr

theorem good_close {r r' : JRd} {c : Char} (hr : r.close c = .ok r') (h : Good r) : Good r' := by
  unfold JRd.close at hr
  split at hr
  · rename_i acc fs hs
    split at hr
    · cases hr
      have : FrameOK (.arr acc) := h.1 _ (hs ▸ List.mem_cons_self)
      exact good_attach ⟨fun f hf => h.1 f (hs ▸ List.mem_cons_of_mem _ hf), h.2⟩ (.arr this)
    · cases hr
  · rename_i acc k fs hs
    split at hr
    · cases hr
      have : FrameOK (.obj acc k) := h.1 _ (hs ▸ List.mem_cons_self)
      exact good_attach ⟨fun f hf => h.1 f (hs ▸ List.mem_cons_of_mem _ hf), h.2⟩ this
    · cases hr
  · cases hr

theorem good_char {r r' : JRd} {k : Bool} {acc : Str} {n : Nat} (hr : r.char k acc n = .ok r') (h : Good r) : Good r' := by
  unfold JRd.char at hr
  split at hr
  · cases hr; exact h
  · cases hr

theorem good_unit {r r' : JRd} {k : Bool} {acc : Str} {n : Nat} (hr : r.unit k acc n = .ok r') (h : Good r) : Good r' := by
  unfold JRd.unit at hr
  split at hr
  · cases hr; exact h
  · exact good_char hr h

theorem good_pair {r r' : JRd} {k : Bool} {acc : Str} {n v : Nat} (hr : r.pair k acc n v = .ok r') (h : Good r) : Good r' := by
  unfold JRd.pair at hr
  split at hr
  · exact good_char hr h
  · cases hr

theorem good_step {r r' : JRd} {c : Char} (hr : r.step c = .ok r') (h : Good r) : Good r' := by
  unfold JRd.step at hr
  repeat' split at hr
  all_goals first
    | exact good_string hr h
    | exact good_start hr h
    | exact good_close hr h
    | exact good_char hr h
    | exact good_unit hr h
    | exact good_pair hr h
    | (cases hr; done)
    | (cases hr; exact h)
    | (cases hr; exact good_attach h .null)

theorem good_run : ∀ {s : Str} {r r' : JRd}, r.run s = .ok r' → Good r → Good r' := by
  intro s
  induction s with
  | nil => intro r r' hr h; cases hr; exact h
  | cons c s ih =>
    intro r r' hr h
    rw [JRd.run, bind_ok_iff] at hr
    obtain ⟨r'', h1, h2⟩ := hr
    exact ih h2 (good_step h1 h)

theorem jok_loads {s : Str} {j : J} (h : jsonLoads s = .ok j) : JOK j := by
  unfold jsonLoads at h
  rw [bind_ok_iff] at h
  obtain ⟨r, h1, h2⟩ := h
  have hg := good_run h1 ⟨by simp, by simp⟩
  split at h2
  · rename_i hr
    cases h2
    exact hg.2 _ hr
  · cases h2

section
variable [Uni]

theorem dataSays_one {c : Cls} {scope : Str → Option Str} {j : J} {d d' : Data} (h : DataSays c scope j d) (h' : DataSays c scope j d') : d = d' := by
  have e1 : d.cls = d'.cls := h.cls.trans h'.cls.symm
  have e2 : d.nsmap = d'.nsmap := mapAt_one h.nsmap h'.nsmap
  have e3 : d.id = d'.id := by
    have a := h.id
    have b := h'.id
    split at a
    · rename_i hc; rw [if_pos hc] at b; rw [a.1, b.1]
    · rename_i hc; rw [if_neg hc] at b; exact strAt_one a b
  have e4 : d.type = d'.type := by
    have a := h.type
    have b := h'.type
    split at a
    · rename_i hc; rw [if_pos hc] at b; rw [a.1, b.1]
    · rename_i hc; rw [if_neg hc] at b; exact strAt_one a b
  have e5 : d.text = d'.text := by
    have a := h.text
    have b := h'.text
    split at a
    · rename_i hc; rw [if_pos hc] at b; exact strAt_one a b
    · rename_i hc; rw [if_neg hc] at b; rw [a, b]
  have e6 : d.attrs = d'.attrs := attrsAt_one mapAt_one h.attrs h'.attrs
  have e7 : d.name = d'.name ∧ d.ns = d'.ns := by
    obtain ⟨a, a1, a2⟩ := h.name
    obtain ⟨b, b1, b2⟩ := h'.name
    cases strAt_one a1 b1
    split at a2
    · rename_i hc
      rw [if_pos hc] at b2
      obtain ⟨n, n1, n2⟩ := a2
      obtain ⟨n', n1', n2'⟩ := b2
      rw [n1] at n1'
      cases n1'
      rw [← e2] at n2'
      rcases n2 with ⟨p, l, rfl, hp, q1, q2⟩ | ⟨hn, q1, q2⟩ <;> rcases n2' with ⟨p', l', he, hp', q1', q2'⟩ | ⟨hn', q1', q2'⟩
      · have := ((py_splitOnce ':' _).1 p l).2 ⟨rfl, hp⟩
        rw [((py_splitOnce ':' _).1 p' l').2 ⟨he, hp'⟩] at this
        cases this
        exact ⟨q1.trans q1'.symm, q2.trans q2'.symm⟩
      · exact absurd hn' (by simp)
      · exact absurd hn (by simp [he])
      · exact ⟨q1.trans q1'.symm, q2.trans q2'.symm⟩
    · rename_i hc
      rw [if_neg hc] at b2
      exact ⟨a2.1.trans b2.1.symm, a2.2.trans b2.2.symm⟩
  obtain ⟨e7, e8⟩ := e7
  cases d; cases d'
  simp_all

theorem pair_eq {α : Type} {l l' : List α} (h : l.length = l'.length) (hi : ∀ (i : Nat) x y, l[i]? = some x → l'[i]? = some y → x = y) : l = l' := by
  refine List.ext_getElem h fun i h1 h2 => hi i _ _ (List.getElem?_eq_getElem h1) (List.getElem?_eq_getElem h2)

theorem idx_some {α β : Type} {l : List α} {l' : List β} (h : l.length = l'.length) {i : Nat} {x : α} (hx : l[i]? = some x) : ∃ y, l'[i]? = some y := by
  have hi : i < l.length := (List.getElem?_eq_some_iff.1 hx).1
  exact ⟨_, List.getElem?_eq_getElem (h ▸ hi)⟩

/-- **C144** (unambiguous): a document says one thing only. -/
theorem C144_one : ∀ (x : Obj) {c : Cls} {scope : Str → Option Str} {j : J} {y : Obj}, Says c scope j x → Says c scope j y → x = y := by
  refine Obj.ind fun d md kids ih1 ih2 {c scope j y} h h' => ?_
  cases h with
  | mk h1 h2 a1 a2 h4 b1 b2 =>
    cases h' with
    | mk h1' h2' a1' a2' h4' b1' b2' =>
      cases dataSays_one h1 h1'
      cases listAt_one h2 h2'
      cases listAt_one h4 h4'
      congr 1
      · exact pair_eq (a1.symm.trans a1') fun i x y hx hy => by
          obtain ⟨v, hv⟩ := idx_some (a1.trans (a1.symm.trans a1')).symm hy
          exact ih1 x (List.mem_of_getElem? hx) (a2 i v x hv hx) (a2' i v y hv hy)
      · exact pair_eq (b1.symm.trans b1') fun i x y hx hy => by
          obtain ⟨v, hv⟩ := idx_some (b1.trans (b1.symm.trans b1')).symm hy
          exact ih2 x (List.mem_of_getElem? hx) (b2 i v x hv hx) (b2' i v y hv hy)

/-- **C144**: a JSON value without repeated keys is read as it says, and can be read exactly if that can be
constructed. -/
theorem C144_value (j : J) (hj : JOK j) (x : Obj) : decodeCorpus j = .ok x ↔ Says .corpus noScope j x ∧ x.Valid := right_corpus hj x

/-- **C144**: so with texts; repeated keys are no exception, as the last is taken when the text is read. -/
theorem C144_text (s : Str) (x : Obj) : loadsJson s = .ok x ↔ ∃ j, jsonLoads s = .ok j ∧ Says .corpus noScope j x ∧ x.Valid := by
  unfold loadsJson
  rw [bind_ok_iff]
  constructor
  · rintro ⟨j, h1, h2⟩
    exact ⟨j, h1, (C144_value j (jok_loads h1) x).1 h2⟩
  · rintro ⟨j, h1, h2⟩
    exact ⟨j, h1, (C144_value j (jok_loads h1) x).2 h2⟩


theorem sameDoc_str {j j' : J} (h : SameDoc j j') {k : Str} (hk : k ∈ known) (hk' : k ∉ [lit! "attributes", lit! "namespaces"]) {s : Option Str} (hs : StrAt j k s) : StrAt j' k s := by
  cases h with
  | null => exact hs
  | str s => cases s <;> exact hs
  | arr h1 h2 => cases s <;> exact hs
  | @obj d d' h1 h2 h3 =>
    have key : ∀ v, member (.obj d) k = some v → ∃ v', member (.obj d') k = some v' ∧ SameDoc v v' := by
      intro v hv
      cases hm : member (.obj d') k with
      | none => rw [(h1 k hk).2 hm] at hv; cases hv
      | some v' => exact ⟨v', rfl, h3 k hk hk' _ _ hv hm⟩
    cases s with
    | none =>
      rcases hs with hs | hs
      · exact .inl ((h1 k hk).1 hs)
      · obtain ⟨v', h4, h5⟩ := key _ hs
        cases h5
        exact .inr h4
    | some s =>
      obtain ⟨v', h4, h5⟩ := key _ hs
      cases h5
      exact h4

theorem sameDoc_map {j j' : J} (h : SameDoc j j') {k : Str} (hk : k ∈ [lit! "attributes", lit! "namespaces"]) {m : Option (Dict Str Str)} (hs : MapAt j k m) : MapAt j' k m := by
  cases h with
  | null => exact hs
  | str s => exact hs
  | arr h1 h2 => exact hs
  | @obj d d' h1 h2 h3 => rw [MapAt, ← h2 k hk]; exact hs

theorem sameDoc_attrs {j j' : J} (h : SameDoc j j') {m : Dict Str Str} (hs : AttrsAt j m) : AttrsAt j' m := by
  rcases hs with ⟨a, h1, h2⟩ | ⟨h1, h2⟩
  · exact .inl ⟨a, sameDoc_map h (by decide) h1, h2⟩
  · refine .inr ⟨?_, h2⟩
    cases h with
    | null => exact h1
    | str s => exact h1
    | arr _ _ => exact h1
    | @obj d d' g1 g2 g3 => rw [← g2 _ (by decide)]; exact h1

theorem sameDoc_list {j j' : J} (h : SameDoc j j') {k : Option Str} (hk : ∀ k', k = some k' → k' ∈ known ∧ k' ∉ [lit! "attributes", lit! "namespaces"])
    {l : List J} (hl : ListAt j k l) : ∃ l', ListAt j' k l' ∧ l.length = l'.length ∧ ∀ (i : Nat) a b, l[i]? = some a → l'[i]? = some b → SameDoc a b := by
  cases k with
  | none => cases hl; exact ⟨[], rfl, rfl, by simp⟩
  | some k =>
    have hk := hk k rfl
    cases h with
    | null =>
      rcases hl with hl | ⟨-, rfl⟩
      · cases hl
      · exact ⟨[], .inr ⟨rfl, rfl⟩, rfl, by simp⟩
    | str s =>
      rcases hl with hl | ⟨-, rfl⟩
      · cases hl
      · exact ⟨[], .inr ⟨rfl, rfl⟩, rfl, by simp⟩
    | arr h1 h2 =>
      rcases hl with hl | ⟨-, rfl⟩
      · cases hl
      · exact ⟨[], .inr ⟨rfl, rfl⟩, rfl, by simp⟩
    | @obj d d' h1 h2 h3 =>
      rcases hl with hl | ⟨hl, rfl⟩
      · cases hm : member (.obj d') k with
        | none => rw [(h1 k hk.1).2 hm] at hl; cases hl
        | some v =>
          have := h3 k hk.1 hk.2 _ _ hl hm
          cases this with
          | arr g1 g2 => exact ⟨_, .inl hm, g1, g2⟩
      · exact ⟨[], .inr ⟨(h1 k hk.1).1 hl, rfl⟩, rfl, by simp⟩

theorem sameDoc_says {c : Cls} {scope : Str → Option Str} {j j' : J} {x : Obj} (h : Says c scope j x) (hs : SameDoc j j') : Says c scope j' x := by
  induction h generalizing j' with
  | @mk c scope j d md kids ml kl h1 h2 a1 a2 h4 b1 b2 ih1 ih2 =>
    obtain ⟨ml', g2, e1, s1⟩ := sameDoc_list hs (k := mdMember c) (by cases c <;> decide) h2
    obtain ⟨kl', g4, e2, s2⟩ := sameDoc_list hs (k := (kidMember c).1) (by cases c <;> decide) h4
    refine .mk (ml := ml') (kl := kl') ⟨?_, h1.cls, ?_, ?_, ?_, sameDoc_map hs (by decide) h1.nsmap, ?_, ?_⟩ g2 (e1.symm.trans a1) (fun i a b ha hb => ?_)
      g4 (e2.symm.trans b1) (fun i a b ha hb => ?_)
    · obtain ⟨o, rfl⟩ := h1.obj
      cases hs
      exact ⟨_, rfl⟩
    · have := h1.id
      split at this
      · rename_i hc
        rw [if_pos hc]
        exact ⟨this.1, this.2.imp fun s hs' => sameDoc_str hs (by decide) (by decide) hs'⟩
      · rename_i hc
        rw [if_neg hc]
        exact sameDoc_str hs (by decide) (by decide) this
    · have := h1.type
      split at this
      · rename_i hc
        rw [if_pos hc]
        exact ⟨this.1, this.2.imp fun s hs' => sameDoc_str hs (by decide) (by decide) hs'⟩
      · rename_i hc
        rw [if_neg hc]
        exact sameDoc_str hs (by decide) (by decide) this
    · exact sameDoc_attrs hs h1.attrs
    · have := h1.text
      split at this
      · rename_i hc
        rw [if_pos hc]
        exact sameDoc_str hs (by decide) (by decide) this
      · rename_i hc
        rw [if_neg hc]
        exact this
    · obtain ⟨ns, n1, n2⟩ := h1.name
      refine ⟨ns, sameDoc_str hs (by decide) (by decide) n1, ?_⟩
      split at n2
      · rename_i hc
        rw [if_pos hc]
        exact n2.imp fun n hn => ⟨sameDoc_str hs (s := some n) (by decide) (by decide) hn.1, hn.2⟩
      · rename_i hc
        rw [if_neg hc]
        exact n2
    · obtain ⟨v, hv⟩ := idx_some (e1.symm) ha
      exact ih1 i v b hv hb (s1 i v a hv ha)
    · obtain ⟨v, hv⟩ := idx_some (e2.symm) ha
      exact ih2 i v b hv hb (s2 i v a hv ha)

/-- **C144** (order and other members): the order of members does not matter, nor do members of other names. -/
theorem C144_members (j j' : J) (hj : JOK j) (hj' : JOK j') (h : SameDoc j j') (x : Obj) (hx : decodeCorpus j = .ok x) : decodeCorpus j' = .ok x := by
  rw [C144_value j hj x] at hx
  rw [C144_value j' hj' x]
  exact ⟨sameDoc_says hx.1 h, hx.2⟩

end

section
attribute [local instance] asciiUni

/-- a text with members in no particular order, one of another name, and an igt with a tier -/
def exDoc : Str := lit! "{\"igts\": [{\"tiers\": [{\"type\": \"words\", \"items\": [{\"text\": \"a\", \"id\": \"w1\"}], \"id\": \"w\"}], \"id\": \"i1\"}], \"comment\": [], \"id\": \"c\"}"

/-- it can be read, and the corpus is as it says -/
example : ∃ x, loadsJson exDoc = .ok x ∧ Says .corpus noScope (.obj [(lit! "igts", .arr [.obj [(lit! "tiers", .arr [.obj [(lit! "type", .str (lit! "words")),
      (lit! "items", .arr [.obj [(lit! "text", .str (lit! "a")), (lit! "id", .str (lit! "w1"))]]), (lit! "id", .str (lit! "w"))]]), (lit! "id", .str (lit! "i1"))]]),
      (lit! "comment", .arr []), (lit! "id", .str (lit! "c"))]) x ∧
    x = .mk { cls := .corpus, id := some (lit! "c") } [] [.mk { cls := .igt, id := some (lit! "i1") } []
      [.mk { cls := .tier, id := some (lit! "w"), type := some (lit! "words") } [] [.mk { cls := .item, id := some (lit! "w1"), text := some (lit! "a") } [] []]]] := by
  refine ⟨_, by rfl, ?_, by rfl⟩
  obtain ⟨j, h1, h2⟩ := (C144_text exDoc _).1 (by rfl)
  have : jsonLoads exDoc = .ok j → j = _ := fun h => by cases h; rfl
  rw [this h1] at h2
  exact h2.1

/-- with `null` for what is not there -/
def exNull : Str := lit! "{\"igts\": [{\"id\": \"i1\", \"type\": null, \"attributes\": null}], \"id\": null, \"comment\": null}"

/-- that is read as if these members were left out -/
example : loadsJson exNull = .ok (.mk { cls := .corpus } [] [.mk { cls := .igt, id := some (lit! "i1") } [] []]) ∧
    loadsJson (lit! "{\"igts\": [{\"id\": \"i1\"}]}") = .ok (.mk { cls := .corpus } [] [.mk { cls := .igt, id := some (lit! "i1") } [] []]) :=
  ⟨by rfl, by rfl⟩

/-- **C144** is false of `null` for the members that are declared namespaces or lists, which are not read as if they were left
out: they cannot be read. -/
theorem C144_refuted_null : (∃ v, loadsJson (lit! "{}") = .ok v) ∧ loadsJson (lit! "{\"namespaces\": null}") = .error .typeError ∧
    loadsJson (lit! "{\"igts\": null}") = .error .typeError := ⟨⟨_, by rfl⟩, by rfl, by rfl⟩

/-- two documents that differ in the order of members, and one has another member besides -/
example : SameDoc (.obj [(lit! "igts", .arr []), (lit! "id", .str (lit! "c"))]) (.obj [(lit! "id", .str (lit! "c")), (lit! "note", .str []), (lit! "igts", .arr [])]) := by
  refine .obj ?_ ?_ ?_
  · intro k hk
    simp only [known, List.mem_cons, List.not_mem_nil, or_false] at hk
    rcases hk with rfl | rfl | rfl | rfl | rfl | rfl | rfl | rfl | rfl | rfl | rfl | rfl | rfl <;> simp [member]
  · intro k hk
    simp only [List.mem_cons, List.not_mem_nil, or_false] at hk
    rcases hk with rfl | rfl <;> simp [member]
  · intro k hk _ v v' h h'
    simp only [known, List.mem_cons, List.not_mem_nil, or_false] at hk
    rcases hk with rfl | rfl | rfl | rfl | rfl | rfl | rfl | rfl | rfl | rfl | rfl | rfl | rfl <;> simp [member] at h h'
    · subst h; subst h'; exact .str _
    · subst h; subst h'; exact .arr rfl (by simp)

/-- **C144** is false of the type of a corpus, which `decode` does not pass on. -/
theorem C144_refuted_type : ∃ j x, JOK j ∧ member j (lit! "type") = some (.str (lit! "t")) ∧ decodeCorpus j = .ok x ∧ x.data.type = none :=
  ⟨.obj [(lit! "type", .str (lit! "t"))], _, .obj (by simp) (by simp [JOK.str]), rfl, by rfl, by rfl⟩

/-- **C144** is false of the ID and type of a MetaChild, which `decode_metachild` does not pass on. -/
theorem C144_refuted_child : ∃ j x, JOK j ∧ member j (lit! "id") = some (.str (lit! "m")) ∧ member j (lit! "type") = some (.str (lit! "t")) ∧
    decodeMc [] j = .ok x ∧ x.data.id = none ∧ x.data.type = none :=
  ⟨.obj [(lit! "name", .str (lit! "n")), (lit! "id", .str (lit! "m")), (lit! "type", .str (lit! "t"))], _,
    .obj (by decide) (by simp [JOK.str]), rfl, rfl, by rfl, by rfl, by rfl⟩

end
end Xigt.Js
