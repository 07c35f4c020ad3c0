import Verif.Xml.TextProps
/-
C109: what was read from a document can be written, and is read again as it was.
-/

set_option linter.unusedSectionVars false

namespace Xigt

/-! ### Dictionaries -/

theorem Dict.ext_keys {κ ν : Type} [DecidableEq κ] {d e : Dict κ ν} (hd : d.WF) (hk : d.keys = e.keys)
    (h : ∀ k, Dict.get? d k = Dict.get? e k) : d = e := by
  induction d generalizing e with
  | nil =>
    cases e with
    | nil => rfl
    | cons q e => simp [Dict.keys] at hk
  | cons p d ih =>
    cases e with
    | nil => simp [Dict.keys] at hk
    | cons q e =>
      obtain ⟨k, v⟩ := p
      obtain ⟨k', v'⟩ := q
      have hk' : k = k' ∧ Dict.keys d = Dict.keys e := by simpa [Dict.keys] using hk
      have hwf : k ∉ Dict.keys d ∧ Dict.WF d := by simpa [Dict.WF, Dict.keys] using hd
      obtain ⟨rfl, hk'⟩ := hk'
      have h1 := h k
      simp only [Dict.get?, if_true, Option.some.injEq] at h1
      subst h1
      rw [ih hwf.2 hk' fun j => ?_]
      have := h j
      by_cases hj : k = j
      · subst hj
        rw [(Dict.get?_eq_none_iff d k).2 hwf.1, (Dict.get?_eq_none_iff e k).2 (by rw [← hk']; exact hwf.1)]
      · simpa [Dict.get?, hj] using this

theorem Dict.keys_update {κ ν : Type} [DecidableEq κ] (l : Dict κ ν) (hl : l.WF) : ∀ d : Dict κ ν,
    Dict.keys (Dict.update d l) = d.keys ++ l.keys.filter fun k => decide (k ∉ d.keys) := by
  induction l with
  | nil => intro d; simp [Dict.update, Dict.keys]
  | cons p l ih =>
    intro d
    obtain ⟨k, v⟩ := p
    have hwf : k ∉ Dict.keys l ∧ Dict.WF l := by simpa [Dict.WF, Dict.keys] using hl
    have := ih hwf.2 (Dict.set d k v)
    rw [Dict.update, List.foldl_cons]
    rw [Dict.update] at this
    rw [this, Dict.keys_set]
    have hkeys : Dict.keys ((k, v) :: l) = k :: Dict.keys l := rfl
    rw [hkeys, List.filter_cons]
    by_cases hh : Dict.has d k = true
    · rw [if_pos hh]
      rw [Dict.has_iff] at hh
      simp [hh]
    · rw [if_neg hh]
      rw [Dict.has_iff] at hh
      simp only [hh, not_false_eq_true, decide_true, if_true, List.append_assoc, List.singleton_append, List.mem_append, List.mem_singleton, not_or]
      congr 2
      apply List.filter_congr
      intro j hj
      have : j ≠ k := fun e => hwf.1 (e ▸ hj)
      simp [this]

theorem Dict.prefix_update {κ ν : Type} [DecidableEq κ] (l : Dict κ ν) : ∀ d : Dict κ ν, d.keys <+: Dict.keys (Dict.update d l) := by
  induction l with
  | nil => intro d; exact List.prefix_refl _
  | cons p l ih =>
    intro d
    refine List.IsPrefix.trans ?_ (ih (Dict.set d p.1 p.2))
    rw [Dict.keys_set]
    split
    · exact List.prefix_refl _
    · exact List.prefix_append _ _

theorem Dict.mem_update {κ ν : Type} [DecidableEq κ] (l : Dict κ ν) : ∀ {d : Dict κ ν} {q : κ × ν}, q ∈ Dict.update d l → q ∈ d ∨ q ∈ l := by
  have mem_set : ∀ {d : Dict κ ν} {k : κ} {v : ν} {q : κ × ν}, q ∈ d.set k v → q ∈ d ∨ q = (k, v) := by
    intro d k v q h
    induction d with
    | nil => simpa [Dict.set] using h
    | cons p d ih =>
      obtain ⟨k', v'⟩ := p
      rw [Dict.set] at h
      split at h
      · next e =>
        rcases List.mem_cons.1 h with h | h
        · exact .inr (by rw [h, e])
        · exact .inl (by simp [h])
      · rcases List.mem_cons.1 h with h | h
        · exact .inl (by simp [h])
        · rcases ih h with h | h
          · exact .inl (by simp [h])
          · exact .inr h
  induction l with
  | nil => intro d q h; exact .inl h
  | cons p l ih =>
    intro d q h
    rcases ih (d := Dict.set d p.1 p.2) h with h | h
    · rcases mem_set h with h | h
      · exact .inl h
      · exact .inr (by simp [h])
    · exact .inr (by simp [h])

section
variable [Uni] [XmlLex]

/-- writing the declarations that are not in force, and reading them where they are not -/
theorem rewritten {scope sc : Dict Str Str} (hs : scope.WF) (hc : sc.WF) (hp : scope.keys <+: sc.keys) :
    Dict.update scope (written sc scope) = sc := by
  have hw : Dict.WF (written sc scope) := written_wf hc
  refine Dict.ext_keys (WF_update _ _ hs) ?_ fun k => ?_
  · rw [Dict.keys_update _ hw]
    obtain ⟨t, ht⟩ := hp
    have hnd : (scope.keys ++ t).Nodup := by rw [ht]; exact hc
    have h1 : (Dict.keys (written sc scope)).filter (fun k => decide (k ∉ scope.keys)) = sc.keys.filter fun k => decide (k ∉ scope.keys) := by
      unfold written Dict.keys
      rw [List.filter_map, List.filter_map, List.filter_filter]
      congr 1
      apply List.filter_congr
      intro p _
      by_cases hm : p.1 ∈ List.map Prod.fst scope
      · simp [hm]
      · have : Dict.get? scope p.1 = none := (Dict.get?_eq_none_iff _ _).2 hm
        simp [hm, this]
    have h2 : sc.keys.filter (fun k => decide (k ∉ scope.keys)) = t := by
      rw [← ht, List.filter_append]
      have a1 : List.filter (fun k => decide (k ∉ scope.keys)) scope.keys = [] := by
        rw [List.filter_eq_nil_iff]
        intro k hk
        simp [hk]
      have a2 : List.filter (fun k => decide (k ∉ scope.keys)) t = t := by
        rw [List.filter_eq_self]
        intro k hk
        have := List.nodup_append.1 hnd
        have := this.2.2
        simp only [decide_not, Bool.not_eq_true', decide_eq_false_iff_not]
        intro hk'
        exact this k hk' k hk rfl
      rw [a1, a2, List.nil_append]
    refine Eq.trans ?_ ht
    congr 1
    refine Eq.trans (List.filter_congr fun k _ => ?_) (h1.trans h2)
    by_cases hm : k ∈ scope.keys <;> simp [hm]
  · rw [get?_update _ hw]
    have hmem : ∀ u, Dict.get? (written sc scope) k = some u ↔ Dict.get? sc k = some u ∧ Dict.get? scope k ≠ some u := by
      intro u
      constructor
      · intro h
        have := List.mem_filter.1 (Dict.get?_mem h)
        exact ⟨Dict.get?_of_mem hc this.1, by simpa using this.2⟩
      · rintro ⟨h1, h2⟩
        exact Dict.get?_of_mem hw (List.mem_filter.2 ⟨Dict.get?_mem h1, by simpa using h2⟩)
    cases hg : Dict.get? sc k with
    | none =>
      have h1 : Dict.get? (written sc scope) k = none := by
        cases h : Dict.get? (written sc scope) k with
        | none => rfl
        | some u => have := ((hmem u).1 h).1; rw [hg] at this; cases this
      have h2 : Dict.get? scope k = none := by
        rw [Dict.get?_eq_none_iff] at hg ⊢
        exact fun h => hg (hp.subset h)
      rw [h1, h2]
      rfl
    | some u =>
      by_cases he : Dict.get? scope k = some u
      · have h1 : Dict.get? (written sc scope) k = none := by
          cases h : Dict.get? (written sc scope) k with
          | none => rfl
          | some v =>
            have := (hmem v).1 h
            rw [hg] at this
            cases this.1
            exact absurd he this.2
        rw [h1, he]
        rfl
      · rw [(hmem u).2 ⟨hg, he⟩]
        rfl

/-! ### What is read of an element -/

/-- a name as it is read -/
def NameRead (sc : Dict Str Str) (k : Str) : Prop :=
  XmlLex.ncName k = true ∨ ∃ uri key, k = qual uri key ∧ XmlLex.ncName key = true ∧ '}' ∉ uri ∧ (uri = xmlNs ∨ ∃ p, Dict.get? sc p = some uri)

inductive Parsed : Dict Str Str → PElem → Prop
  | mk {scope sc tag as text kids} : sc.WF → scope.keys <+: sc.keys → (∀ q u, (q, u) ∈ sc → declOK q u = true) →
      NameRead sc tag → as.WF → (∀ k v, (k, v) ∈ as → XmlChars v ∧ NameRead sc k ∧ k ≠ lit! "xmlns") →
      (∀ t, text = some t → t ≠ [] ∧ XmlChars t ∧ '\r' ∉ t) → (∀ k ∈ kids, Parsed sc k) → Parsed scope (.mk tag as (some sc) text kids)

theorem declOK_brace {q u : Str} (h : declOK q u = true) : '}' ∉ u := by
  intro hm
  simp [declOK, hm] at h

theorem resolveName_read {sc : Dict Str Str} (hsc : ∀ q u, (q, u) ∈ sc → declOK q u = true) {dflt : Option Str}
    (hd : ∀ u, dflt = some u → u ≠ [] → ∃ p, Dict.get? sc p = some u) {k t : Str} (h : resolveName sc dflt k = .ok t) :
    NameRead sc t ∧ (dflt = none → t = lit! "xmlns" → k = lit! "xmlns") := by
  have hx : '}' ∉ xmlNs := by decide
  unfold resolveName at h
  split at h
  · split at h
    · rename_i hn
      split at h
      · cases h
        exact ⟨.inl hn, fun _ h => h⟩
      · rename_i u
        split at h
        · cases h
          exact ⟨.inl hn, fun h => by cases h⟩
        · rename_i hu
          cases h
          obtain ⟨p, hp⟩ := hd u rfl hu
          exact ⟨.inr ⟨u, k, rfl, hn, declOK_brace (hsc p u (Dict.get?_mem hp)), .inr ⟨p, hp⟩⟩, fun h => by cases h⟩
    · cases h
  · rename_i p l hs
    split at h
    · rename_i hn
      rw [Bool.and_eq_true] at hn
      split at h
      · cases h
        exact ⟨.inr ⟨xmlNs, l, rfl, hn.2, hx, .inl rfl⟩, fun _ h => by cases h⟩
      · split at h
        · rename_i u hu
          cases h
          exact ⟨.inr ⟨u, l, rfl, hn.2, declOK_brace (hsc p u (Dict.get?_mem hu)), .inr ⟨p, hu⟩⟩, fun _ h => by cases h⟩
        · cases h
    · cases h

theorem parsed : ∀ (e : Elem) (scope : Dict Str Str) (p : PElem), scope.WF → (∀ q u, (q, u) ∈ scope → declOK q u = true) →
    parseElem scope e = .ok p → Parsed scope p := by
  refine Elem.ind fun tag attrs text tail kids ih scope p hw hs h => ?_
  rw [parseElem_ok_iff] at h
  obtain ⟨hd, tag', as, text', tl, kids', h1, h2, h3, h4, h5, h6, rfl⟩ := h
  have hsc : ∀ q u, (q, u) ∈ Dict.update scope (declsOf attrs) → declOK q u = true := by
    intro q u hq
    rcases Dict.mem_update _ hq with h | h
    · exact hs q u h
    · exact List.all_eq_true.1 hd (q, u) h
  refine .mk (WF_update _ _ hw) (Dict.prefix_update _ _) hsc (resolveName_read hsc (fun u hu _ => ⟨[], hu⟩) h1).1 h3 (fun k v hkv => ?_) (fun t ht => ?_) (fun k hk => ?_)
  · rw [mapPy_ok_iff] at h2
    obtain ⟨q, hq, hqk⟩ := mem_all2 h2 hkv
    simp only [parseAttr, bind, Except.bind] at hqk
    cases hr : resolveName (Dict.update scope (declsOf attrs)) none q.1 with
    | error e => rw [hr] at hqk; cases hqk
    | ok k' =>
      rw [hr] at hqk
      simp only at hqk
      split at hqk
      · rename_i hv
        cases hqk
        obtain ⟨r1, r2⟩ := resolveName_read hsc (by intro u hu; cases hu) hr
        refine ⟨List.all_eq_true.1 hv, r1, fun e => ?_⟩
        have := r2 rfl e
        have hf := (List.mem_filter.1 hq).2
        rw [this] at hf
        exact absurd hf (by decide)
      · cases hqk
  · subst ht
    cases text with
    | none => cases h4
    | some s =>
      simp only [parseText] at h4
      split at h4
      · rename_i hc
        cases hs : s with
        | nil => rw [hs] at h4; cases h4
        | cons c r =>
          have h4' : eol s = t := by
            rw [hs] at h4 ⊢
            simpa using h4
          rw [← h4']
          refine ⟨fun e => ?_, eol_chars s (List.all_eq_true.1 hc), eol_ncr s⟩
          have := eol_isEmpty s
          rw [e, hs] at this
          cases this
      · cases h4
  · rw [parseElems_eq, mapPy_ok_iff] at h6
    obtain ⟨x, hx, hxk⟩ := mem_all2 h6 hk
    exact ih x hx _ k (WF_update _ _ hw) hsc hxk

/-! ### The conditions -/

/-- an element that does not use two things the codec cannot write: a default namespace (or the prefix `xml`
declared), and a tag in the namespace of `xml` -/
def Clean (e : PElem) : Prop :=
  (∀ m, e.nsmap = some m → Dict.get? m [] = none ∧ Dict.get? m (lit! "xml") = none) ∧ ∀ key, e.tag ≠ qual xmlNs key

/-- the result of reading: fit to be written, and read as it is -/
inductive Stable : Dict Str Str → Obj → Prop
  | mk {scope sc : Dict Str Str} {d : Data} {md kids : List Obj} : scope.WF → sc.WF → scope.keys <+: sc.keys →
    d.nsmap = some sc → XmlDataKept sc d → d.attrs.WF → (d.cls.hasText = false → d.text = none) →
    (d.name.isSome = true ↔ d.cls = .metaChild) → (d.cls.hasMd = false → md = []) → (∀ x ∈ md, x.cls = .metadata) →
    (∀ x ∈ kids, some x.cls = d.cls.contained) →
    (∀ n, d.name = some n → (∀ u, d.ns = some u → ∀ p, Dict.get? sc p ≠ some u) → n ≠ lit! "igt" ∧ n ≠ lit! "xigt-corpus") →
    (∀ i, d.id = some i → idAccepted i = true) → (∀ n, d.name = some n → nameOK n = true) →
    (md.filterMap fun x => x.data.id).Nodup → (kids.filterMap fun x => x.data.id).Nodup →
    (∀ x ∈ md, Stable sc x) → (∀ x ∈ kids, Stable sc x) → Stable scope (.mk d md kids)

theorem map_same {f : Obj → Obj} {xs : List Obj} (h : ∀ x ∈ xs, f x = x) : xs.map f = xs := by
  induction xs with
  | nil => rfl
  | cons x xs ih => rw [List.map_cons, h x (by simp), ih fun y hy => h y (by simp [hy])]

theorem construct_inv' {d : Data} {md kids : List Obj} {x : Obj} (h : construct d md kids = .ok x) :
    x = .mk d md kids ∧ (∀ i, d.id = some i → idAccepted i = true) ∧ (∀ n, d.name = some n → nameOK n = true) ∧
      (md.filterMap fun x => x.data.id).Nodup ∧ (kids.filterMap fun x => x.data.id).Nodup := by
  unfold construct at h
  split at h
  · cases h
  rename_i h1
  split at h
  · cases h
  rename_i h2
  split at h
  · cases h
  rename_i h3
  cases h
  simp only [Bool.or_eq_true, not_or, Bool.not_eq_true] at h3
  refine ⟨rfl, fun i hi => ?_, fun n hn => ?_, uniqueIds_of h3.1, uniqueIds_of h3.2⟩
  · rw [hi] at h1; simpa using h1
  · rw [hn] at h2; simpa using h2

/-- what it is for -/
theorem stable_spec : ∀ (x : Obj) (scope : Dict Str Str), Stable scope x → x.WF ∧ x.Valid ∧ XmlKept scope x ∧ NamesOK scope x ∧ xres scope scope x = x := by
  refine Obj.ind fun d md kids ihm ihk scope h => ?_
  cases h with
  | @mk _ sc _ _ _ hs hc hp hns hd ha ht hn hm hmc hkc hnm c1 c2 c3 c4 hmd hk =>
  have hmd := fun x hx => ihm x hx sc (hmd x hx)
  have hk := fun x hx => ihk x hx sc (hk x hx)
  have he : d.nsmap.getD scope = sc := by rw [hns]; rfl
  have he' : effNs d scope = sc := he
  have hsc : scopeIn d scope scope = sc := by rw [scopeIn, he', rewritten hs hc hp]
  refine ⟨.mk ha ht hn hm hmc hkc (fun x hx => (hmd x hx).1) fun x hx => (hk x hx).1,
    .mk c1 c2 c3 c4 (fun m hm => by rw [hns] at hm; cases hm; exact hc) (fun x hx => (hmd x hx).2.1) fun x hx => (hk x hx).2.1,
    .mk (by rw [he]; exact hd) (fun x hx => by rw [he]; exact (hmd x hx).2.2.1) (fun x hx => by rw [he]; exact (hk x hx).2.2.1),
    .mk (by rw [he]; exact hnm) (fun x hx => by rw [he]; exact (hmd x hx).2.2.2.1) (fun x hx => by rw [he]; exact (hk x hx).2.2.2.1), ?_⟩
  rw [xres_mk, hsc, he', map_same fun x hx => (hmd x hx).2.2.2.2, map_same fun x hx => (hk x hx).2.2.2.2]
  have : ({ d with nsmap := some sc } : Data) = d := by rw [← hns]
  rw [this]

/-- putting an object together -/
theorem stable_mk {scope sc : Dict Str Str} {d : Data} {md kids : List Obj} (hs : scope.WF) (hc : sc.WF) (hp : scope.keys <+: sc.keys)
    (hns : d.nsmap = some sc) (hd : XmlDataKept sc d) (ha : d.attrs.WF) (ht : d.cls.hasText = false → d.text = none)
    (hn : d.name.isSome = true ↔ d.cls = .metaChild) (hm : d.cls.hasMd = false → md = []) (hmc : ∀ x ∈ md, x.cls = .metadata)
    (hkc : ∀ x ∈ kids, some x.cls = d.cls.contained)
    (hnm : ∀ n, d.name = some n → (∀ u, d.ns = some u → ∀ p, Dict.get? sc p ≠ some u) → n ≠ lit! "igt" ∧ n ≠ lit! "xigt-corpus")
    (hx : construct d md kids = .ok (.mk d md kids)) (hmd : ∀ x ∈ md, Stable sc x) (hk : ∀ x ∈ kids, Stable sc x) :
    Stable scope (.mk d md kids) := by
  obtain ⟨_, c1, c2, c3, c4⟩ := construct_inv' hx
  exact .mk hs hc hp hns hd ha ht hn hm hmc hkc hnm c1 c2 c3 c4 hmd hk

/-! ### Reading -/

theorem qnameSplit_read {sc : Dict Str Str} {t : Str} (h : NameRead sc t) {ns : Option Str} {l : Str} (hq : qnameSplit t = .ok (ns, l)) :
    XmlLex.ncName l = true ∧ ((ns = none ∧ t = l) ∨ ∃ u, ns = some u ∧ t = qual u l ∧ (u = xmlNs ∨ ∃ p, Dict.get? sc p = some u)) := by
  rcases h with h | ⟨uri, key, rfl, h1, h2, h3⟩
  · have hb := XmlLex.no_brace _ h
    unfold qnameSplit at hq
    split at hq
    · exact absurd (by simp) hb
    · cases hq
      exact ⟨h, .inl ⟨rfl, rfl⟩⟩
  · rw [qual, qnameSplit, splitOnce_some _ _ h2] at hq
    cases hq
    exact ⟨h1, .inr ⟨uri, rfl, rfl, h3⟩⟩

theorem attrKept_of {sc : Dict Str Str} {k : Str} (h : NameRead sc k) (h1 : k ≠ lit! "id") (h2 : k ≠ lit! "type") (h3 : k ≠ lit! "xmlns") :
    AttrKept sc k := by
  rcases h with h | ⟨uri, key, rfl, g1, _, g3⟩
  · exact .inl ⟨h, h1, h2, h3⟩
  · exact .inr ⟨uri, key, rfl, g1, g3⟩

theorem decl_clean {q u : Str} (h : declOK q u = true) (h1 : q ≠ []) (h2 : q ≠ lit! "xml") : PrefixOK q ∧ UriOK u := by
  unfold declOK at h
  rw [if_neg h1] at h
  simp only [Bool.and_eq_true, Bool.not_eq_true', decide_eq_true_eq, h2, decide_false, beq_iff_eq] at h
  obtain ⟨⟨⟨a1, a2⟩, a3⟩, ⟨⟨b1, b2⟩, b3⟩, b4⟩ := h
  refine ⟨⟨b1, h2, b2⟩, List.all_eq_true.1 a1, ?_, b3, ?_, a3⟩
  · intro hm; simp [hm] at a2
  · intro e; simp [e] at b4

/-- what `xmlData` gives of a clean element -/
theorem xmlData_read {scope : Dict Str Str} {e : PElem} (hp : Parsed scope e) (hc : Clean e) {cls : Cls} {ign : List Str} {ex : Option Str} {d : Data}
    (hi : lit! "id" ∈ ign) (hty : lit! "type" ∈ ign ∨ Dict.get? e.attrs (lit! "type") = none) (h : xmlData cls ign ex e = .ok d) :
    ∃ sc, d.nsmap = some sc ∧ sc.WF ∧ scope.keys <+: sc.keys ∧ (∀ k ∈ e.kids, Parsed sc k) ∧ d.cls = cls ∧ d.attrs.WF ∧ d.text = none ∧
      (∀ p u, (p, u) ∈ sc → PrefixOK p ∧ UriOK u) ∧ (∀ i, d.id = some i → XmlChars i) ∧ (∀ i, d.type = some i → XmlChars i) ∧
      (∀ k v, (k, v) ∈ d.attrs → XmlChars v ∧ AttrKept sc k) ∧ (∀ t, e.text = some t → t ≠ [] ∧ XmlChars t ∧ '\r' ∉ t) ∧
      ∃ l, XmlLex.ncName l = true ∧ ((d.ns = none ∧ e.tag = l) ∨ ∃ u, d.ns = some u ∧ e.tag = qual u l ∧ ∃ p, Dict.get? sc p = some u) ∧
        d.name = (if ex.isNone then some l else none) ∧ ∀ t, ex = some t → l = t := by
  cases hp with
  | @mk _ sc tag as text kids p1 p2 p3 p4 p5 p6 p7 p8 =>
    simp only [xmlData, PElem.tag, PElem.attrs, PElem.nsmap, bind, Except.bind] at h
    cases hq : qnameSplit tag with
    | error e => rw [hq] at h; cases h
    | ok q =>
      obtain ⟨ns, l⟩ := q
      rw [hq] at h
      simp only at h
      split at h
      · rename_i hex
        simp only [Option.isNone_some, Bool.false_eq_true, if_false, Except.ok.injEq] at h
        subst h
        obtain ⟨q1, q2⟩ := qnameSplit_read p4 hq
        have hcl := hc.1 sc rfl
        have hdecl : ∀ p u, (p, u) ∈ sc → PrefixOK p ∧ UriOK u := fun p u hpu => by
          refine decl_clean (p3 p u hpu) ?_ ?_
          · rintro rfl
            rw [Dict.get?_of_mem p1 hpu] at hcl
            cases hcl.1
          · rintro rfl
            rw [Dict.get?_of_mem p1 hpu] at hcl
            cases hcl.2
        have hval : ∀ k v, Dict.get? as k = some v → XmlChars v := fun k v hk => (p6 k v (Dict.get?_mem hk)).1
        refine ⟨sc, rfl, p1, p2, p8, rfl, ?_, rfl, hdecl, hval _, hval _, fun k v hkv => ?_, p7, l, q1, ?_, rfl, ?_⟩
        · exact List.Nodup.sublist (List.Sublist.map _ List.filter_sublist) p5
        · have hm := List.mem_filter.1 hkv
          have hni : k ∉ ign := by simpa using hm.2
          have hka : (k, v) ∈ as := hm.1
          obtain ⟨g1, g2, g3⟩ := p6 k v hka
          refine ⟨g1, attrKept_of g2 (fun e => hni (e ▸ hi)) (fun e => ?_) g3⟩
          rcases hty with h | h
          · exact hni (e ▸ h)
          · have := Dict.get?_of_mem p5 hka
            rw [e] at this
            simp only [PElem.attrs] at h
            rw [h] at this
            cases this
        · rcases q2 with h | ⟨u, h1, h2, h3 | h3⟩
          · exact .inl h
          · subst h3
            exact absurd h2 (hc.2 l)
          · exact .inr ⟨u, h1, h2, h3⟩
        · rintro t rfl
          simp only [Option.all_some, decide_eq_true_eq] at hex
          exact hex.symm
      · cases h

theorem nonBlank_some {s : Option Str} {t : Str} (h : nonBlank s = some t) : s = some t ∧ ∃ c ∈ t, Uni.isSpace c = false := by
  unfold nonBlank at h
  split at h
  · cases h
  · rename_i hb
    subst h
    refine ⟨rfl, ?_⟩
    apply Classical.byContradiction
    intro hno
    apply hb
    rw [blank_iff]
    intro c hc
    cases hs : Uni.isSpace c with
    | true => rfl
    | false => exact absurd ⟨c, hc, hs⟩ hno

theorem scope_wf : ∀ {scope : Dict Str Str} {e : PElem}, Parsed scope e → scope.WF := by
  intro scope e h
  cases h with
  | mk p1 p2 => exact List.Nodup.sublist p2.sublist p1

theorem readMc_stable : ∀ (e : PElem) (scope : Dict Str Str), Parsed scope e → Every Clean e → Every Quiet e → ∀ x, readMc e = .ok x →
    x.cls = .metaChild ∧ Stable scope x := by
  refine PElem.ind fun tag attrs ns text kids ih scope hp hc hq x hx => ?_
  rw [readMc] at hx
  obtain ⟨d, hd, hx⟩ := bind_ok hx
  obtain ⟨ks, hks, hx⟩ := bind_ok hx
  obtain ⟨sc, s1, s2, s3, s4, s5, s6, s7, s8, s9, s10, s11, s12, l, l1, l2, l3, l4⟩ :=
    xmlData_read hp hc.here (by simp [IDTYPE]) (.inl (by simp [IDTYPE])) hd
  rw [readMcs_eq, mapPy_ok_iff] at hks
  have hkids : ∀ y ∈ ks, y.cls = .metaChild ∧ Stable sc y := by
    intro y hy
    obtain ⟨k, hk, hky⟩ := mem_all2 hks hy
    exact ih k hk sc (s4 k hk) (hc.kids k hk) (hq.kids k hk) y hky
  have hname : d.name = some l := l3
  obtain ⟨rfl, _⟩ := construct_inv' hx
  refine ⟨s5, stable_mk (scope_wf hp) s2 s3 s1 ?_ s6 (by simp [s5, Cls.hasText]) (by simp [s5, hname]) (by simp) (by simp) ?_ ?_ hx (by simp) fun y hy => (hkids y hy).2⟩
  · refine ⟨fun own ho => ?_, fun h => absurd s5 h, fun _ => ⟨rfl, rfl, fun n hn => ?_, fun u hu => ?_⟩, by simp, by simp [s5], fun _ t ht => (nonBlank_some ht).2, fun t ht => ?_, by simp, by simp, s11⟩
    · simp only [s1, Option.some.injEq] at ho
      subst ho
      exact s8
    · simp only [hname, Option.some.injEq] at hn
      subst hn
      exact l1
    · simp only at hu
      rcases l2 with ⟨h, _⟩ | ⟨v, h, _, h'⟩
      · rw [h] at hu; cases hu
      · rw [h] at hu; cases hu; exact h'
    · exact (s12 t (nonBlank_some ht).1).2
  · intro y hy
    rw [(hkids y hy).1]
    simp [s5, Cls.contained]
  · intro n hn hno
    simp only [hname, Option.some.injEq] at hn
    subst hn
    rcases l2 with ⟨h, h'⟩ | ⟨v, h, _, p, hp⟩
    · have := hq.here
      rw [Quiet, h'] at this
      exact this.2
    · exact absurd hp (hno v h p)

theorem readMeta_stable {e : PElem} {scope : Dict Str Str} (hp : Parsed scope e) (hc : Every Clean e) (hq : Every Quiet e) (ht : e.tag = lit! "meta") {x : Obj}
    (hx : readMeta e = .ok x) : x.cls = .metaC ∧ Stable scope x := by
  rw [readMeta] at hx
  obtain ⟨d, hd, hx⟩ := bind_ok hx
  obtain ⟨ks, hks, hx⟩ := bind_ok hx
  obtain ⟨sc, s1, s2, s3, s4, s5, s6, s7, s8, s9, s10, s11, s12, l, l1, l2, l3, l4⟩ :=
    xmlData_read hp hc.here (by simp [IDTYPE]) (.inl (by simp [IDTYPE])) hd
  rw [readMcs_eq, mapPy_ok_iff] at hks
  have hkids : ∀ y ∈ ks, y.cls = .metaChild ∧ Stable sc y := by
    intro y hy
    obtain ⟨k, hk, hky⟩ := mem_all2 hks hy
    exact readMc_stable k sc (s4 k hk) (hc.kids k hk) (hq.kids k hk) y hky
  have hname : d.name = none := l3
  have hns : d.ns = none := by
    rcases l2 with h | ⟨u, _, h, _⟩
    · exact h.1
    · rw [ht] at h; cases h
  obtain ⟨rfl, _⟩ := construct_inv' hx
  refine ⟨s5, stable_mk (scope_wf hp) s2 s3 s1 ?_ s6 (by simp [s5, Cls.hasText]) (by simp [s5, hname]) (by simp) (by simp) ?_ (by simp [hname]) hx (by simp) fun y hy => (hkids y hy).2⟩
  · refine ⟨fun own ho => ?_, fun _ => hns, by simp [s5], by simp [s5], by simp [s5], fun _ t ht => (nonBlank_some ht).2, fun t ht => ?_, s9, s10, s11⟩
    · simp only [s1, Option.some.injEq] at ho
      subst ho
      exact s8
    · exact (s12 t (nonBlank_some ht).1).2
  · intro y hy
    rw [(hkids y hy).1]
    simp [s5, Cls.contained]

/-- the readers of the outer objects -/
theorem outer_stable {e : PElem} {scope : Dict Str Str} {cls : Cls} {ign : List Str} {tag : Str} (hp : Parsed scope e) (hc : Clean e)
    (ht : e.tag = tag) (hb : tag.head? ≠ some '{') {d d' : Data} (hi : lit! "id" ∈ ign) (hty : lit! "type" ∈ ign ∨ Dict.get? e.attrs (lit! "type") = none)
    (hd : xmlData cls ign (some tag) e = .ok d) (h1 : d'.cls = d.cls) (h2 : d'.id = d.id) (h3 : d'.type = d.type ∨ d'.type = none) (h4 : d'.attrs = d.attrs)
    (h5 : d'.ns = d.ns) (h6 : d'.nsmap = d.nsmap) (h7 : d'.name = d.name) (h8 : d'.text = none ∨ cls = .item ∧ d'.text = e.text)
    (hc1 : cls ≠ .metaChild) (hc2 : cls ≠ .metaC) (hc3 : cls = .corpus → d'.type = none)
    {md kids : List Obj} {x : Obj} (hx : construct d' md kids = .ok x) (hm : cls.hasMd = false → md = [])
    (hmd : ∀ sc, (∀ k ∈ e.kids, Parsed sc k) → ∀ y ∈ md, y.cls = .metadata ∧ Stable sc y)
    (hk : ∀ sc, (∀ k ∈ e.kids, Parsed sc k) → ∀ y ∈ kids, some y.cls = cls.contained ∧ Stable sc y) : x.cls = cls ∧ Stable scope x := by
  obtain ⟨sc, s1, s2, s3, s4, s5, s6, s7, s8, s9, s10, s11, s12, l, l1, l2, l3, l4⟩ := xmlData_read hp hc hi hty hd
  have hname : d.name = none := l3
  have hns : d.ns = none := by
    rcases l2 with h | ⟨u, _, h, _⟩
    · exact h.1
    · rw [ht] at h; rw [h] at hb; exact absurd rfl hb
  obtain ⟨rfl, _⟩ := construct_inv' hx
  have hcls : d'.cls = cls := h1.trans s5
  refine ⟨hcls, stable_mk (scope_wf hp) s2 s3 (h6.trans s1) ?_ (h4 ▸ s6) ?_ (by simp [hcls, h7, hname, hc1]) (by rw [hcls]; exact hm)
    (fun y hy => (hmd sc s4 y hy).1) (fun y hy => by rw [hcls]; exact (hk sc s4 y hy).1) (by simp [h7, hname]) hx
    (fun y hy => (hmd sc s4 y hy).2) fun y hy => (hk sc s4 y hy).2⟩
  · refine ⟨fun own ho => ?_, fun _ => h5.trans hns, fun h => absurd (hcls.symm.trans h) hc1, fun h => hc3 (hcls.symm.trans h), fun _ => ?_, fun h => ?_, fun t ht => ?_, h2 ▸ s9, ?_, h4 ▸ s11⟩
    · rw [h6, s1] at ho
      cases ho
      exact s8
    · rcases h8 with h | ⟨_, h⟩
      · rw [h]; simp
      · rw [h]; intro e; exact (s12 [] e).1 rfl
    · rcases h with h | h
      · exact absurd (hcls.symm.trans h) hc2
      · exact absurd (hcls.symm.trans h) hc1
    · rcases h8 with h | ⟨_, h⟩
      · rw [h] at ht; cases ht
      · rw [h] at ht; exact (s12 t ht).2
    · rcases h3 with h | h
      · rw [h]; exact s10
      · rw [h]; intro i hi; cases hi
  · intro ht
    rcases h8 with h | ⟨h, _⟩
    · exact h
    · rw [hcls, h] at ht; cases ht

theorem mem_findall {e k : PElem} {t : Str} (h : k ∈ findall e t) : k ∈ e.kids ∧ k.tag = t := by
  have := List.mem_filter.1 h
  exact ⟨this.1, by simpa using this.2⟩

theorem readMd_stable {e : PElem} {scope : Dict Str Str} (hp : Parsed scope e) (hc : Every Clean e) (hq : Every Quiet e) (ht : e.tag = lit! "metadata") {x : Obj}
    (hx : readMd e = .ok x) : x.cls = .metadata ∧ Stable scope x := by
  rw [readMd] at hx
  obtain ⟨d, hd, hx⟩ := bind_ok hx
  obtain ⟨ks, hks, hx⟩ := bind_ok hx
  rw [mapPy_ok_iff] at hks
  refine outer_stable hp hc.here ht (by decide) (by simp [IDTYPE]) (.inl (by simp [IDTYPE])) hd rfl rfl (.inl rfl) rfl rfl rfl rfl (.inl ?_) (by decide) (by decide)
    (by simp) hx (by simp) (by simp) fun sc hsc y hy => ?_
  · obtain ⟨_, _, _, _, _, _, _, h, _⟩ := xmlData_read hp hc.here (by simp [IDTYPE]) (.inl (by simp [IDTYPE])) hd
    exact h
  · obtain ⟨k, hk, hky⟩ := mem_all2 hks hy
    obtain ⟨k1, k2⟩ := mem_findall hk
    obtain ⟨g1, g2⟩ := readMeta_stable (hsc k k1) (hc.kids k k1) (hq.kids k k1) k2 hky
    exact ⟨by rw [g1]; rfl, g2⟩

theorem xmlData_text {scope : Dict Str Str} {e : PElem} {cls : Cls} {ign : List Str} {ex : Option Str} {d : Data} (hp : Parsed scope e)
    (h : xmlData cls ign ex e = .ok d) : d.text = none := by
  cases hp with
  | mk =>
    simp only [xmlData, PElem.tag, PElem.attrs, PElem.nsmap, bind, Except.bind] at h
    split at h
    · cases h
    · split at h
      · simp only [Option.isNone_some, Bool.false_eq_true, if_false, Except.ok.injEq] at h
        subst h; rfl
      · cases h

theorem readItem_stable {e : PElem} {scope : Dict Str Str} (hp : Parsed scope e) (hc : Every Clean e) (ht : e.tag = lit! "item") {x : Obj}
    (hx : readItem e = .ok x) : x.cls = .item ∧ Stable scope x := by
  rw [readItem] at hx
  obtain ⟨d, hd, hx⟩ := bind_ok hx
  exact outer_stable hp hc.here ht (by decide) (by simp [IDTYPE]) (.inl (by simp [IDTYPE])) (d' := { d with text := e.text }) hd rfl rfl (.inl rfl) rfl rfl rfl rfl (.inr ⟨rfl, rfl⟩) (by decide) (by decide)
    (by simp) hx (by simp) (by simp) (by simp)

theorem readTier_stable {e : PElem} {scope : Dict Str Str} (hp : Parsed scope e) (hc : Every Clean e) (hq : Every Quiet e) (ht : e.tag = lit! "tier") {x : Obj}
    (hx : readTier e = .ok x) : x.cls = .tier ∧ Stable scope x := by
  rw [readTier] at hx
  obtain ⟨d, hd, hx⟩ := bind_ok hx
  obtain ⟨ms, hms, hx⟩ := bind_ok hx
  obtain ⟨ks, hks, hx⟩ := bind_ok hx
  rw [mapPy_ok_iff] at hms hks
  refine outer_stable hp hc.here ht (by decide) (by simp [IDTYPE]) (.inl (by simp [IDTYPE])) hd rfl rfl (.inl rfl) rfl rfl rfl rfl (.inl (xmlData_text hp hd)) (by decide) (by decide)
    (by simp) hx (by simp [Cls.hasMd]) (fun sc hsc y hy => ?_) fun sc hsc y hy => ?_
  · obtain ⟨k, hk, hky⟩ := mem_all2 hms hy
    obtain ⟨k1, k2⟩ := mem_findall hk
    exact readMd_stable (hsc k k1) (hc.kids k k1) (hq.kids k k1) k2 hky
  · obtain ⟨k, hk, hky⟩ := mem_all2 hks hy
    obtain ⟨k1, k2⟩ := mem_findall hk
    obtain ⟨g1, g2⟩ := readItem_stable (hsc k k1) (hc.kids k k1) k2 hky
    exact ⟨by rw [g1]; rfl, g2⟩

theorem readIgt_stable {e : PElem} {scope : Dict Str Str} (hp : Parsed scope e) (hc : Every Clean e) (hq : ∀ k ∈ e.kids, Every Quiet k) (ht : e.tag = lit! "igt") {x : Obj}
    (hx : readIgt e = .ok x) : x.cls = .igt ∧ Stable scope x := by
  rw [readIgt] at hx
  obtain ⟨d, hd, hx⟩ := bind_ok hx
  obtain ⟨ms, hms, hx⟩ := bind_ok hx
  obtain ⟨ks, hks, hx⟩ := bind_ok hx
  rw [mapPy_ok_iff] at hms hks
  refine outer_stable hp hc.here ht (by decide) (by simp [IDTYPE]) (.inl (by simp [IDTYPE])) hd rfl rfl (.inl rfl) rfl rfl rfl rfl (.inl (xmlData_text hp hd)) (by decide) (by decide)
    (by simp) hx (by simp [Cls.hasMd]) (fun sc hsc y hy => ?_) fun sc hsc y hy => ?_
  · obtain ⟨k, hk, hky⟩ := mem_all2 hms hy
    obtain ⟨k1, k2⟩ := mem_findall hk
    exact readMd_stable (hsc k k1) (hc.kids k k1) (hq k k1) k2 hky
  · obtain ⟨k, hk, hky⟩ := mem_all2 hks hy
    obtain ⟨k1, k2⟩ := mem_findall hk
    obtain ⟨g1, g2⟩ := readTier_stable (hsc k k1) (hc.kids k k1) (hq k k1) k2 hky
    exact ⟨by rw [g1]; rfl, g2⟩

theorem readCorpus_stable {e : PElem} (hp : Parsed [] e) (hc : Every Clean e) (hl : Layout e) (hty : Dict.get? e.attrs (lit! "type") = none) {x : Obj}
    (hx : readCorpus e = .ok x) : x.cls = .corpus ∧ Stable [] x := by
  rw [readCorpus] at hx
  obtain ⟨d, hd, hx⟩ := bind_ok hx
  obtain ⟨ms, hms, hx⟩ := bind_ok hx
  obtain ⟨ks, hks, hx⟩ := bind_ok hx
  rw [mapPy_ok_iff] at hms hks
  have htx := xmlData_text hp hd
  obtain ⟨l1, l2, m0, k0, hkk, hm0, hk0⟩ := hl
  refine outer_stable hp hc.here l1 (by decide) (by simp) (.inr hty) (d' := { d with type := none }) hd rfl rfl (.inr rfl) rfl rfl rfl rfl (.inl htx) (by decide) (by decide)
    (by simp) hx (by simp [Cls.hasMd]) (fun sc hsc y hy => ?_) fun sc hsc y hy => ?_
  · obtain ⟨k, hk, hky⟩ := mem_all2 hms hy
    obtain ⟨k1, k2⟩ := mem_findall hk
    refine readMd_stable (hsc k k1) (hc.kids k k1) ?_ k2 hky
    rw [hkk] at k1
    rcases List.mem_append.1 k1 with h | h
    · exact hm0 k h
    · exact absurd k2 (hk0 k h).1
  · obtain ⟨k, hk, hky⟩ := mem_all2 hks hy
    obtain ⟨k1, k2⟩ := mem_findall hk
    have hq : ∀ z ∈ k.kids, Every Quiet z := by
      rw [hkk] at k1
      rcases List.mem_append.1 k1 with h | h
      · exact absurd k2 (hm0 k h).here.2.1
      · exact (hk0 k h).2.2.2
    obtain ⟨g1, g2⟩ := readIgt_stable (hsc k k1) (hc.kids k k1) hq k2 hky
    exact ⟨by rw [g1]; rfl, g2⟩

/-! ### C109 -/

/-- a corpus that was read -/
theorem loaded_stable {s : Str} {p : PElem} (hs : readText s = .ok p) (hl : Layout p) (hc : Every Clean p)
    (hty : Dict.get? p.attrs (lit! "type") = none) {look : Nat → Nat} {x : Obj} (hx : loadsXml look s = .ok x) : x.cls = .corpus ∧ Stable [] x := by
  have hx' : readCorpus p = .ok x := by
    simp only [loadsXml, hs, bind, Except.bind] at hx
    exact ((C42_partial p hl).2.1 look x).1 hx
  have hp : Parsed [] p := by
    simp only [readText, bind, Except.bind] at hs
    split at hs
    · cases hs
    · rename_i e _
      exact parsed e [] p Dict.wf_nil (by intro q u h; cases h) hs
  exact readCorpus_stable hp hc hl hty hx'

/-- such a corpus can be written and read -/
theorem stable_again {x : Obj} (h1 : x.cls = .corpus) (h2 : Stable [] x) (ind : Option Int) :
    ∃ t, dumpsXml ind x = .ok t ∧ ∀ look, loadsXml look t = .ok x := by
  obtain ⟨g1, g2, g3, g4, g5⟩ := stable_spec x [] h2
  obtain ⟨e, q, e1, e2, e3, e4⟩ := x_corpus h1 g1 g2 g3
  rw [g5] at e4
  have hw : ∀ look, writeRead look ind x = .ok x := by
    intro look
    rw [writeRead_eq g4 e1 e2 e3 look look ind]
    exact ((C42_partial q (written_layout g4 e1 e2 e3)).2.1 look _).2 e4
  have hw' := hw id
  simp only [writeRead, e1, bind, Except.bind] at hw'
  split at hw'
  · cases hw'
  · rename_i q' hq'
    obtain ⟨t, t1, _, _⟩ := C90_layer x ind e q' e1 hq' id
    refine ⟨t, t1, fun look => ?_⟩
    obtain ⟨t', t1', _, t3⟩ := C90_layer x ind e q' e1 hq' look
    rw [t1] at t1'
    cases t1'
    exact t3.trans (hw look)

/-- **C109** (partial: of documents in the writer's layout, without what `Clean` excludes and without a type
on the corpus).  A corpus that was read can be written, with every indentation, and what is then read
is the same corpus, down to the namespace maps and the order of attributes. -/
theorem C109_partial (s : Str) (p : PElem) (hs : readText s = .ok p) (hl : Layout p) (hc : Every Clean p)
    (hty : Dict.get? p.attrs (lit! "type") = none) (look : Nat → Nat) (x : Obj) (hx : loadsXml look s = .ok x) (ind : Option Int) :
    ∃ t, dumpsXml ind x = .ok t ∧ ∀ look', loadsXml look' t = .ok x :=
  have h := loaded_stable hs hl hc hty hx
  stable_again h.1 h.2 ind

end

section
attribute [local instance] asciiUni asciiXml

/-- a document with namespaces, metadata, attributes in a namespace and white space -/
def againDoc : Str := lit! "<xigt-corpus xmlns:dc=\"http://dc\">\n <metadata><meta type=\"t\"><dc:lang iso=\"en\">x</dc:lang></meta></metadata><igt id='i1' dc:n='1'><tier id=\"w\"><item id=\"w1\"> dog&amp;</item></tier></igt></xigt-corpus>"

/-! Checks that compute -/

mutual
def everyB (f : PElem → Bool) : PElem → Bool
  | .mk tag attrs ns text kids => f (.mk tag attrs ns text kids) && everyBs f kids
def everyBs (f : PElem → Bool) : List PElem → Bool
  | [] => true
  | k :: ks => everyB f k && everyBs f ks
end

theorem everyBs_all (f : PElem → Bool) (ks : List PElem) : everyBs f ks = ks.all (everyB f) := by
  induction ks with
  | nil => rfl
  | cons k ks ih => rw [everyBs, ih, List.all_cons]

theorem every_of_B {f : PElem → Bool} {P : PElem → Prop} (hf : ∀ e, f e = true → P e) : ∀ e, everyB f e = true → Every P e := by
  refine PElem.ind fun tag attrs ns text kids ih h => ?_
  rw [everyB, Bool.and_eq_true, everyBs_all, List.all_eq_true] at h
  exact .mk (hf _ h.1) fun k hk => ih k hk (h.2 k hk)

def quietB (e : PElem) : Bool := e.nsmap.isSome && e.tag ≠ lit! "igt" && e.tag ≠ lit! "xigt-corpus"
def cleanB (e : PElem) : Bool :=
  e.nsmap.all (fun m => (Dict.get? m []).isNone && (Dict.get? m (lit! "xml")).isNone) && !('{' :: (xmlNs ++ ['}'])).isPrefixOf e.tag
def layoutB (n : Nat) (e : PElem) : Bool :=
  e.tag = lit! "xigt-corpus" && e.nsmap.isSome && (e.kids.take n).all (everyB quietB) &&
    (e.kids.drop n).all fun k => k.tag ≠ lit! "metadata" && k.tag ≠ lit! "xigt-corpus" && k.nsmap.isSome && k.kids.all (everyB quietB)

theorem quiet_of_B {e : PElem} (h : everyB quietB e = true) : Every Quiet e := by
  refine every_of_B (fun e h => ?_) e h
  simp only [quietB, Bool.and_eq_true, decide_eq_true_eq] at h
  exact ⟨fun hn => by simp [hn] at h, h.1.2, h.2⟩

theorem clean_of_B {e : PElem} (h : everyB cleanB e = true) : Every Clean e := by
  refine every_of_B (fun e h => ?_) e h
  simp only [cleanB, Bool.and_eq_true, Bool.not_eq_true'] at h
  refine ⟨fun m hm => ?_, fun key he => ?_⟩
  · have := h.1
    rw [hm] at this
    simpa using this
  · have h2 := h.2
    rw [he, qual] at h2
    have : ('{' :: (xmlNs ++ ['}'])).isPrefixOf ('{' :: (xmlNs ++ '}' :: key)) = true := by
      rw [List.isPrefixOf_iff_prefix]
      exact ⟨key, by simp⟩
    rw [this] at h2
    cases h2

theorem layout_of_B {n : Nat} {e : PElem} (h : layoutB n e = true) : Layout e := by
  simp only [layoutB, Bool.and_eq_true, decide_eq_true_eq, List.all_eq_true] at h
  obtain ⟨⟨⟨h1, h2⟩, h3⟩, h4⟩ := h
  refine ⟨h1, fun hn => by simp [hn] at h2, e.kids.take n, e.kids.drop n, (List.take_append_drop _ _).symm, fun x hx => quiet_of_B (h3 x hx), fun k hk => ?_⟩
  obtain ⟨⟨⟨a1, a2⟩, a3⟩, a4⟩ := h4 k hk
  exact ⟨a1, a2, fun hn => by simp [hn] at a3, fun x hx => quiet_of_B (a4 x hx)⟩

/-- a result with a property -/
def okWith {α : Type} (r : Py α) (f : α → Bool) : Bool := r.toOption.any f

theorem ok_of_B {α : Type} {r : Py α} {f : α → Bool} (h : okWith r f = true) : ∃ x, r = .ok x ∧ f x = true := by
  cases r with
  | error e => simp [okWith, Except.toOption] at h
  | ok x => exact ⟨x, rfl, by simpa [okWith, Except.toOption] using h⟩

def failed {α : Type} (r : Py α) (e : PyErr) : Bool := match r with
  | .error e' => e' = e
  | .ok _ => false

theorem failed_of_B {α : Type} {r : Py α} {e : PyErr} (h : failed r e = true) : r = .error e := by
  cases r with
  | error e' => simpa [failed] using h
  | ok x => cases h

/-- it meets the conditions of C109, and is read and written as it should be -/
example : ∃ p x, readText againDoc = .ok p ∧ Layout p ∧ Every Clean p ∧ Dict.get? p.attrs (lit! "type") = none ∧ loadsXml id againDoc = .ok x ∧
    x.kids.length = 1 ∧ dumpsXml none x =
      .ok (lit! "<xigt-corpus xmlns:dc=\"http://dc\"><metadata><meta type=\"t\"><dc:lang iso=\"en\">x</dc:lang></meta></metadata><igt id=\"i1\" dc:n=\"1\"><tier id=\"w\"><item id=\"w1\"> dog&amp;</item></tier></igt></xigt-corpus>") := by
  obtain ⟨p, h1, h2⟩ := ok_of_B (r := readText againDoc) (f := fun p => layoutB 1 p && everyB cleanB p && (Dict.get? p.attrs (lit! "type")).isNone) (by decide +kernel)
  obtain ⟨x, g1, g2⟩ := ok_of_B (r := loadsXml id againDoc) (f := fun x => x.kids.length = 1 && dumpsXml none x =
      .ok (lit! "<xigt-corpus xmlns:dc=\"http://dc\"><metadata><meta type=\"t\"><dc:lang iso=\"en\">x</dc:lang></meta></metadata><igt id=\"i1\" dc:n=\"1\"><tier id=\"w\"><item id=\"w1\"> dog&amp;</item></tier></igt></xigt-corpus>")) (by decide +kernel)
  simp only [Bool.and_eq_true, decide_eq_true_eq, Option.isNone_iff_eq_none] at h2 g2
  exact ⟨p, x, h1, layout_of_B h2.1.1, clean_of_B h2.1.2, h2.2, g1, g2.1, g2.2⟩

/-- **C109** refuted: a default namespace inside a `meta` is read, but written with an empty prefix
(xigtxml.py:357-367), and what was written cannot be read again -/
theorem C109_refuted : ∃ s x t, loadsXml id s = .ok x ∧ dumpsXml none x = .ok t ∧ ∀ look, loadsXml look t = .error .parseError := by
  obtain ⟨x, h1, h2⟩ := ok_of_B (r := loadsXml id (lit! "<xigt-corpus><metadata><meta><a xmlns=\"u\"/></meta></metadata></xigt-corpus>"))
    (f := fun x => dumpsXml none x = .ok (lit! "<xigt-corpus><metadata><meta><:a xmlns:=\"u\" /></meta></metadata></xigt-corpus>")) (by decide +kernel)
  have h3 := failed_of_B (r := readText (lit! "<xigt-corpus><metadata><meta><:a xmlns:=\"u\" /></meta></metadata></xigt-corpus>")) (e := .parseError) (by decide +kernel)
  refine ⟨_, x, _, h1, of_decide_eq_true h2, fun look => ?_⟩
  rw [loadsXml, h3]
  rfl

/-- **C109** refuted: an element in the namespace of the prefix `xml` is read, but written without a
namespace (xigtxml.py:359-361 looks only among the declared namespaces, unlike 375-381 for attributes) -/
theorem C109_refuted_xml : ∃ s x t y, loadsXml id s = .ok x ∧ dumpsXml none x = .ok t ∧ loadsXml id t = .ok y ∧ Obj.eq y x = false ∧
    ((x.md.flatMap Obj.kids).flatMap Obj.kids).map (fun c => c.data.ns) = [some xmlNs] ∧
    ((y.md.flatMap Obj.kids).flatMap Obj.kids).map (fun c => c.data.ns) = [none] := by
  obtain ⟨x, h1, h2⟩ := ok_of_B (r := loadsXml id (lit! "<xigt-corpus><metadata><meta><xml:a/></meta></metadata></xigt-corpus>"))
    (f := fun x => okWith (dumpsXml none x) fun t => okWith (loadsXml id t) fun y => !Obj.eq y x &&
      ((x.md.flatMap Obj.kids).flatMap Obj.kids).map (fun c => c.data.ns) = [some xmlNs] &&
      ((y.md.flatMap Obj.kids).flatMap Obj.kids).map (fun c => c.data.ns) = [none]) (by decide +kernel)
  obtain ⟨t, h2, h3⟩ := ok_of_B h2
  obtain ⟨y, h3, h4⟩ := ok_of_B h3
  simp only [Bool.and_eq_true, decide_eq_true_eq, Bool.not_eq_true'] at h4
  exact ⟨_, x, t, y, h1, h2, h3, h4.1.1, h4.1.2, h4.2⟩

end

end Xigt
