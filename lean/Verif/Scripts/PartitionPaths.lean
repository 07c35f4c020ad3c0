import Verif.Scripts.SortPaths
import Verif.Scripts.PartitionProps
/- C148: paths find the same in the files of a partition, taken together, as in the files partitioned. -/

set_option linter.unusedSectionVars false

namespace Xigt.Part
open Xigt.XP
open Xigt.Srt (Shuf SameFound GenS SameTest)

/-! ### Spec -/

section
variable [Uni]

/-- the same value: the same string, or the same object in the same objects, but for the corpus -/
def SameBelow : PV → PV → Prop
  | .node x up, .node y up' => y = x ∧ up'.dropLast = up.dropLast
  | .str s, .str s' => s = s'
  | .none, .none => True
  | .list l, .list l' => l = l'
  | _, _ => False

/-- what a path finds in one corpus after the other, if nothing is raised -/
def foundIn (c : PCfg) (path : Str) (xs : List Obj) : Py (List PV) :=
  (mapPy (fun x => XP.findall c (.node x []) path) xs).map List.flatten

mutual
/-- no `..` and nothing that begins with `/`, so that a path does not lead out of an IGT -/
def inPath : PPath → Bool
  | .rel s => inSteps s
  | .abs _ => false
  | .group a => inAlts a
def inSteps : PSteps → Bool
  | .last n ps => inNode n && inPreds ps
  | .more n ps r => inNode n && (inPreds ps && inSteps r)
def inNode : PNode → Bool
  | .parent => false
  | .alts a => inAlts a
  | _ => true
def inAlts : PAlts → Bool
  | .one p => inPath p
  | .more p r => inPath p && inAlts r
def inPreds : PPreds → Bool
  | .nil => true
  | .eq p _ r => inPath p && inPreds r
  | .ne p _ r => inPath p && inPreds r
  | .ex p r => inPath p && inPreds r
end

/-- an IGT with its own namespaces, as all that are read from files have them (xigtxml.py:264) -/
structure Whole (g : Obj) : Prop where
  wf : g.WF
  cls : g.cls = .igt
  ns : g.data.nsmap ≠ none

/-- the corpus in a file -/
def PFile.corpus (f : PFile) : Obj := .mk f.root.data f.root.md f.igts

/-! ### In an IGT -/

/-- the same object in the same IGT, in two corpora; each list is an object and the objects it is in -/
def Below (l l' : List Obj) : Prop :=
  ∃ pre g x y, l = pre ++ [g, x] ∧ l' = pre ++ [g, y] ∧ Whole g ∧ ∀ t, pre = [t] → t.cls = .tier ∨ t.cls = .metadata

def PvB : PV → PV → Prop
  | .node x up, .node y up' => y = x ∧ Below (x :: up) (y :: up')
  | .str s, .str s' => s = s'
  | .none, .none => True
  | .list l, .list l' => l = l'
  | _, _ => False

theorem Below.igt {g x y : Obj} (h : Whole g) : Below [g, x] [g, y] := ⟨[], g, x, y, rfl, rfl, h, by intro t h; cases h⟩

/-- something in the object -/
theorem Below.cons {z k : Obj} {up up' : List Obj} (h : Below (z :: up) (z :: up')) (hk : z.WF → k ∈ z.kids ∨ k ∈ z.md) :
    Below (k :: z :: up) (k :: z :: up') := by
  obtain ⟨pre, g, x, y, h1, h2, hw, h3⟩ := h
  refine ⟨k :: pre, g, x, y, by rw [h1]; rfl, by rw [h2]; rfl, hw, fun t ht => ?_⟩
  simp only [List.cons.injEq] at ht
  obtain ⟨rfl, rfl⟩ := ht
  obtain ⟨rfl, -⟩ := List.cons.inj h1
  rcases hk hw.wf with h | h
  · have := (Srt.wf_kid hw.wf h).2
    rw [hw.cls] at this
    exact .inl (Option.some.inj this)
  · exact .inr (Srt.wf_md hw.wf h).2

theorem Below.ns {l l' : List Obj} (h : Below l l') : nsmapOf l' = nsmapOf l := by
  obtain ⟨pre, g, x, y, rfl, rfl, hw, -⟩ := h
  induction pre with
  | nil =>
    simp only [List.nil_append, nsmapOf]
    cases h : g.data.nsmap with
    | none => exact absurd h hw.ns
    | some m => rfl
  | cons z pre ih => simp only [List.cons_append, nsmapOf, ih]

theorem Below.drop {l l' : List Obj} (h : Below l l') : l'.dropLast = l.dropLast := by
  obtain ⟨pre, g, x, y, rfl, rfl, -, -⟩ := h
  simp [List.dropLast_append]

theorem pvB_ofOpt (o : Option Str) : PvB (.ofOpt o) (.ofOpt o) := by
  cases o with
  | none => trivial
  | some s => exact rfl

theorem shuf_mapB {up up' : List Obj} {l : List Obj} (h : ∀ k ∈ l, Below (k :: up) (k :: up')) :
    Shuf PvB (l.map fun k => .node k up) (l.map fun k => .node k up') := by
  refine .of_all2 ?_
  induction l with
  | nil => exact .nil
  | cons k l ih => exact .cons ⟨rfl, h k (List.mem_cons_self ..)⟩ (ih fun k hk => h k (List.mem_cons_of_mem _ hk))

theorem select_mem {m : Option (Dict Str Str)} {l k : List Obj} {cr : Dict Str (Option Str)} (h : select m l cr = .ok k) : ∀ x ∈ k, x ∈ l := by
  unfold select at h
  split at h
  · cases m with
    | none => cases h
    | some m => cases h; exact fun x hx => (List.mem_filter.1 hx).1
  · cases h; exact fun x hx => (List.mem_filter.1 hx).1

theorem selectKids_b {z : Obj} {up up' : List Obj} (h : Below (z :: up) (z :: up')) (ns nm : Option Str) :
    SameFound PvB (selectKids z up ns nm) (selectKids z up' ns nm) := by
  unfold selectKids
  rw [h.ns]
  cases hs : select (some (nsmapOf (z :: up))) z.kids (crit ns nm) with
  | error e => trivial
  | ok k => exact shuf_mapB fun x hx => h.cons fun _ => .inl (select_mem hs x hx)

theorem mdKids_b {z : Obj} {up up' : List Obj} (h : Below (z :: up) (z :: up')) (ns : Option Str) : Shuf PvB (mdKids z up ns) (mdKids z up' ns) := by
  unfold mdKids
  cases ns with
  | none => exact shuf_mapB fun x hx => h.cons fun _ => .inr hx
  | some s => exact shuf_mapB fun x hx => h.cons fun _ => .inr (List.mem_filter.1 hx).1

theorem findChild_b {v v' : PV} (h : PvB v v') (name : Str) : SameFound PvB (findChild v name) (findChild v' name) := by
  revert h
  rcases v with ⟨x, up⟩ | s | _ | l <;> rcases v' with ⟨y, up'⟩ | s' | _ | l' <;> intro h <;> try exact h.elim
  · obtain ⟨rfl, h⟩ := h
    simp only [findChild]
    split
    · have := selectKids_b h (splitNs name).1 none
      revert this
      cases selectKids y up (splitNs name).1 none <;> cases selectKids y up' (splitNs name).1 none <;> intro this
      · trivial
      · exact this
      · exact this
      · exact (mdKids_b h none).append this
    · split
      · exact selectKids_b h _ _
      · split
        · exact mdKids_b h _
        · split
          · exact selectKids_b h _ _
          · exact .nil
  · simp only [findChild]
    split
    · trivial
    · exact .nil
  · exact .nil
  · simp only [findChild]
    split
    · trivial
    · exact .nil

/-- strings are the same as themselves -/
theorem self_b {p : Py (List PV)} (hp : ∀ l, p = .ok l → ∀ v ∈ l, PvB v v) : SameFound PvB p p := by
  cases p with
  | error e => trivial
  | ok l => exact .of_all2 (Srt.all2_strengthen (Srt.all2_self (R := Eq) (fun _ => rfl) _) fun a ha b hab => by subst hab; exact hp l rfl a ha)

theorem findAttr_b {v v' : PV} (h : PvB v v') (name : Str) : SameFound PvB (findAttr v name) (findAttr v' name) := by
  revert h
  rcases v with ⟨x, up⟩ | s | _ | l <;> rcases v' with ⟨y, up'⟩ | s' | _ | l' <;> intro h <;> try exact h.elim
  · obtain ⟨rfl, h⟩ := h
    have ha : ∀ ns, getAttr1 (y :: up') ns = getAttr1 (y :: up) ns := fun ns => by
      funext k
      simp only [getAttr1, getAttribute, h.ns, Bool.false_eq_true, false_and, if_false]
    have hofa : ∀ ns k v, getAttr1 (y :: up) ns k = .ok v → PvB v v := by
      intro ns k v hv
      unfold getAttr1 at hv
      cases hg : getAttribute (y :: up) k none false ns with
      | error e => rw [hg] at hv; cases hv
      | ok o => rw [hg] at hv; cases hv; exact pvB_ofOpt o
    simp only [findAttr, ha]
    split
    · cases member y name with
      | none => exact .nil
      | some s => exact .of_all2 (.cons rfl .nil)
    · split
      · refine self_b fun l hl v hv => ?_
        have : ∀ {ks : List Str} {l : List PV}, mapPy (getAttr1 (y :: up) (splitNs name).1) ks = .ok l → ∀ v ∈ l, PvB v v := by
          intro ks
          induction ks with
          | nil => intro l hl v hv; cases hl; cases hv
          | cons k ks ih =>
            intro l hl v hv
            unfold mapPy at hl
            obtain ⟨a, h1, hl⟩ := Srt.bind_ok' hl
            obtain ⟨b, h2, hl⟩ := Srt.bind_ok' hl
            cases hl
            rcases List.mem_cons.1 hv with rfl | hv
            · exact hofa _ _ _ h1
            · exact ih h2 v hv
        exact this hl v hv
      · refine self_b fun l hl v hv => ?_
        cases hg : getAttr1 (y :: up) (splitNs name).1 (splitNs name).2 with
        | error e => rw [hg] at hl; cases hl
        | ok o =>
          rw [hg] at hl
          cases hl
          simp only [List.mem_singleton] at hv
          subst hv
          exact hofa _ _ _ hg
  all_goals
    simp only [findAttr]
    split
    · exact .nil
    · trivial

mutual
theorem descObj_b : ∀ (z : Obj) (name : Str) {up up' : List Obj}, Below (z :: up) (z :: up') → Shuf PvB (descObj name up z) (descObj name up' z)
  | .mk d md kids, name, up, up', h => by
    rw [descObj, descObj]
    refine .append ?_ ?_
    · split
      · exact .of_all2 (.cons ⟨rfl, h⟩ .nil)
      · exact .nil
    · split
      · exact .nil
      · exact .append (descObjs_b md _ fun k hk => h.cons fun _ => .inr hk) (descObjs_b kids _ fun k hk => h.cons fun _ => .inl hk)
theorem descObjs_b : ∀ (l : List Obj) (name : Str) {up up' : List Obj}, (∀ k ∈ l, Below (k :: up) (k :: up')) → Shuf PvB (descObjs name up l) (descObjs name up' l)
  | [], name, up, up', h => by rw [descObjs, descObjs]; exact .nil
  | x :: xs, name, up, up', h => by
    rw [descObjs, descObjs]
    exact .append (descObj_b x name (h x (List.mem_cons_self ..))) (descObjs_b xs name fun k hk => h k (List.mem_cons_of_mem _ hk))
end

theorem descSelf_b {v v' : PV} (h : PvB v v') (name : Str) : GenS PvB (descSelf v name) (descSelf v' name) := by
  revert h
  rcases v with ⟨x, up⟩ | s | _ | l <;> rcases v' with ⟨y, up'⟩ | s' | _ | l' <;> intro h <;> try exact h.elim
  · obtain ⟨rfl, h⟩ := h
    exact descObj_b y name h
  · simp only [descSelf]
    split
    · exact Srt.genS_fail
    · trivial
  · simp only [descSelf]
    split
    · exact Srt.genS_fail
    · split
      · exact Shuf.of_all2 (.cons trivial .nil)
      · exact Shuf.nil
  · simp only [descSelf]
    split
    · exact Srt.genS_fail
    · trivial

/-! ### References -/

theorem pyGet_mem {α : Type} {l : List α} {i : Int} {t : α} (h : pyGet l i = .ok t) : t ∈ l := by
  unfold pyGet at h
  split at h
  · split at h
    · rename_i hx
      cases h
      exact List.mem_of_getElem? hx
    · cases h
  · cases h

theorem contGet_mem {l : List Obj} {i : Str} {t : Obj} (h : contGet l i = some t) : t ∈ l := by
  unfold contGet at h
  split at h
  · cases h
    exact List.mem_of_find?_eq_some (by assumption)
  · split at h
    · rename_i j _
      cases hp : pyGet l j with
      | error e => rw [hp] at h; cases h
      | ok a => rw [hp] at h; cases h; exact pyGet_mem hp
    · cases h

/-- as `Below`, without the class -/
def Below0 (l l' : List Obj) : Prop := ∃ pre g x y, l = pre ++ [g, x] ∧ l' = pre ++ [g, y] ∧ Whole g

theorem anyV_b (c : PCfg) {z : Obj} {up up' : List Obj} (h : Below0 (z :: up) (z :: up')) (i : Str) : PvB (anyV c z up i) (anyV c z up' i) := by
  obtain ⟨pre, g, x, y, h1, h2, hw⟩ := h
  unfold anyV
  cases hg : getAny { igt := z, itemdict := c.index z } i with
  | none => trivial
  | some e =>
    obtain ⟨t, o⟩ := e
    cases t with
    | some t => exact ⟨rfl, o :: t :: pre, g, x, y, by rw [h1]; rfl, by rw [h2]; rfl, hw, by intro t h; cases h⟩
    | none =>
      refine ⟨rfl, o :: pre, g, x, y, by rw [h1]; rfl, by rw [h2]; rfl, hw, fun t ht => ?_⟩
      simp only [List.cons.injEq] at ht
      obtain ⟨rfl, rfl⟩ := ht
      obtain ⟨rfl, -⟩ := List.cons.inj h1
      have hk : o ∈ z.kids := by
        unfold getAny at hg
        split at hg
        · rename_i hc; cases hg; exact contGet_mem hc
        · unfold igtGetItem at hg
          cases hd : Dict.get? (c.index z) (some i) with
          | none => simp [hd] at hg
          | some n => simp [hd, nodeEntry] at hg
      have := (Srt.wf_kid hw.wf hk).2
      rw [hw.cls] at this
      exact .inl (Option.some.inj this)

theorem findRefs_b (c : PCfg) (r : Bool) {z : Obj} {up up' : List Obj} (h : Below0 (z :: up) (z :: up')) (id : Option Str) (ras : Option (List Str)) :
    SameFound PvB (findRefs c r z up id ras) (findRefs c r z up' id ras) := by
  cases id with
  | none => trivial
  | some i =>
    unfold findRefs
    have key : ∀ d : Py (Dict Str (List Str)), SameFound PvB (d.bind fun d => .ok ((sortItems d).flatMap fun p => p.2.map (anyV c z up)))
        (d.bind fun d => .ok ((sortItems d).flatMap fun p => p.2.map (anyV c z up'))) := by
      intro d
      cases d with
      | error e => trivial
      | ok d => ?_
      refine Shuf.flatMap (R := Eq) (fun p q hpq => ?_) (.of_all2 (Srt.all2_self (fun _ => rfl) _))
      subst hpq
      refine Shuf.map (R := Eq) (fun a b hab => ?_) (.of_all2 (Srt.all2_self (fun _ => rfl) _))
      subst hab
      exact anyV_b c h a
    cases r with
    | true => exact key (referrers c.allowed { igt := z, itemdict := c.index z } i ras)
    | false => exact key (referents c.allowed { igt := z, itemdict := c.index z } i ras)

theorem refsOf_b (c : PCfg) (r : Bool) {v v' : PV} (h : PvB v v') (ras : Option (List Str)) : SameFound PvB (refsOf c r v ras) (refsOf c r v' ras) := by
  revert h
  rcases v with ⟨x, up⟩ | s | _ | l <;> rcases v' with ⟨y, up'⟩ | s' | _ | l' <;> intro h <;> try exact h.elim
  · obtain ⟨rfl, pre, g, a, b, h1, h2, hw, h3⟩ := h
    match pre, h1, h2, h3 with
    | [], h1, h2, _ =>
      obtain ⟨rfl, rfl⟩ := List.cons.inj h1
      obtain ⟨-, rfl⟩ := List.cons.inj h2
      simp only [refsOf, hw.cls]
      exact findRefs_b c r ⟨[], y, a, b, rfl, rfl, hw⟩ _ _
    | [t], h1, h2, h3 =>
      obtain ⟨rfl, rfl⟩ := List.cons.inj h1
      obtain ⟨-, rfl⟩ := List.cons.inj h2
      rcases h3 y rfl with hc | hc <;> simp only [refsOf, hc, List.nil_append]
      · exact findRefs_b c r ⟨[], g, a, b, rfl, rfl, hw⟩ _ _
      · trivial
    | [t, i], h1, h2, _ =>
      obtain ⟨rfl, rfl⟩ := List.cons.inj h1
      obtain ⟨-, rfl⟩ := List.cons.inj h2
      cases hc : y.cls <;> simp only [refsOf, hc, List.cons_append, List.nil_append] <;> first | trivial | skip
      · exact findRefs_b c r ⟨[y, i], g, a, b, rfl, rfl, hw⟩ _ _
      · exact findRefs_b c r ⟨[i], g, a, b, rfl, rfl, hw⟩ _ _
      · exact findRefs_b c r ⟨[], g, a, b, rfl, rfl, hw⟩ _ _
    | t :: i :: j :: pre, h1, h2, _ =>
      obtain ⟨rfl, rfl⟩ := List.cons.inj h1
      obtain ⟨-, rfl⟩ := List.cons.inj h2
      cases hc : y.cls <;> simp only [refsOf, hc, List.cons_append, List.nil_append] <;> first | trivial | skip
      · exact findRefs_b c r ⟨y :: i :: j :: pre, g, a, b, rfl, rfl, hw⟩ _ _
      · exact findRefs_b c r ⟨i :: j :: pre, g, a, b, rfl, rfl, hw⟩ _ _
      · exact findRefs_b c r ⟨j :: pre, g, a, b, rfl, rfl, hw⟩ _ _
  all_goals trivial

theorem function_b (c : PCfg) (f : Str) {v v' : PV} (h : PvB v v') (args : List Str) : SameFound PvB (function c v f args) (function c v' f args) := by
  unfold function
  by_cases h1 : f = lit! "text"
  · rw [if_pos h1, if_pos h1]
    revert h
    rcases v with ⟨x, up⟩ | s | _ | l <;> rcases v' with ⟨y, up'⟩ | s' | _ | l' <;> intro h <;> try exact h.elim
    · obtain ⟨rfl, h⟩ := h
      simp only
      split
      · exact .of_all2 (.cons (pvB_ofOpt _) .nil)
      · split
        · exact .of_all2 (.cons rfl .nil)
        · trivial
    all_goals trivial
  · rw [if_neg h1, if_neg h1]
    by_cases h2 : f = lit! "value"
    · rw [if_pos h2, if_pos h2]
      revert h
      rcases v with ⟨x, up⟩ | s | _ | l <;> rcases v' with ⟨y, up'⟩ | s' | _ | l' <;> intro h <;> try exact h.elim
      · obtain ⟨rfl, h⟩ := h
        simp only
        split
        · rename_i hi
          have hu : up'[1]? = up[1]? ∧ up'[0]? = up[0]? := by
            obtain ⟨pre, g, a, b, h1, h2, hw, h3⟩ := h
            match pre, h1, h2, h3 with
            | [], h1, h2, _ =>
              obtain ⟨rfl, rfl⟩ := List.cons.inj h1
              rw [hw.cls] at hi
              cases hi
            | [t], h1, h2, h3 =>
              obtain ⟨rfl, rfl⟩ := List.cons.inj h1
              rcases h3 y rfl with h | h <;> rw [h] at hi <;> cases hi
            | [t, i], h1, h2, _ =>
              obtain ⟨rfl, rfl⟩ := List.cons.inj h1
              obtain ⟨-, rfl⟩ := List.cons.inj h2
              exact ⟨rfl, rfl⟩
            | t :: i :: j :: pre, h1, h2, _ =>
              obtain ⟨rfl, rfl⟩ := List.cons.inj h1
              obtain ⟨-, rfl⟩ := List.cons.inj h2
              exact ⟨rfl, rfl⟩
          rw [hu.1, hu.2]
          cases value c.depth up[1]? up[0]? y with
          | error e => trivial
          | ok s => exact .of_all2 (.cons (pvB_ofOpt _) .nil)
        · trivial
      all_goals trivial
    · rw [if_neg h2, if_neg h2]
      exact refsOf_b c _ h _

/-! ### Paths -/

theorem pvB_isStr {v v' : PV} (h : PvB v v') (s : Str) : PV.isStr s v = PV.isStr s v' := by
  revert h
  rcases v with ⟨x, up⟩ | t | _ | l <;> rcases v' with ⟨y, up'⟩ | t' | _ | l' <;> intro h <;> try exact h.elim
  · rfl
  · cases (show t = t' from h); rfl
  · rfl
  · rfl

theorem pvB_sameBelow {v v' : PV} (h : PvB v v') : SameBelow v v' := by
  revert h
  rcases v with ⟨x, up⟩ | t | _ | l <;> rcases v' with ⟨y, up'⟩ | t' | _ | l' <;> intro h <;> try exact h
  obtain ⟨rfl, h⟩ := h
  refine ⟨rfl, ?_⟩
  have := h.drop
  obtain ⟨pre, g, a, b, h1, h2, -⟩ := h
  have e1 : up ≠ [] := by rintro rfl; have := congrArg List.length h1; simp at this
  have e2 : up' ≠ [] := by rintro rfl; have := congrArg List.length h2; simp at this
  rw [List.dropLast_cons_of_ne_nil e1, List.dropLast_cons_of_ne_nil e2] at this
  exact (List.cons.inj this).2

mutual
theorem denPath_b (c : PCfg) : ∀ (p : PPath) {v v' : PV}, inPath p = true → PvB v v' → GenS PvB (denPath c p v) (denPath c p v')
  | .rel s, v, v', hn, h => by
    rw [denPath, denPath]
    exact denSteps_b c s (by simpa [inPath] using hn) (Shuf.of_all2 (.cons h .nil))
  | .abs s, v, v', hn, h => by simp [inPath] at hn
  | .group a, v, v', hn, h => by
    rw [denPath, denPath]
    exact Srt.genS_ofPy (denAlts_b c a (by simpa [inPath] using hn) h)
theorem denSteps_b (c : PCfg) : ∀ (s : PSteps) {g g' : Gen}, inSteps s = true → GenS PvB g g' → GenS PvB (denSteps c s g) (denSteps c s g')
  | .last n ps, g, g', hn, h => by
    rw [denSteps, denSteps]
    simp only [inSteps, Bool.and_eq_true] at hn
    exact denPreds_b c ps hn.2 (denNode_b c n hn.1 h)
  | .more n ps r, g, g', hn, h => by
    rw [denSteps, denSteps]
    simp only [inSteps, Bool.and_eq_true] at hn
    exact denSteps_b c r hn.2.2 (denPreds_b c ps hn.2.1 (denNode_b c n hn.1 h))
theorem denNode_b (c : PCfg) : ∀ (n : PNode) {g g' : Gen}, inNode n = true → GenS PvB g g' → GenS PvB (denNode c n g) (denNode c n g')
  | .child n, g, g', hn, h => by
    rw [denNode, denNode]
    exact Srt.genS_bind (fun v v' hv => Srt.genS_ofPy (findChild_b hv n)) h
  | .desc n, g, g', hn, h => by
    rw [denNode, denNode]
    exact Srt.genS_bind (fun v v' hv => descSelf_b hv n) h
  | .attr n, g, g', hn, h => by
    rw [denNode, denNode]
    exact Srt.genS_bind (fun v v' hv => Srt.genS_ofPy (findAttr_b hv n)) h
  | .parent, g, g', hn, h => by simp [inNode] at hn
  | .self, g, g', hn, h => by
    rw [denNode, denNode]
    exact h
  | .fn f none, g, g', hn, h => by
    rw [denNode, denNode]
    exact Srt.genS_bind (fun v v' hv => Srt.genS_ofPy (function_b c f hv _)) h
  | .fn f (some a), g, g', hn, h => by
    rw [denNode, denNode]
    exact Srt.genS_bind (fun v v' hv => Srt.genS_ofPy (function_b c f hv _)) h
  | .alts a, g, g', hn, h => by
    rw [denNode, denNode]
    exact Srt.genS_force (fun v v' hv => denAlts_b c a (by simpa [inNode] using hn) hv) h
theorem denAlts_b (c : PCfg) : ∀ (a : PAlts) {v v' : PV}, inAlts a = true → PvB v v' → SameFound PvB (denAlts c a v) (denAlts c a v')
  | .one p, v, v', hn, h => by
    rw [denAlts, denAlts]
    exact denPath_b c p (by simpa [inAlts] using hn) h
  | .more p r, v, v', hn, h => by
    rw [denAlts, denAlts]
    simp only [inAlts, Bool.and_eq_true] at hn
    have h1 := denPath_b c p hn.1 h
    have h2 := denAlts_b c r hn.2 h
    simp only [GenS] at h1
    revert h1 h2
    cases (denPath c p v).toList <;> cases (denPath c p v').toList <;> intro h1
    · intro _; trivial
    · exact h1.elim
    · exact h1.elim
    · cases denAlts c r v <;> cases denAlts c r v' <;> intro h2
      · trivial
      · exact h2
      · exact h2
      · exact Shuf.append h1 h2
theorem denPreds_b (c : PCfg) : ∀ (ps : PPreds) {g g' : Gen}, inPreds ps = true → GenS PvB g g' → GenS PvB (denPreds c ps g) (denPreds c ps g')
  | .nil, g, g', hn, h => by
    rw [denPreds, denPreds]
    exact h
  | .eq p s r, g, g', hn, h => by
    rw [denPreds, denPreds]
    simp only [inPreds, Bool.and_eq_true] at hn
    refine denPreds_b c r hn.2 (Srt.genS_filter (fun v v' hv => ?_) h)
    have h1 := denPath_b c p hn.1 hv
    simp only [GenS] at h1
    revert h1
    cases (denPath c p v).toList <;> cases (denPath c p v').toList <;> intro h1 <;> try exact h1
    exact Shuf.any (R := PvB) (fun a b hab => pvB_isStr hab s) h1
  | .ne p s r, g, g', hn, h => by
    rw [denPreds, denPreds]
    simp only [inPreds, Bool.and_eq_true] at hn
    refine denPreds_b c r hn.2 (Srt.genS_filter (fun v v' hv => ?_) h)
    have h1 := denPath_b c p hn.1 hv
    simp only [GenS] at h1
    revert h1
    cases (denPath c p v).toList <;> cases (denPath c p v').toList <;> intro h1 <;> try exact h1
    exact Shuf.all (R := PvB) (fun a b hab => by rw [pvB_isStr hab s]) h1
  | .ex p r, g, g', hn, h => by
    rw [denPreds, denPreds]
    simp only [inPreds, Bool.and_eq_true] at hn
    refine denPreds_b c r hn.2 (Srt.genS_filter (fun v v' hv => ?_) h)
    cases (denPath c p v).toList <;> cases (denPath c p v').toList <;> trivial
end

/-! ### Corpora -/

/-- the first step of a path that leads from a corpus to IGTs, or to what is in them if the corpus has no metadata (`bare`) -/
def Into (bare : Prop) (n : PNode) : Prop :=
  n = .child (lit! "igt") ∨ (bare ∧ (n = .child (lit! "*") ∨ ∃ m, n = .desc m ∧ ':' ∉ m ∧ m ≠ lit! "xigtcorpus"))

/-- a path from a corpus into IGTs that stays there -/
def IntoIgts (bare : Prop) : PPath → Prop
  | .rel s => Into bare s.first ∧ inSteps s = true
  | .abs s => Into bare s.first ∧ inSteps s = true
  | .group _ => False

theorem all2_of_map {α β γ : Type} {R : α → γ → Prop} {f : β → γ} : ∀ {m : List α} {l : List β}, All2 R m (l.map f) → All2 (fun a b => R a (f b)) m l := by
  intro m l
  induction l generalizing m with
  | nil => intro h; cases h; exact .nil
  | cons b l ih => intro h; cases h with
    | cons h1 h2 => exact .cons h1 (ih h2)

theorem shuf_fst {α β : Type} {A B : List (α × β)} (h : (A.map Prod.fst).Perm (B.map Prod.fst)) : Shuf (fun a b => a.1 = b.1) A B := by
  have h1 : Shuf (fun (a : α × β) k => a.1 = k) A (A.map Prod.fst) := by
    refine .of_all2 ?_
    clear h
    induction A with
    | nil => exact .nil
    | cons a A ih => exact .cons rfl ih
  obtain ⟨m, p, q⟩ := h1.right h
  exact ⟨m, p, all2_of_map q⟩

def inIgts (f : Obj → Obj → List PV) (xs : List Obj) : List PV := xs.flatMap fun x => x.kids.flatMap fun k => f k x

theorem shuf_igts {f : Obj → Obj → List PV} (hf : ∀ g x y, Whole g → Shuf PvB (f g x) (f g y)) {xs ys : List Obj}
    (h : (xs.flatMap Obj.kids).Perm (ys.flatMap Obj.kids)) (hw : ∀ x ∈ xs, ∀ g ∈ x.kids, Whole g) : Shuf PvB (inIgts f xs) (inIgts f ys) := by
  let P := fun l : List Obj => l.flatMap fun x => x.kids.map fun k => (k, x)
  have hP : ∀ l, (P l).map Prod.fst = l.flatMap Obj.kids := fun l => by simp [P, List.map_flatMap, Function.comp_def]
  have hI : ∀ l, inIgts f l = (P l).flatMap fun p => f p.1 p.2 := fun l => by simp [P, inIgts, List.flatMap_assoc, List.flatMap_map]
  have hs : Shuf (fun a b => a.1 = b.1) (P xs) (P ys) := shuf_fst (by rw [hP, hP]; exact h)
  rw [hI, hI]
  refine hs.mem.flatMap fun a b hab => ?_
  obtain ⟨h1, h2, -⟩ := hab
  rw [← h1]
  refine hf _ _ _ ?_
  simp only [P, List.mem_flatMap, List.mem_map] at h2
  obtain ⟨x, hx, k, hk, rfl⟩ := h2
  exact hw x hx k hk

theorem select_all (m : Dict Str Str) (l : List Obj) : select (some m) l (crit none none) = .ok l := by
  unfold select
  rw [if_neg (by decide)]
  simp [crit]

theorem igtStep {x : Obj} (hc : x.cls = .corpus) : findChild (.node x []) (lit! "igt") = .ok (x.kids.map fun k => .node k [x]) := by
  unfold findChild
  simp only [splitNs_none (show ':' ∉ lit! "igt" by decide)]
  rw [if_neg (fun h => absurd h.1 (by decide)), if_pos (by rw [hc]; rfl), selectKids, select_all]
  rfl

theorem anyStep {x : Obj} (hc : x.cls = .corpus) (hm : x.md = []) : findChild (.node x []) (lit! "*") = .ok (x.kids.map fun k => .node k [x]) := by
  unfold findChild
  simp only [splitNs_none (show ':' ∉ lit! "*" by decide)]
  rw [if_pos ⟨trivial, by rw [hc]; decide⟩, selectKids, select_all, mdKids, hm]
  rfl

theorem descStep {x : Obj} (hc : x.cls = .corpus) (hm : x.md = []) {n : Str} (h1 : ':' ∉ n) (h2 : n ≠ lit! "xigtcorpus") :
    descSelf (.node x []) n = ⟨x.kids.flatMap fun k => descObj n [x] k, none⟩ := by
  have hk : ∀ l, descObjs n [x] l = l.flatMap fun k => descObj n [x] k := by
    intro l
    induction l with
    | nil => rw [descObjs]; rfl
    | cons k l ih => rw [descObjs, ih, List.flatMap_cons]
  have ho : objName x = some (lit! "xigtcorpus") := by unfold objName; rw [hc]
  obtain ⟨d, md, kids⟩ := x
  have hc' : d.cls = .corpus := hc
  cases (show md = [] from hm)
  unfold descSelf
  simp only [Gen.mk.injEq, and_true]
  rw [descObj, splitNs_none h1, ho, if_neg (fun h => h2 (Option.some.inj h.2).symm), if_neg (by rw [hc']; decide), hk, hk]
  rfl

/-- the first step in some corpora -/
theorem into_step (c : PCfg) {bare : Prop} {n : PNode} (hn : Into bare n) : ∃ f : Obj → Obj → List PV, (∀ g x y, Whole g → Shuf PvB (f g x) (f g y)) ∧
    ∀ xs : List Obj, (∀ x ∈ xs, x.cls = .corpus ∧ (bare → x.md = [])) → denNode c n ⟨xs.map fun x => .node x [], none⟩ = ⟨inIgts f xs, none⟩ := by
  have key : ∀ (F : PV → Gen) (f : Obj → Obj → List PV) (xs : List Obj), (∀ x ∈ xs, F (.node x []) = ⟨x.kids.flatMap fun k => f k x, none⟩) →
      Gen.bind ⟨xs.map fun x => .node x [], none⟩ F = ⟨inIgts f xs, none⟩ := by
    intro F f xs h
    have hall : ∀ v ∈ xs.map fun x => PV.node x [], (F v).err = none := by
      intro v hv
      obtain ⟨x, hx, rfl⟩ := List.mem_map.1 hv
      rw [h x hx]
    simp only [Gen.bind]
    have e1 := Srt.bindL_none.1.2 hall
    have e2 := Srt.bindL_none.2 hall
    have e3 : ((xs.map fun x => PV.node x []).flatMap fun v => (F v).vals) = inIgts f xs := by
      rw [List.flatMap_map]
      unfold inIgts
      clear e1 e2 hall
      induction xs with
      | nil => rfl
      | cons x xs ih => rw [List.flatMap_cons, List.flatMap_cons, h x (List.mem_cons_self ..), ih fun y hy => h y (List.mem_cons_of_mem _ hy)]
    rw [e3] at e2
    cases hg : Gen.bindL F none (xs.map fun x => PV.node x []) with
    | mk vs er => rw [hg] at e1 e2; cases e1; cases e2; rfl
  have hone : ∀ (x : Obj), (x.kids.flatMap fun k => [PV.node k [x]]) = x.kids.map fun k => PV.node k [x] := fun x => by
    rw [← List.map_eq_flatMap]
  have hf : ∀ g x y, Whole g → Shuf PvB [PV.node g [x]] [PV.node g [y]] := fun g x y h => .of_all2 (.cons ⟨rfl, .igt h⟩ .nil)
  rcases hn with rfl | ⟨hb, rfl | ⟨m, rfl, h1, h2⟩⟩
  · refine ⟨fun k x => [.node k [x]], hf, fun xs hx => ?_⟩
    rw [denNode]
    exact key _ _ _ fun x h => by rw [igtStep (hx x h).1, hone]; rfl
  · refine ⟨fun k x => [.node k [x]], hf, fun xs hx => ?_⟩
    rw [denNode]
    exact key _ _ _ fun x h => by rw [anyStep (hx x h).1 ((hx x h).2 hb), hone]; rfl
  · refine ⟨fun k x => descObj m [x] k, fun g x y h => descObj_b g m (.igt h), fun xs hx => ?_⟩
    rw [denNode]
    exact key _ _ _ fun x h => descStep (hx x h).1 ((hx x h).2 hb) h1 h2

theorem foundIn_ok {c : PCfg} {p : PPath} (hp : p.Ok) {s : PSteps} (hs : p = .rel s ∨ p = .abs s) {xs : List Obj} (hx : ∀ x ∈ xs, x.cls = .corpus) (l : List PV) :
    foundIn c p.render xs = .ok l ↔ (denSteps c s ⟨xs.map fun x => .node x [], none⟩).toList = .ok l := by
  have hden : ∀ x ∈ xs, XP.findall c (.node x []) p.render = (denSteps c s ⟨[.node x []], none⟩).toList := by
    intro x h
    rw [findall_render hp]
    rcases hs with rfl | rfl
    · rw [denPath]
    · rw [denPath]
      simp only [getCorpus, List.dropWhile_cons, hx x h, ne_eq, not_true_eq_false, decide_false, Bool.false_eq_true, if_false]
  have hmap : ∀ l : List Obj, (∀ x ∈ l, XP.findall c (.node x []) p.render = (denSteps c s ⟨[.node x []], none⟩).toList) →
      mapPy (fun x => XP.findall c (.node x []) p.render) l = mapPy (fun v => (denSteps c s ⟨[v], none⟩).toList) (l.map fun x => .node x []) := by
    intro l h
    induction l with
    | nil => rfl
    | cons x l ih => simp only [mapPy, List.map_cons, h x (List.mem_cons_self ..), ih fun y hy => h y (List.mem_cons_of_mem _ hy)]
  rw [lin_steps s, foundIn, hmap xs hden]
  constructor
  · intro h
    cases hm : mapPy (fun v => (denSteps c s ⟨[v], none⟩).toList) (xs.map fun x => .node x []) with
    | error e => rw [hm] at h; cases h
    | ok ls =>
      rw [hm] at h
      cases h
      exact ⟨rfl, forEach_mapPy hm⟩
  · rintro ⟨-, h⟩
    obtain ⟨ls, hm, rfl⟩ := mapPy_forEach h
    rw [hm]
    rfl

/-- **C148** (core) in corpora that together have the same IGTs -/
theorem found_perm (c : PCfg) {bare : Prop} {p : PPath} (hp : p.Ok) (hi : IntoIgts bare p) {xs ys : List Obj} (hx : ∀ x ∈ xs, x.cls = .corpus ∧ (bare → x.md = []))
    (hy : ∀ x ∈ ys, x.cls = .corpus ∧ (bare → x.md = [])) (hw : ∀ x ∈ xs, ∀ g ∈ x.kids, Whole g) (h : (xs.flatMap Obj.kids).Perm (ys.flatMap Obj.kids)) :
    SameFound SameBelow (foundIn c p.render xs) (foundIn c p.render ys) := by
  obtain ⟨s, hs, hin, hst⟩ : ∃ s, (p = .rel s ∨ p = .abs s) ∧ Into bare s.first ∧ inSteps s = true := by
    cases p with
    | rel s => exact ⟨s, .inl rfl, hi⟩
    | abs s => exact ⟨s, .inr rfl, hi⟩
    | group a => exact hi.elim
  have hd : GenS PvB (denSteps c s ⟨xs.map fun x => .node x [], none⟩) (denSteps c s ⟨ys.map fun x => .node x [], none⟩) := by
    obtain ⟨f, hf, hstep⟩ := into_step c hin
    have h0 : GenS PvB (denNode c s.first ⟨xs.map fun x => .node x [], none⟩) (denNode c s.first ⟨ys.map fun x => .node x [], none⟩) := by
      rw [hstep xs hx, hstep ys hy]
      exact shuf_igts hf h hw
    cases s with
    | last n ps =>
      rw [denSteps, denSteps]
      simp only [inSteps, Bool.and_eq_true] at hst
      exact denPreds_b c ps hst.2 h0
    | more n ps r =>
      rw [denSteps, denSteps]
      simp only [inSteps, Bool.and_eq_true] at hst
      exact denSteps_b c r hst.2.2 (denPreds_b c ps hst.2.1 h0)
  have k1 := foundIn_ok (c := c) hp hs (xs := xs) fun x h => (hx x h).1
  have k2 := foundIn_ok (c := c) hp hs (xs := ys) fun x h => (hy x h).1
  simp only [GenS] at hd
  revert hd k1 k2
  cases (denSteps c s ⟨xs.map fun x => .node x [], none⟩).toList <;> cases (denSteps c s ⟨ys.map fun x => .node x [], none⟩).toList <;> intro hd k1 k2
  · cases h1 : foundIn c p.render xs with
    | ok l => cases (k1 l).1 h1
    | error e =>
      cases h2 : foundIn c p.render ys with
      | ok l => cases (k2 l).1 h2
      | error e => trivial
  · exact hd.elim
  · exact hd.elim
  · rw [(k1 _).2 rfl, (k2 _).2 rfl]
    exact Shuf.mono (fun _ _ h => pvB_sameBelow h) hd

theorem mem_setD {α : Type} {d : Dict Str α} {k : Str} {v : α} {p : Str × α} (h : p ∈ Dict.set d k v) : p ∈ d ∨ p.2 = v := by
  induction d with
  | nil => simp [Dict.set] at h; exact .inr (by rw [h])
  | cons q d ih =>
    unfold Dict.set at h
    split at h
    · rcases List.mem_cons.1 h with rfl | h
      · exact .inr rfl
      · exact .inl (List.mem_cons_of_mem _ h)
    · rcases List.mem_cons.1 h with rfl | h
      · exact .inl (List.mem_cons_self ..)
      · rcases ih h with h | h
        · exact .inl (List.mem_cons_of_mem _ h)
        · exact .inr h

theorem writeAll_new {env : PEnv} : ∀ (idx : Idx) (out out' : Dict Str Obj), writeAll env idx out = .ok out' → (∀ p ∈ out, p.2.cls = .corpus ∧ p.2.md = []) →
    ∀ p ∈ out', p.2.cls = .corpus ∧ p.2.md = [] := by
  intro idx
  induction idx with
  | nil => intro out out' h ho; rw [writeAll] at h; cases h; exact ho
  | cons p idx ih =>
    intro out out' h ho
    rw [writeAll, write] at h
    obtain ⟨o1, h1, h⟩ := Srt.bind_ok' h
    obtain ⟨igts, -, h1⟩ := Srt.bind_ok' h1
    obtain ⟨_, -, h1⟩ := Srt.bind_ok' h1
    cases h1
    refine ih _ _ h fun q hq => ?_
    rcases mem_setD hq with hq | hq
    · exact ho q hq
    · rw [hq]; exact ⟨rfl, rfl⟩

/-- **C148** (partial: paths that lead into IGTs and stay there, in files with IGTs that have namespaces of their own, and keys with different file names)
A path finds in the files of a partition, taken together, what it finds in the files that were partitioned, each of them once: the same objects with what they
are in up to the IGT, and the same strings, in another order, or it raises an exception in both. -/
theorem C148_partial (env : PEnv) (infiles : List Str) (out : Dict Str Obj) (h : run env infiles = .ok out) :
    ∃ file, Readable env file infiles ∧
      ((∀ k k', Occurs env file infiles k → Occurs env file infiles k' → outName env k = outName env k' → k = k') →
        (∀ fn ∈ infiles, (file fn).root.cls = .corpus ∧ ∀ g ∈ (file fn).igts, Whole g) →
        ∀ (c : PCfg) (p : PPath), p.Ok → IntoIgts (∀ fn ∈ infiles, (file fn).root.md = []) p →
          SameFound SameBelow (foundIn c p.render ((firsts infiles).map fun fn => (file fn).corpus)) (foundIn c p.render (out.map Prod.snd))) := by
  obtain ⟨file, hr, h49⟩ := C49_partial env infiles out h
  refine ⟨file, hr, fun hinj hfile c p hp hi => ?_⟩
  have hnew : ∀ p ∈ out, p.2.cls = .corpus ∧ p.2.md = [] := by
    rw [run] at h
    obtain ⟨idx, -, h⟩ := Srt.bind_ok' h
    exact writeAll_new _ _ _ h (fun p hp => by cases hp)
  refine found_perm c hp hi ?_ ?_ ?_ ?_
  · intro x hx
    obtain ⟨fn, hfn, rfl⟩ := List.mem_map.1 hx
    exact ⟨(hfile fn (mem_firsts.1 hfn)).1, fun hb => hb fn (mem_firsts.1 hfn)⟩
  · intro x hx
    obtain ⟨q, hq, rfl⟩ := List.mem_map.1 hx
    exact ⟨(hnew q hq).1, fun _ => (hnew q hq).2⟩
  · intro x hx g hg
    obtain ⟨fn, hfn, rfl⟩ := List.mem_map.1 hx
    exact (hfile fn (mem_firsts.1 hfn)).2 g hg
  · rw [List.flatMap_map, List.flatMap_map]
    exact (h49 hinj).2.2.symm

end

/-! ### Examples and refutations -/

section
attribute [local instance] asciiUni

def nsIgt (i t : Str) (tiers : List Obj) : Obj := .mk { cls := .igt, id := some i, type := some t, nsmap := some [] } [] tiers
def exTier (i t : Str) : Obj := .mk { cls := .tier, id := some i, type := some t } [] []

theorem whole_nsIgt (i t : Str) (tiers : List (Str × Str)) : Whole (nsIgt i t (tiers.map fun p => exTier p.1 p.2)) := by
  refine ⟨.mk (by simp [Dict.WF, Dict.keys]) (fun _ => rfl) (by simp) (fun _ => rfl) (by simp) ?_ (by simp) ?_, rfl, by simp [nsIgt, Obj.data]⟩
  · intro x hx
    obtain ⟨p, -, rfl⟩ := List.mem_map.1 hx
    rfl
  · intro x hx
    obtain ⟨p, -, rfl⟩ := List.mem_map.1 hx
    exact .mk (by simp [Dict.WF, Dict.keys]) (fun _ => rfl) (by simp) (fun _ => rfl) (by simp) (by simp) (by simp) (by simp)

/-- a file with a corpus that has metadata, and IGTs with two keys -/
def mdFile : PFile := ⟨.mk { cls := .corpus, nsmap := some [] } [.mk { cls := .metadata } [] []] [], [
  nsIgt (lit! "i1") (lit! "a") [exTier (lit! "w") (lit! "words")], nsIgt (lit! "i2") (lit! "b") [exTier (lit! "w") (lit! "words")],
  nsIgt (lit! "i3") (lit! "a") [exTier (lit! "g") (lit! "glosses")]]⟩

/-- how much a path finds in the output files -/
def outCount (env : PEnv) (infiles : List Str) (path : Str) : Py Nat := do
  let out ← run env infiles
  (foundIn env.cfg path (out.map Prod.snd)).map List.length

/-- `igt/tier[@type="words"]` -/
def wordsPath : PPath := .rel (.more (.child (lit! "igt")) .nil (.last (.child (lit! "tier")) (.eq (.rel (.last (.attr (lit! "type")) .nil)) (lit! "words") .nil)))

example : wordsPath.render = lit! "igt/tier[@type=\"words\"]" := by decide

/-- a path into IGTs, that finds two tiers in one file, and in two files -/
example : IntoIgts False wordsPath ∧ ((foundIn (exEnv mdFile mdFile).cfg wordsPath.render [mdFile.corpus]).map List.length).toOption = some 2 ∧
    (outCount (exEnv mdFile mdFile) [lit! "1"] wordsPath.render).toOption = some 2 ∧ ∀ g ∈ mdFile.igts, Whole g := by
  refine ⟨⟨.inl rfl, rfl⟩, by decide +kernel, by decide +kernel, ?_⟩
  intro g hg
  simp only [mdFile, List.mem_cons, List.not_mem_nil, or_false] at hg
  rcases hg with rfl | rfl | rfl
  · exact whole_nsIgt _ _ [(_, _)]
  · exact whole_nsIgt _ _ [(_, _)]
  · exact whole_nsIgt _ _ [(_, _)]

/-- C148 does not hold for all paths: the metadata of the corpus gets lost, and so does all that is found by way of it -/
theorem C148_refuted : ∃ (env : PEnv) (fn : Str) (f : PFile) (out : Dict Str Obj) (path : Str), env.load fn = .ok f ∧ f.root.cls = .corpus ∧ (∀ g ∈ f.igts, Whole g) ∧
    run env [fn] = .ok out ∧ (out.flatMap fun p => p.2.kids).length = f.igts.length ∧
    (∃ v, foundIn env.cfg path [f.corpus] = .ok [v]) ∧ foundIn env.cfg path (out.map Prod.snd) = .ok [] := by
  have h1 : (outCount (exEnv mdFile mdFile) [lit! "1"] (lit! "metadata")).toOption = some 0 := by decide +kernel
  have h2 : ((run (exEnv mdFile mdFile) [lit! "1"]).map fun out => (out.flatMap fun p => p.2.kids).length).toOption = some 3 := by decide +kernel
  have h3 : ((foundIn (exEnv mdFile mdFile).cfg (lit! "metadata") [mdFile.corpus]).map List.length).toOption = some 1 := by decide +kernel
  unfold outCount at h1
  cases hr : run (exEnv mdFile mdFile) [lit! "1"] with
  | error e => rw [hr] at h2; cases h2
  | ok out =>
    rw [hr] at h1 h2
    refine ⟨exEnv mdFile mdFile, lit! "1", mdFile, out, lit! "metadata", rfl, rfl, ?_, hr, Option.some.inj h2, ?_, ?_⟩
    · intro g hg
      simp only [mdFile, List.mem_cons, List.not_mem_nil, or_false] at hg
      rcases hg with rfl | rfl | rfl
      · exact whole_nsIgt _ _ [(_, _)]
      · exact whole_nsIgt _ _ [(_, _)]
      · exact whole_nsIgt _ _ [(_, _)]
    · cases hf : foundIn (exEnv mdFile mdFile).cfg (lit! "metadata") [mdFile.corpus] with
      | error e => rw [hf] at h3; cases h3
      | ok l =>
        rw [hf] at h3
        match l, (Option.some.inj h3 : l.length = 1) with
        | [v], _ => exact ⟨v, rfl⟩
    · simp only [bind, Except.bind] at h1
      cases hf : foundIn (exEnv mdFile mdFile).cfg (lit! "metadata") (out.map Prod.snd) with
      | error e => rw [hf] at h1; cases h1
      | ok l =>
        rw [hf] at h1
        match l, (Option.some.inj h1 : l.length = 0) with
        | [], _ => rfl

end
end Xigt.Part
