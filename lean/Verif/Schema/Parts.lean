import Verif.Schema.Kept
import Verif.Files.Partition
import Verif.Scripts.PartitionPaths
/- C151: the files of a partition of valid documents are valid. -/

set_option linter.unusedSectionVars false

namespace Xigt.Rng
section
variable [Uni] [XmlLex] [Xsd]

/-- a text that the schema allows, that C100 speaks of, and that can be read -/
structure Sound (S : Grammar) (t : Str) : Prop where
  all : ∃ doc p, docText t = .ok doc ∧ readText t = .ok p ∧ Every Clean p ∧ Valid S doc ∧ DocClean doc ∧ InMd MdFirst doc ∧ DocUnique doc

/-- what a schema says of a corpus is what it says of each IGT, and something about the rest, which a corpus without metadata, identifier and attributes
fulfils -/
theorem igt_part {S : Grammar} (hS : Schema S) : ∃ F : Obj → Prop, ∀ eff d md kids, XNode eff .corpus d md kids → ∀ doc, Distinct doc → Wrote (.mk d md kids) doc →
    (Valid S doc → ∀ k ∈ kids, F k) ∧ (d.id = none → d.attrs = [] → md = [] → (∀ k ∈ kids, F k) → Valid S doc) := by
  cases hS with
  | struct =>
    refine ⟨IgtFits, fun eff d md kids n doc hd w => ?_⟩
    rw [core_structure n hd w]
    exact ⟨fun h => h.2.2.2, fun h1 h2 h3 h => ⟨fun i hi => (by rw [show (Obj.mk d md kids).data = d from rfl, h1] at hi; cases hi), h2, by subst h3; simp [Obj.md], h⟩⟩
  | xigt =>
    refine ⟨IgtFitsX, fun eff d md kids n doc hd w => ?_⟩
    rw [core_xigt n w]
    exact ⟨fun h => h.2.2.2, fun h1 h2 h3 h => ⟨fun i hi => (by rw [show (Obj.mk d md kids).data = d from rfl, h1] at hi; cases hi),
      by rw [show (Obj.mk d md kids).data = d from rfl, h2]; simp [OnlyBase], by subst h3; simp [Obj.md], h⟩⟩
  | default =>
    refine ⟨IgtFitsD, fun eff d md kids n doc hd w => ?_⟩
    rw [core_default n w]
    exact ⟨fun h => h.2.2.2, fun h1 h2 h3 h => ⟨fun i hi => (by rw [show (Obj.mk d md kids).data = d from rfl, h1] at hi; cases hi),
      by rw [show (Obj.mk d md kids).data = d from rfl, h2]; simp [OnlyBase], by subst h3; simp [Obj.md], h⟩⟩
  | abkhaz =>
    refine ⟨IgtFitsA, fun eff d md kids n doc hd w => ?_⟩
    rw [core_abkhaz n w]
    exact ⟨fun h => h.2.2.2, fun h1 h2 h3 h => ⟨fun i hi => (by rw [show (Obj.mk d md kids).data = d from rfl, h1] at hi; cases hi),
      by rw [show (Obj.mk d md kids).data = d from rfl, h2]; simp [OnlyBase], by subst h3; simp [Obj.md], h⟩⟩
  | syn =>
    refine ⟨IgtFitsE SynTier, fun eff d md kids n doc hd w => ?_⟩
    rw [core_syntax n w]
    exact ⟨fun h => h.2.2.2, fun h1 h2 h3 h => ⟨fun i hi => (by rw [show (Obj.mk d md kids).data = d from rfl, h1] at hi; cases hi),
      by rw [show (Obj.mk d md kids).data = d from rfl, h2]; simp [OnlyBase], by subst h3; simp [Obj.md], h⟩⟩
  | dep =>
    refine ⟨IgtFitsE DepTier, fun eff d md kids n doc hd w => ?_⟩
    rw [core_dependencies n w]
    exact ⟨fun h => h.2.2.2, fun h1 h2 h3 h => ⟨fun i hi => (by rw [show (Obj.mk d md kids).data = d from rfl, h1] at hi; cases hi),
      by rw [show (Obj.mk d md kids).data = d from rfl, h2]; simp [OnlyBase], by subst h3; simp [Obj.md], h⟩⟩
  | odin dt =>
    refine ⟨IgtFitsO dt, fun eff d md kids n doc hd w => ?_⟩
    rw [core_odin n w]
    exact ⟨fun h => h.2.2.2, fun h1 h2 h3 h => ⟨fun i hi => (by rw [show (Obj.mk d md kids).data = d from rfl, h1] at hi; cases hi),
      by rw [show (Obj.mk d md kids).data = d from rfl, h2]; simp [OnlyBase], by subst h3; simp [Obj.md], h⟩⟩

/-! ### The IGTs -/

/-- an IGT with its namespaces, which can be written anywhere -/
structure Movable (x : Obj) : Prop where
  cls : x.cls = .igt
  wf : x.WF
  valid : x.Valid
  own : ∃ m, x.data.nsmap = some m ∧ m.WF ∧ ∀ p u, (p, u) ∈ m → PrefixOK p ∧ UriOK u
  kept : ∀ sc, XmlKept sc x
  names : ∀ sc, NamesOK sc x

omit [Xsd] in
theorem stable_movable {sc : Dict Str Str} {x : Obj} (h : Stable sc x) (hx : x.cls = .igt) : Movable x := by
  obtain ⟨a1, a2, a3, a4, -⟩ := stable_spec x sc h
  cases h with
  | @mk _ sc' d md kids _ hwf _ hns hd _ _ _ _ _ _ _ _ _ _ _ _ _ =>
    have e : ∀ eff : Dict Str Str, d.nsmap.getD eff = sc' := fun eff => by rw [hns]; rfl
    refine ⟨hx, a1, a2, ⟨sc', hns, hwf, hd.decls sc' hns⟩, fun eff => ?_, fun eff => ?_⟩
    · cases a3 with
      | mk k1 k2 k3 =>
        rw [e] at k1 k2 k3
        exact .mk (by rw [e]; exact k1) (by rw [e]; exact k2) (by rw [e]; exact k3)
    · cases a4 with
      | mk k1 k2 k3 =>
        rw [e] at k1 k2 k3
        exact .mk (by rw [e]; exact k1) (by rw [e]; exact k2) (by rw [e]; exact k3)

omit [Xsd] in
theorem new_movable {igts : List Obj} (hm : ∀ x ∈ igts, Movable x) (hu : UniqueIds igts) :
    (Part.newCorpus igts).WF ∧ (Part.newCorpus igts).Valid ∧ XmlKept [] (Part.newCorpus igts) ∧ NamesOK [] (Part.newCorpus igts) := by
  have hns : ∀ m, (igts.head?.map fun x => x.data.nsmap.getD []) = some m → m.WF ∧ ∀ p u, (p, u) ∈ m → PrefixOK p ∧ UriOK u := by
    intro m h
    cases igts with
    | nil => cases h
    | cons x xs =>
      obtain ⟨own, e, h1, h2⟩ := (hm x (by simp)).own
      simp only [List.head?_cons, Option.map_some, Option.some.injEq, e, Option.getD_some] at h
      subst h
      exact ⟨h1, h2⟩
  refine ⟨.mk (by simp [Dict.WF, Dict.keys]) (by simp) (by simp) (by simp) (by simp) (fun x hx => by rw [(hm x hx).cls]; rfl) (by simp) fun x hx => (hm x hx).wf,
    .mk (by simp) (by simp) (by simp) hu (fun m h => (hns m h).1) (by simp) fun x hx => (hm x hx).valid,
    .mk ⟨fun own h => (hns own h).2, by simp, by simp, by simp, by simp, by simp, by simp, by simp, by simp, by simp⟩ (by simp) fun x hx => (hm x hx).kept _,
    .mk (by simp) (by simp) fun x hx => (hm x hx).names _⟩

theorem loaded_igts {S : Grammar} (hS : Schema S) {F : Obj → Prop} (hF : ∀ eff d md kids, XNode eff .corpus d md kids → ∀ doc, Distinct doc → Wrote (.mk d md kids) doc →
    (Valid S doc → ∀ k ∈ kids, F k)) {t : Str} (ht : Sound S t) {look : Nat → Nat} {f : Part.PFile} (hf : Files.pfile look t = .ok f) : ∀ k ∈ f.igts, Movable k ∧ F k := by
  obtain ⟨doc, p, hs, hp, hcl, hv, hc, hfi, hu⟩ := ht.all
  have hv' := outline hS (docText_distinct hs) hv
  have hc' := docRd hc hfi
  obtain ⟨x, hx, hi⟩ := (shape_reads t doc hs hv' hc' look).1 hu
  have hk : f.igts = x.kids := by
    simp only [loadsXml, loadXml, hp, bind, Except.bind] at hx
    simp only [Files.pfile, hp, bind, Except.bind] at hf
    cases ho : openXml look p with
    | error e => rw [ho] at hf; cases hf
    | ok o =>
      rw [ho] at hf hx
      simp only at hf hx
      cases hd : drain o.igts with
      | error e => rw [hd] at hf; cases hf
      | ok ks =>
        rw [hd] at hf hx
        cases hf
        rw [(construct_inv' hx).1]
        rfl
  obtain ⟨q, hq, rp⟩ := docText_read hs
  rw [hp] at hq
  cases hq
  have hty : Dict.get? p.attrs (lit! "type") = none := by rw [rp.tag.2.1]; exact lacks_get hc'.1
  obtain ⟨c1, c2⟩ := loaded_stable hp (layout rp hv' hc') hcl hty hx
  obtain ⟨m, re, wm, -⟩ := corpus_again rp hv' hc' c2 hi
  obtain ⟨a1, a2, a3, -⟩ := stable_spec x [] c2
  have nx := XNode.of c1 a1 a2 a3
  rw [hk]
  obtain ⟨d, md, kids⟩ := x
  have hFk := hF _ _ _ _ nx m (Re.distinct _ _ re (docText_distinct hs)) wm ((re.valid).1 hv)
  intro k hk
  obtain ⟨sc, hsc⟩ := (Stable.kid c2).2.1 k hk
  have hcls : k.cls = .igt := by
    cases c2 with
    | mk _ _ _ _ _ _ _ _ _ _ hkc _ _ _ _ _ _ _ =>
      have := hkc k hk
      rw [show d.cls = .corpus from c1] at this
      exact Option.some.inj this
  exact ⟨stable_movable hsc hcls, hFk k hk⟩

/-! ### The files -/

omit [XmlLex] [Xsd] in
theorem corpusExtend_unique : ∀ (xs held h' : List Obj), UniqueIds held → corpusExtend held xs = .ok h' → UniqueIds h' := by
  intro xs
  induction xs with
  | nil => intro held h' hu h; rw [corpusExtend] at h; cases h; exact hu
  | cons x xs ih =>
    intro held h' hu h
    rw [corpusExtend, corpusAppend] at h
    by_cases hc : x.data.id ≠ none ∧ x.data.id ∈ held.map (fun y => y.data.id)
    · rw [if_pos hc] at h; cases h
    · rw [if_neg hc] at h
      refine ih _ _ ?_ h
      rw [UniqueIds, List.filterMap_append, List.nodup_append]
      refine ⟨hu, ?_, fun i hi j hj e => ?_⟩
      · simp only [List.filterMap_cons, List.filterMap_nil]
        cases x.data.id <;> simp
      · subst e
        simp only [List.filterMap_cons, List.filterMap_nil] at hj
        cases hx : x.data.id with
        | none => rw [hx] at hj; cases hj
        | some v =>
          rw [hx] at hj
          simp only [List.mem_singleton] at hj
          subst hj
          obtain ⟨y, hy, e⟩ := List.mem_filterMap.1 hi
          exact hc ⟨by rw [hx]; simp, List.mem_map.2 ⟨y, hy, by rw [e, hx]⟩⟩

omit [XmlLex] [Xsd] in
theorem collect_unique {env : Part.PEnv} : ∀ (d : Dict Str (List Nat)) (held h' : List Obj), UniqueIds held → Part.collect env d held = .ok h' → UniqueIds h' := by
  intro d
  induction d with
  | nil => intro held h' hu h; rw [Part.collect] at h; cases h; exact hu
  | cons p d ih =>
    obtain ⟨fn, s⟩ := p
    intro held h' hu h
    rw [Part.collect] at h
    obtain ⟨f, -, h⟩ := Srt.bind_ok' h
    obtain ⟨h1, g, h⟩ := Srt.bind_ok' h
    exact ih _ _ (corpusExtend_unique _ _ _ hu g) h

omit [XmlLex] [Xsd] in
theorem writeAll_from {env : Part.PEnv} {P : List Obj → Prop} : ∀ (idx : Part.Idx) (out out' : Dict Str Obj), Part.writeAll env idx out = .ok out' →
    (∀ q ∈ idx, ∀ igts, Part.collect env q.2 [] = .ok igts → P igts) → (∀ q ∈ out, ∃ igts, P igts ∧ q.2 = Part.newCorpus igts) →
    ∀ q ∈ out', ∃ igts, P igts ∧ q.2 = Part.newCorpus igts := by
  intro idx
  induction idx with
  | nil => intro out out' h _ ho; rw [Part.writeAll] at h; cases h; exact ho
  | cons p idx ih =>
    intro out out' h hP ho
    rw [Part.writeAll, Part.write] at h
    obtain ⟨o1, h1, h⟩ := Srt.bind_ok' h
    obtain ⟨igts, hc, h1⟩ := Srt.bind_ok' h1
    obtain ⟨_, -, h1⟩ := Srt.bind_ok' h1
    cases h1
    refine ih _ _ h (fun q hq => hP q (by simp [hq])) fun q hq => ?_
    rcases Part.mem_setD hq with hq | hq
    · exact ho q hq
    · rw [hq]; exact ⟨igts, hP p (by simp) igts hc, rfl⟩

omit [XmlLex] [Xsd] in
/-- every file of a partition is a new corpus with some of the IGTs of the files that were partitioned, with different identifiers -/
theorem run_from {env : Part.PEnv} {infiles : List Str} {out : Dict Str Obj} (h : Part.run env infiles = .ok out) :
    ∀ q ∈ out, ∃ igts, q.2 = Part.newCorpus igts ∧ UniqueIds igts ∧ ∀ x ∈ igts, ∃ fn ∈ infiles, ∃ f, env.load fn = .ok f ∧ x ∈ f.igts := by
  rw [Part.run] at h
  obtain ⟨idx, hi, h⟩ := Srt.bind_ok' h
  obtain ⟨es, h1, h2⟩ := Part.indexAll_ok _ _ _ _ Part.Inv.nil hi
  rw [List.nil_append] at h2
  have hr := h1.readable
  have hP : ∀ p ∈ idx, ∀ igts, Part.collect env p.2 [] = .ok igts → UniqueIds igts ∧ ∀ x ∈ igts, ∃ fn ∈ infiles, ∃ f, env.load fn = .ok f ∧ x ∈ f.igts := by
    intro p hp igts hc
    refine ⟨collect_unique _ _ _ (by simp [UniqueIds]) hc, fun x hx => ?_⟩
    have hwf : idx.WF := by rw [Dict.WF, h2.keys]; exact Part.nodup_firsts _
    have e := Part.picked h1 h2 (Dict.get?_of_mem hwf hp)
    rw [Part.collect_ok _ _ _ hc, List.nil_append, e] at hx
    obtain ⟨fn, hfn, hx⟩ := List.mem_flatMap.1 hx
    have hfn := Part.mem_firsts.1 hfn
    exact ⟨fn, hfn, _, hr.load fn hfn, (List.mem_filter.1 hx).1⟩
  intro q hq
  obtain ⟨igts, ⟨g1, g2⟩, g3⟩ := writeAll_from idx [] out h hP (by simp) q hq
  exact ⟨igts, g3, g1, g2⟩

/-! ### C151 -/

/-- **C151** (for the documents of C100 without default namespaces).  If all of the files that are partitioned are valid against a
schema, so is every one that the partition writes, and it can be read again. -/
theorem C151_run_partial (S : Grammar) (hS : Schema S) (a : Files.PArgs) (fs : Files.FS) (infiles : List Str)
    (hin : ∀ fn ∈ infiles, ∀ t, Files.contents fs fn = some t → Sound S t) (out : Dict Str Obj)
    (h : Part.run (a.env (Files.asRead a fs)) infiles = .ok out) (ind : Option Int) :
    ∀ q ∈ out, ∃ s doc, dumpsXml ind q.2 = .ok s ∧ docText s = .ok doc ∧ Valid S doc ∧ ∀ look, ∃ y, loadsXml look s = .ok y ∧ SameData y q.2 := by
  obtain ⟨F, hF⟩ := igt_part hS
  intro q hq
  obtain ⟨igts, e, hu, hfrom⟩ := run_from h q hq
  have hm : ∀ x ∈ igts, Movable x ∧ F x := by
    intro x hx
    obtain ⟨fn, hfn, f, hf, hxf⟩ := hfrom x hx
    change Files.asRead a fs fn = .ok f at hf
    rw [Files.asRead] at hf
    cases hc : Files.contents fs fn with
    | none => rw [hc] at hf; cases hf
    | some t =>
      rw [hc] at hf
      exact loaded_igts hS (fun eff d md kids n doc hd w => (hF eff d md kids n doc hd w).1) (hin fn hfn t hc) hf x hxf
  obtain ⟨w1, w2, w3, w4⟩ := new_movable (fun x hx => (hm x hx).1) hu
  rw [← e] at w1 w2 w3 w4
  have hcls : q.2.cls = .corpus := by rw [e]; rfl
  obtain ⟨s, doc, s1, s2, s3, s4⟩ := wrote_corpus q.2 hcls w1 w2 w3 ind
  refine ⟨s, doc, s1, s2, ?_, fun look => ?_⟩
  · have n := XNode.of hcls w1 w2 w3
    rw [e] at s4 n
    exact (hF _ _ _ _ n doc s3 s4).2 rfl rfl rfl fun x hx => (hm x hx).2
  · obtain ⟨s', y, g1, g2, g3, -⟩ := C90_partial q.2 hcls w1 w2 w3 w4 look ind
    rw [s1] at g1
    cases g1
    exact ⟨y, g2, g3⟩

/-- **C151** (for such documents, and keys without `/`, see `C107_refuted`): so in the file system, after `xigt partition` into a new directory. -/
theorem C151_partial (S : Grammar) (hS : Schema S) (a : Files.PArgs) (infiles : List Str) (fs fs' : Files.FS) (hok : fs.OK) (dout : Files.Path)
    (ho : Files.resolve fs a.outdir = some dout) (hnd : dout ∉ fs.dirs) (hne : dout ≠ []) (hpar : dout.dropLast ∈ fs.dirs) (hnf : Dict.get? fs.files dout = none)
    (hk : Files.PlainKeys a (Files.prepared fs dout) infiles) (hin : ∀ fn ∈ infiles, ∀ t, Files.contents (Files.prepared fs dout) fn = some t → Sound S t)
    (h : Files.partition a infiles fs = (.ok (), fs')) : ∀ n t, Dict.get? fs'.files (dout ++ [n]) = some t →
      ∃ doc, docText t = .ok doc ∧ Valid S doc ∧ ∀ look, ∃ y, loadsXml look t = .ok y := by
  obtain ⟨r, fs1, h1, -, -, h2⟩ := Files.C107_partial a infiles fs hok dout ho hnd hne hpar hnf hk
  rw [h] at h1
  cases h1
  cases hr : Part.run (a.env (Files.asRead a (Files.prepared fs dout))) infiles with
  | error e => rw [hr] at h2; obtain ⟨_, h2⟩ := h2; cases h2
  | ok out =>
    rw [hr] at h2
    obtain ⟨-, g1, g2⟩ := h2
    intro n t ht
    obtain ⟨c, hc, e⟩ := g2 n t ht
    obtain ⟨s, doc, s1, s2, s3, s4⟩ := C151_run_partial S hS a _ infiles hin out hr (some 2) _ (Dict.get?_mem hc)
    rw [e] at s1
    cases s1
    exact ⟨doc, s2, s3, fun look => by obtain ⟨y, hy, -⟩ := s4 look; exact ⟨y, hy⟩⟩

end

section
attribute [local instance] asciiUni asciiXml asciiXsd

theorem good_sound : Sound structure_rnc goodText := by
  obtain ⟨p, hp, hb⟩ := ok_of_B (r := readText goodText) (f := everyB cleanB) (by decide +kernel)
  exact ⟨goodDoc, p, good_text, hp, clean_of_B hb, good_valid, good_clean, good_first, good_unique⟩

def goodFs : Files.FS where
  files := [([lit! "in.xml"], goodText)]
  dirs := [[]]
  cwd := []

def byId : Files.PArgs := ⟨⟨100, fun _ => [], fun _ => []⟩, lit! "@id", lit! "---", lit! "out", id⟩

/-- the hypotheses are met: one file, with the IGT, for the document of C100 -/
example (ind : Option Int) : ∃ out y s doc, Part.run (byId.env (Files.asRead byId goodFs)) [lit! "in.xml"] = .ok out ∧ Dict.get? out (lit! "out/i1.xml") = some y ∧
    y.kids.length = 1 ∧ dumpsXml ind y = .ok s ∧ docText s = .ok doc ∧ Valid structure_rnc doc := by
  obtain ⟨out, h, g⟩ := ok_of_B (r := Part.run (byId.env (Files.asRead byId goodFs)) [lit! "in.xml"])
    (f := fun out => (Dict.get? out (lit! "out/i1.xml")).any fun y : Obj => decide (y.kids.length = 1)) (by decide +kernel)
  cases hy : Dict.get? out (lit! "out/i1.xml") with
  | none => rw [hy] at g; cases g
  | some y =>
    rw [hy] at g
    obtain ⟨s, doc, h1, h2, h3, -⟩ := C151_run_partial _ .struct byId goodFs [lit! "in.xml"] (fun fn hfn t ht => by
      cases List.mem_singleton.1 hfn
      have : t = goodText := by
        have e : Files.contents goodFs (lit! "in.xml") = some goodText := rfl
        rw [e] at ht
        cases ht
        rfl
      exact this ▸ good_sound) out h ind _ (Dict.get?_mem hy)
    exact ⟨out, y, s, doc, h, hy, of_decide_eq_true g, h1, h2, h3⟩

theorem good_fs : goodFs.OK := by
  refine ⟨fun p h c hc => ?_, fun p h => ?_, fun p n h => ?_⟩
  · rcases h with h | h
    · rw [ne_eq, Dict.get?_eq_none_iff, Classical.not_not] at h
      have : p = [lit! "in.xml"] := by simpa [goodFs, Dict.keys] using h
      subst this
      have : c = lit! "in.xml" := by simpa using hc
      subst this
      constructor <;> decide
    · have : p = [] := by simpa [goodFs] using h
      subst this; cases hc
  · have : p = [] := by simpa [goodFs] using h
    subst this; rfl
  · rcases h with h | h
    · rw [ne_eq, Dict.get?_eq_none_iff, Classical.not_not] at h
      have h : p ++ [n] = [lit! "in.xml"] := by simpa [goodFs, Dict.keys] using h
      cases p with
      | nil => exact List.mem_singleton.2 rfl
      | cons c p => simp at h
    · simp [goodFs] at h

/-- and those of `C151_partial` -/
example : ∃ fs' t doc, Files.partition byId [lit! "in.xml"] goodFs = (.ok (), fs') ∧ Dict.get? fs'.files ([lit! "out"] ++ [lit! "i1.xml"]) = some t ∧
    docText t = .ok doc ∧ Valid structure_rnc doc := by
  have h1 : (Files.partition byId [lit! "in.xml"] goodFs).1 = .ok () := by decide +kernel
  have h2 : Files.partition byId [lit! "in.xml"] goodFs = (.ok (), (Files.partition byId [lit! "in.xml"] goodFs).2) := by rw [← h1]
  cases ht : Dict.get? (Files.partition byId [lit! "in.xml"] goodFs).2.files ([lit! "out"] ++ [lit! "i1.xml"]) with
  | none => exact absurd ht (by decide +kernel)
  | some t =>
    have he : ∀ fn ∈ [lit! "in.xml"], Files.contents (Files.prepared goodFs [lit! "out"]) fn = some goodText := by
      intro fn hfn
      cases List.mem_singleton.1 hfn
      rfl
    obtain ⟨doc, g1, g2, -⟩ := C151_partial _ .struct byId [lit! "in.xml"] goodFs _ good_fs [lit! "out"] (by decide) (by decide) (by decide) (by decide) (by decide +kernel)
      ⟨by decide, fun fn hfn f hf x hx k hk => by
        cases List.mem_singleton.1 hfn
        obtain ⟨f', h, g⟩ := ok_of_B (r := Files.asRead byId (Files.prepared goodFs [lit! "out"]) (lit! "in.xml"))
          (f := fun f : Part.PFile => f.igts.all fun x => okWith (Part.keyOf byId.bare f x) fun k => decide ('/' ∉ k.getD [])) (by decide +kernel)
        rw [hf] at h
        cases h
        obtain ⟨k', h', g'⟩ := ok_of_B (List.all_eq_true.1 g x hx)
        rw [hk] at h'
        cases h'
        exact of_decide_eq_true g'⟩
      (fun fn hfn t ht => by rw [he fn hfn] at ht; cases ht; exact good_sound)
      h2 (lit! "i1.xml") t ht
    exact ⟨_, t, doc, h2, ht, g1, g2⟩

/-- what the partition does in the file system: the metadata of the corpus is gone -/
example : (Files.partition byId [lit! "in.xml"] goodFs).1 = .ok () ∧ (Files.partition byId [lit! "in.xml"] goodFs).2.files =
    [([lit! "in.xml"], goodText), ([lit! "out", lit! "i1.xml"],
      lit! "<xigt-corpus>\n  <igt id=\"i1\">\n    <tier id=\"w\" type=\"words\">\n      <item id=\"w1\">a</item>\n      <item id=\"w2\" alignment=\"p\" />\n    </tier>\n  </igt>\n</xigt-corpus>\n")] := by
  decide +kernel

def wrongRoot : Str := lit! "<xigt-corpus a=\"b\"><igt id=\"i\" /></xigt-corpus>"
def wrongFs : Files.FS where
  files := [([lit! "in.xml"], wrongRoot)]
  dirs := [[]]
  cwd := []

/-- **C151** the other way round is false: what is wrong with a corpus itself is gone from the files of the partition, which are valid. -/
theorem C151_refuted : ∃ doc t doc', docText wrongRoot = .ok doc ∧ ¬ Valid structure_rnc doc ∧ (Files.partition byId [lit! "in.xml"] wrongFs).1 = .ok () ∧
    Dict.get? (Files.partition byId [lit! "in.xml"] wrongFs).2.files [lit! "out", lit! "i.xml"] = some t ∧ docText t = .ok doc' ∧ Valid structure_rnc doc' := by
  have hd : docText wrongRoot = .ok (root [(lit! "a", lit! "b")] [igtN (lit! "i")]) := by rfl
  have h2 : docText (lit! "<xigt-corpus>\n  <igt id=\"i\" />\n</xigt-corpus>\n") = .ok (root [] [.text (lit! "\n  "), igtN (lit! "i"), .text (lit! "\n")]) := by rfl
  refine ⟨_, _, _, hd, fun hv => ?_, by decide +kernel, by decide +kernel, h2, ?_⟩
  · have := ((valid_iff (docText_distinct hd)).1 hv).2.2.1
    simp at this
  · refine (valid_iff (docText_distinct h2)).2 ⟨rfl, by simp [OptIdAttr], by simp, ?_, [], [igtN (lit! "i")], rfl, by simp, fun n hn => ?_⟩
    · intro s hs
      simp [igtN] at hs
      rcases hs with rfl | rfl
      · exact isWs_iff.1 rfl
      · exact isWs_iff.1 rfl
    · cases List.mem_singleton.1 hn
      exact valid_igt 'i' [] (by decide) (by simp)

end
end Xigt.Rng
