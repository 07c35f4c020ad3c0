import Verif.Schema.Parts
import Verif.Scripts.ValidateSort
/- C160: what the validator finds in the files of a partition. -/

set_option linter.unusedSectionVars false

namespace Xigt.Vld
open Xigt.Part (PEnv PFile firsts Readable Occurs outName)

/-- a file that is partitioned, as the validator sees it -/
def seenAs (f : PFile) : Opened := ⟨f.root, f.igts.map .ok⟩

section
variable [Uni]

/-! ### Lemmas -/

theorem extend_nil (r : Report) : extend [] r = r := by cases r <;> simp [extend]

theorem igts_unique {depth : Nat} : ∀ (xs : List Obj) (seen : List Str), (∀ x ∈ xs, ∀ s, x.data.id = some s → s ∉ seen) → UniqueIds xs →
    validateIgts depth (xs.map .ok) seen = mapPy (validateIgt depth) xs := by
  intro xs
  induction xs with
  | nil => intro seen _ _; rfl
  | cons x xs ih =>
    intro seen hs hu
    have hu' : UniqueIds xs := by
      unfold UniqueIds at hu ⊢
      rw [List.filterMap_cons] at hu
      cases hx : x.data.id with
      | none => rw [hx] at hu; exact hu
      | some i => rw [hx] at hu; exact (List.nodup_cons.1 hu).2
    have hc : idIsUnique seen x = none := by
      unfold idIsUnique
      cases hx : x.data.id with
      | none => rfl
      | some i => exact if_neg fun h => hs x (by simp) i hx h.2
    have hs' : ∀ y ∈ xs, ∀ s, y.data.id = some s → s ∉ addId seen x := by
      intro y hy s hsy
      rw [addId_eq]
      intro hm
      rcases List.mem_append.1 hm with hm | hm
      · exact hs y (by simp [hy]) s hsy hm
      · cases hx : x.data.id with
        | none => rw [hx] at hm; cases hm
        | some i =>
          rw [hx] at hm
          cases List.mem_singleton.1 hm
          unfold UniqueIds at hu
          rw [List.filterMap_cons, hx] at hu
          exact (List.nodup_cons.1 hu).1 (List.mem_filterMap.2 ⟨y, hy, hsy⟩)
    rw [List.map_cons, validateIgts, mapPy]
    simp only [bind, Except.bind, pure, Except.pure, cond, hc, ih _ hs' hu', extend_nil]

theorem problem_more {lvl : Nat} {us : List Rec} {r : Report} (h : Problem lvl r) : Problem lvl (extend us r) := by
  cases h with
  | here hx hl => exact .here (List.mem_append.2 (.inl hx)) hl
  | within hc h => exact .within hc h

theorem igts_each {depth lvl : Nat} : ∀ {xs : List Obj} {seen : List Str} {l : List Report}, validateIgts depth (xs.map .ok) seen = .ok l →
    (∀ c ∈ l, ¬ Problem lvl c) → ∀ x ∈ xs, ∃ r, validateIgt depth x = .ok r ∧ ¬ Problem lvl r := by
  intro xs
  induction xs with
  | nil => intro _ _ _ _ x hx; cases hx
  | cons x xs ih =>
    intro seen l h hl y hy
    rw [List.map_cons, validateIgts] at h
    obtain ⟨x', h0, h⟩ := Srt.bind_ok' h
    cases h0
    obtain ⟨r, h1, h⟩ := Srt.bind_ok' h
    obtain ⟨us, -, h⟩ := Srt.bind_ok' h
    obtain ⟨l', h2, h⟩ := Srt.bind_ok' h
    cases h
    rcases List.mem_cons.1 hy with rfl | hy
    · exact ⟨r, h1, fun hp => hl (extend us r) (List.mem_cons_self ..) (problem_more hp)⟩
    · exact ih h2 (fun c hc => hl c (by simp [hc])) y hy

theorem mapPy_all {α β : Type} {f : α → Py β} {P : β → Prop} : ∀ {xs : List α}, (∀ x ∈ xs, ∃ y, f x = .ok y ∧ P y) → ∃ ys, mapPy f xs = .ok ys ∧ ∀ y ∈ ys, P y := by
  intro xs
  induction xs with
  | nil => intro _; exact ⟨[], rfl, by simp⟩
  | cons x xs ih =>
    intro h
    obtain ⟨y, h1, h2⟩ := h x (by simp)
    obtain ⟨ys, h3, h4⟩ := ih fun z hz => h z (by simp [hz])
    refine ⟨y :: ys, by rw [mapPy, h1]; simp only [bind, Except.bind, h3]; rfl, fun z hz => ?_⟩
    rcases List.mem_cons.1 hz with rfl | hz
    · exact h2
    · exact h4 z hz

theorem mapPy_getD {α β : Type} {f : α → Py β} (d : β) : ∀ {xs : List α} {ys : List β}, mapPy f xs = .ok ys → ys = xs.map fun x => (f x).toOption.getD d := by
  intro xs
  induction xs with
  | nil => intro ys h; cases h; rfl
  | cons x xs ih =>
    intro ys h
    rw [mapPy] at h
    obtain ⟨y, h1, h⟩ := Srt.bind_ok' h
    obtain ⟨l, h2, h⟩ := Srt.bind_ok' h
    cases h
    rw [List.map_cons, h1, ← ih h2]
    rfl

theorem mapPy_mem_ok {α β : Type} {f : α → Py β} : ∀ {xs : List α} {ys : List β}, mapPy f xs = .ok ys → ∀ x ∈ xs, ∃ y ∈ ys, f x = .ok y := by
  intro xs
  induction xs with
  | nil => intro _ _ x hx; cases hx
  | cons x xs ih =>
    intro ys h z hz
    rw [mapPy] at h
    obtain ⟨y, h1, h⟩ := Srt.bind_ok' h
    obtain ⟨l, h2, h⟩ := Srt.bind_ok' h
    cases h
    rcases List.mem_cons.1 hz with rfl | hz
    · exact ⟨y, by simp, h1⟩
    · obtain ⟨w, hw, e⟩ := ih h2 z hz
      exact ⟨w, by simp [hw], e⟩

/-- the records of a corpus itself -/
theorem root_conds (seen : List Str) (x : Obj) : ∃ rs, conds [cond INFO (.ok (hasId x)), cond ERROR (.ok (idIsUnique seen x))] = .ok rs ∧
    ((∀ s, x.data.id = some s → s ∉ seen) → ∀ r ∈ rs, r.level = INFO) := by
  have h1 : ∃ a, cond INFO (.ok (hasId x)) = .ok a ∧ ∀ r ∈ a, r.level = INFO := by
    unfold hasId
    split
    · exact ⟨[], rfl, by simp⟩
    · exact ⟨_, rfl, by simp⟩
  have h2 : ∃ a, cond ERROR (.ok (idIsUnique seen x)) = .ok a ∧ ((∀ s, x.data.id = some s → s ∉ seen) → a = []) := by
    unfold idIsUnique
    cases hx : x.data.id with
    | none => exact ⟨[], rfl, fun _ => rfl⟩
    | some s =>
      simp only
      split
      · rename_i h
        exact ⟨_, rfl, fun h' => absurd h.2 (h' s rfl)⟩
      · exact ⟨[], rfl, fun _ => rfl⟩
  obtain ⟨a, ha, ha'⟩ := h1
  obtain ⟨b, hb, hb'⟩ := h2
  refine ⟨a ++ (b ++ []), by simp only [conds, ha, hb, bind, Except.bind], fun h r hr => ?_⟩
  rw [hb' h] at hr
  exact ha' r (by simpa using hr)

theorem corpus_of {depth : Nat} {seen : List Str} {x : Obj} {igts : List Obj} {l : List Report} (h : validateIgts depth (igts.map .ok) [] = .ok l) :
    ∃ rs, validateCorpus depth seen ⟨x, igts.map .ok⟩ = .ok (.node rs l) ∧ ((∀ s, x.data.id = some s → s ∉ seen) → ∀ r ∈ rs, r.level = INFO) := by
  obtain ⟨rs, h1, h2⟩ := root_conds seen x
  exact ⟨rs, by simp only [validateCorpus, h1, h, bind, Except.bind], h2⟩

theorem of_corpus {depth : Nat} {seen : List Str} {xc : Opened} {r : Report} (h : validateCorpus depth seen xc = .ok r) :
    ∃ rs l, r = .node rs l ∧ validateIgts depth xc.igts [] = .ok l := by
  unfold validateCorpus at h
  obtain ⟨rs, -, h⟩ := Srt.bind_ok' h
  obtain ⟨l, h2, h⟩ := Srt.bind_ok' h
  cases h
  exact ⟨rs, l, rfl, h2⟩

theorem new_passes {depth lvl : Nat} (hl : INFO < lvl) {igts : List Obj} (hu : UniqueIds igts)
    (h : ∀ x ∈ igts, ∃ r, validateIgt depth x = .ok r ∧ ¬ Problem lvl r) (seen : List Str) :
    ∃ r, validateCorpus depth seen (opened (Part.newCorpus igts)) = .ok r ∧ ¬ Problem lvl r := by
  obtain ⟨l, h1, h2⟩ := mapPy_all h
  rw [← igts_unique igts [] (by simp) hu] at h1
  obtain ⟨rs, h3, h4⟩ := corpus_of (seen := seen) (x := Part.newCorpus igts) h1
  refine ⟨_, h3, fun hp => ?_⟩
  cases hp with
  | here hx hle =>
    have := h4 (by intro s hs; cases hs) _ hx
    omega
  | within hc hp => exact h2 _ hc hp

/-! ### C160 -/

/-- **C160** for problems above the level of information: if no file that is partitioned has one, none that is written has.  (Files may be validated after others,
whose IDs are `seen`.) -/
theorem C160_passes (env : PEnv) (infiles : List Str) (out : Dict Str Obj) (h : Part.run env infiles = .ok out) (lvl depth : Nat) (hl : INFO < lvl)
    (hin : ∀ fn ∈ infiles, ∀ f, env.load fn = .ok f → ∃ seen r, validateCorpus depth seen (seenAs f) = .ok r ∧ ¬ Problem lvl r) :
    ∀ q ∈ out, ∀ seen, ∃ r, validateCorpus depth seen (opened q.2) = .ok r ∧ ¬ Problem lvl r := by
  intro q hq seen
  obtain ⟨igts, e, hu, hfrom⟩ := Rng.run_from h q hq
  rw [e]
  refine new_passes hl hu (fun x hx => ?_) seen
  obtain ⟨fn, hfn, f, hf, hxf⟩ := hfrom x hx
  obtain ⟨sn, r, hr, hp⟩ := hin fn hfn f hf
  obtain ⟨rs, l, rfl, hv⟩ := of_corpus hr
  exact igts_each hv (fun c hc hp' => hp (.within hc hp')) x hxf

/-- **C160** (partial: keys have different file names, and the IDs of IGTs in a file are different): what is reported of the IGTs in the files of a partition, and of
what is in them, is what was reported of the IGTs in the files that were partitioned, each of them once. -/
theorem C160_partial (env : PEnv) (infiles : List Str) (out : Dict Str Obj) (h : Part.run env infiles = .ok out) :
    ∃ file, Readable env file infiles ∧
      ((∀ k k', Occurs env file infiles k → Occurs env file infiles k' → outName env k = outName env k' → k = k') →
        (∀ fn ∈ infiles, UniqueIds (file fn).igts) → ∀ (depth : Nat) (seen : Str → List Str) (r : Str → Report),
        (∀ fn ∈ infiles, validateCorpus depth (seen fn) (seenAs (file fn)) = .ok (r fn)) →
        ∃ r' : Obj → Report, (∀ q ∈ out, validateCorpus depth [] (opened q.2) = .ok (r' q.2) ∧ (r' q.2).records = [⟨INFO, .noId⟩]) ∧
          (out.flatMap fun q => (r' q.2).children).Perm ((firsts infiles).flatMap fun fn => (r fn).children)) := by
  obtain ⟨file, hr, h49⟩ := Part.C49_partial env infiles out h
  refine ⟨file, hr, fun hinj huniq depth seen r hrep => ?_⟩
  obtain ⟨-, -, hperm⟩ := h49 hinj
  let g : Obj → Report := fun x => (validateIgt depth x).toOption.getD .empty
  have hch : ∀ fn ∈ infiles, (r fn).children = (file fn).igts.map g := by
    intro fn hfn
    obtain ⟨rs, l, e, hv⟩ := of_corpus (hrep fn hfn)
    change validateIgts depth ((file fn).igts.map .ok) [] = .ok l at hv
    rw [igts_unique _ _ (by simp) (huniq fn hfn)] at hv
    rw [e]
    exact mapPy_getD _ hv
  refine ⟨fun y => .node [⟨INFO, .noId⟩] (y.kids.map g), fun q hq => ?_, ?_⟩
  · obtain ⟨igts, e, hu, hfrom⟩ := Rng.run_from h q hq
    have hok : ∀ x ∈ igts, ∃ y, validateIgt depth x = .ok y ∧ True := by
      intro x hx
      obtain ⟨fn, hfn, f, hf, hxf⟩ := hfrom x hx
      have hf' := hr.load fn hfn
      rw [hf] at hf'
      cases hf'
      obtain ⟨rs, l, -, hv⟩ := of_corpus (hrep fn hfn)
      change validateIgts depth ((file fn).igts.map .ok) [] = .ok l at hv
      rw [igts_unique _ _ (by simp) (huniq fn hfn)] at hv
      obtain ⟨y, -, hy⟩ := mapPy_mem_ok hv x hxf
      exact ⟨y, hy, trivial⟩
    obtain ⟨l, h1, -⟩ := mapPy_all hok
    refine ⟨?_, rfl⟩
    rw [e]
    have hl : l = igts.map g := mapPy_getD _ h1
    rw [← igts_unique igts [] (by simp) hu] at h1
    have hc : conds [cond INFO (.ok (hasId (Part.newCorpus igts))), cond ERROR (.ok (idIsUnique [] (Part.newCorpus igts)))] = .ok [⟨INFO, .noId⟩] := rfl
    simp only [validateCorpus, opened, hc]
    change (do
      let cs ← validateIgts depth (igts.map .ok) []
      Except.ok (Report.node [⟨INFO, .noId⟩] cs)) = _
    rw [h1, hl]
    rfl
  · have e1 : (out.flatMap fun q => (Report.node [⟨INFO, .noId⟩] (q.2.kids.map g)).children) = (out.flatMap fun q => q.2.kids).map g := by
      rw [List.map_flatMap]
      rfl
    have e2 : ((firsts infiles).flatMap fun fn => (r fn).children) = ((firsts infiles).flatMap fun fn => (file fn).igts).map g := by
      rw [List.map_flatMap, List.flatMap_def, List.flatMap_def]
      congr 1
      exact List.map_congr_left fun fn hfn => hch fn (Part.mem_firsts.1 hfn)
    rw [e1, e2]
    exact hperm.map g

/-- **C160** the other way round (partial as above): if none of the files of the partition has a problem, none of the files that were partitioned has one, but perhaps that
its ID is that of another file. -/
theorem C160_back_partial (env : PEnv) (infiles : List Str) (out : Dict Str Obj) (h : Part.run env infiles = .ok out) :
    ∃ file, Readable env file infiles ∧
      ((∀ k k', Occurs env file infiles k → Occurs env file infiles k' → outName env k = outName env k' → k = k') →
        (∀ fn ∈ infiles, UniqueIds (file fn).igts) → ∀ (lvl depth : Nat), INFO < lvl →
        (∀ q ∈ out, ∃ seen r, validateCorpus depth seen (opened q.2) = .ok r ∧ ¬ Problem lvl r) →
        ∀ fn ∈ infiles, ∀ seen, (∀ s, (file fn).root.data.id = some s → s ∉ seen) → ∃ r, validateCorpus depth seen (seenAs (file fn)) = .ok r ∧ ¬ Problem lvl r) := by
  obtain ⟨file, hr, h49⟩ := Part.C49_partial env infiles out h
  refine ⟨file, hr, fun hinj huniq lvl depth hl hout fn hfn seen hseen => ?_⟩
  obtain ⟨-, -, hperm⟩ := h49 hinj
  have hx : ∀ x ∈ (file fn).igts, ∃ r, validateIgt depth x = .ok r ∧ ¬ Problem lvl r := by
    intro x hx
    have : x ∈ (out.flatMap fun p => p.2.kids) := hperm.mem_iff.2 (List.mem_flatMap.2 ⟨fn, Part.mem_firsts.2 hfn, hx⟩)
    obtain ⟨q, hq, hxq⟩ := List.mem_flatMap.1 this
    obtain ⟨sn, r, h1, h2⟩ := hout q hq
    obtain ⟨rs, l, rfl, hv⟩ := of_corpus h1
    exact igts_each hv (fun c hc hp' => h2 (.within hc hp')) x hxq
  obtain ⟨l, h1, h2⟩ := mapPy_all hx
  rw [← igts_unique _ [] (by simp) (huniq fn hfn)] at h1
  obtain ⟨rs, h3, h4⟩ := corpus_of (seen := seen) (x := (file fn).root) h1
  refine ⟨_, h3, fun hp => ?_⟩
  cases hp with
  | here hx hle =>
    have := h4 hseen _ hx
    omega
  | within hc hp => exact h2 _ hc hp

/-! ### Files -/

variable [XmlLex]

/-- a document as in C109 -/
structure PlainText (look : Nat → Nat) (t : Str) : Prop where
  all : ∃ p x, readText t = .ok p ∧ Layout p ∧ Every Xigt.Clean p ∧ Dict.get? p.attrs (lit! "type") = none ∧ loadsXml look t = .ok x

theorem pfile_open {look : Nat → Nat} {t : Str} {f : PFile} (h : Files.pfile look t = .ok f) : openText look t = .ok (seenAs f) := by
  unfold Files.pfile at h
  obtain ⟨p, h1, h⟩ := Srt.bind_ok' h
  obtain ⟨o, h2, h⟩ := Srt.bind_ok' h
  obtain ⟨ks, h3, h⟩ := Srt.bind_ok' h
  cases h
  unfold openText
  rw [h1]
  change openXml look p = _
  rw [h2, seenAs, ← drain_ok h3]

theorem plain_igts {look : Nat → Nat} {t : Str} (ht : PlainText look t) {f : PFile} (hf : Files.pfile look t = .ok f) : ∀ k ∈ f.igts, Rng.Movable k := by
  obtain ⟨p, x, hp, hl, hc, hty, hx⟩ := ht.all
  have hk : f.igts = x.kids := by
    simp only [loadsXml, loadXml, hp, bind, Except.bind] at hx
    simp only [Files.pfile, hp, bind, Except.bind] at hf
    cases ho : openXml look p with
    | error e => rw [ho] at hf; cases hf
    | ok o =>
      rw [ho] at hf hx
      simp only at hf hx
      cases hd : drain o.igts with
      | error e => rw [hd] at hf; cases hf
      | ok ks =>
        rw [hd] at hf hx
        cases hf
        rw [(construct_inv' hx).1]
        rfl
  obtain ⟨c1, c2⟩ := loaded_stable hp hl hc hty hx
  rw [hk]
  obtain ⟨d, md, kids⟩ := x
  intro k hk
  cases c2 with
  | mk _ _ _ _ _ _ _ _ _ _ hkc _ _ _ _ _ _ hks =>
    have hcls := hkc k hk
    rw [show d.cls = .corpus from c1] at hcls
    exact Rng.stable_movable (hks k hk) (Option.some.inj hcls)

/-- **C160** in the file system (partial: documents as in C109, and keys without `/`, see `C107_refuted`): after `xigt partition` into a new directory, if the validator found no
problem above the level of information in the files, it finds none in those written. -/
theorem C160_files_partial (a : Files.PArgs) (infiles : List Str) (fs fs' : Files.FS) (hok : fs.OK) (dout : Files.Path)
    (ho : Files.resolve fs a.outdir = some dout) (hnd : dout ∉ fs.dirs) (hne : dout ≠ []) (hpar : dout.dropLast ∈ fs.dirs) (hnf : Dict.get? fs.files dout = none)
    (hk : Files.PlainKeys a (Files.prepared fs dout) infiles) (lvl depth : Nat) (hl : INFO < lvl)
    (hin : ∀ fn ∈ infiles, ∀ t, Files.contents (Files.prepared fs dout) fn = some t → PlainText a.look t ∧
      ∃ o seen r, openText a.look t = .ok o ∧ validateCorpus depth seen o = .ok r ∧ ¬ Problem lvl r)
    (h : Files.partition a infiles fs = (.ok (), fs')) : ∀ n t, Dict.get? fs'.files (dout ++ [n]) = some t →
      ∀ look seen, ∃ o r, openText look t = .ok o ∧ validateCorpus depth seen o = .ok r ∧ ¬ Problem lvl r := by
  obtain ⟨r, fs1, h1, -, -, h2⟩ := Files.C107_partial a infiles fs hok dout ho hnd hne hpar hnf hk
  rw [h] at h1
  cases h1
  cases hr : Part.run (a.env (Files.asRead a (Files.prepared fs dout))) infiles with
  | error e => rw [hr] at h2; obtain ⟨_, h2⟩ := h2; cases h2
  | ok out =>
    rw [hr] at h2
    obtain ⟨-, g1, g2⟩ := h2
    intro n t ht look seen
    obtain ⟨c, hc, e⟩ := g2 n t ht
    have hread : ∀ fn ∈ infiles, ∀ f, (a.env (Files.asRead a (Files.prepared fs dout))).load fn = .ok f →
        ∃ t, Files.contents (Files.prepared fs dout) fn = some t ∧ Files.pfile a.look t = .ok f := by
      intro fn _ f hf
      change Files.asRead a (Files.prepared fs dout) fn = .ok f at hf
      rw [Files.asRead] at hf
      cases hc : Files.contents (Files.prepared fs dout) fn with
      | none => rw [hc] at hf; cases hf
      | some t => rw [hc] at hf; exact ⟨t, rfl, hf⟩
    have hq := Dict.get?_mem hc
    obtain ⟨r, hv, hp⟩ := C160_passes _ infiles out hr lvl depth hl (fun fn hfn f hf => by
      obtain ⟨t, ht, hpf⟩ := hread fn hfn f hf
      obtain ⟨-, o, sn, r, h1, h2, h3⟩ := hin fn hfn t ht
      rw [pfile_open hpf] at h1
      cases h1
      exact ⟨sn, r, h2, h3⟩) _ hq seen
    obtain ⟨igts, e', hu, hfrom⟩ := Rng.run_from hr _ hq
    simp only at e' hv
    obtain ⟨w1, w2, w3, w4⟩ := Rng.new_movable (fun x hx => by
      obtain ⟨fn, hfn, f, hf, hxf⟩ := hfrom x hx
      obtain ⟨t, ht, hpf⟩ := hread fn hfn f hf
      exact plain_igts (hin fn hfn t ht).1 hpf x hxf) hu
    rw [← e'] at w1 w2 w3 w4
    obtain ⟨s, o, k1, k2, -, k3⟩ := C138_xml_partial c (by rw [e']; rfl) w1 w2 w3 w4 look (some 2)
    rw [e] at k1
    cases k1
    exact ⟨o, r, k2, by rw [k3, hv], hp⟩

/-- **C160**: so `xigt validate` on any of the files of the partition says yes -/
theorem C160_status {ts : List Str} {lvl depth : Nat} {look : Nat → Nat}
    (h : ∀ t ∈ ts, ∀ seen, ∃ o r, openText look t = .ok o ∧ validateCorpus depth seen o = .ok r ∧ ¬ Problem lvl r) : run lvl depth (ts.map (openText look)) = .ok true := by
  rw [C52_run]
  have : ∀ (ts : List Str) seen, (∀ t ∈ ts, ∀ seen, ∃ o r, openText look t = .ok o ∧ validateCorpus depth seen o = .ok r ∧ ¬ Problem lvl r) →
      ∃ rs, Reports depth seen (ts.map (openText look)) rs ∧ ∀ r ∈ rs, ¬ Problem lvl r := by
    intro ts
    induction ts with
    | nil => intro seen _; exact ⟨[], .nil, by simp⟩
    | cons t ts ih =>
      intro seen h
      obtain ⟨o, r, h1, h2, h3⟩ := h t (by simp) seen
      obtain ⟨rs, h4, h5⟩ := ih (seen ++ o.corpus.data.id.toList) fun t' ht' => h t' (by simp [ht'])
      refine ⟨r :: rs, by rw [List.map_cons, h1]; exact .take h2 h4, fun r' hr' => ?_⟩
      rcases List.mem_cons.1 hr' with rfl | hr'
      · exact h3
      · exact h5 r' hr'
  obtain ⟨rs, h1, h2⟩ := this ts [] h
  exact ⟨rs, h1, by simpa using h2⟩

end

section
attribute [local instance] asciiUni asciiXml

/-- whether there is a problem of the level -/
def bad (lvl : Nat) (xc : Opened) : Bool := okWith (validateCorpus 9 [] xc) fun r => (filterEmpty lvl r).isTrue
def good (lvl : Nat) (xc : Opened) : Bool := okWith (validateCorpus 9 [] xc) fun r => !(filterEmpty lvl r).isTrue

theorem of_bad {lvl : Nat} {xc : Opened} (h : bad lvl xc = true) : ∃ r, validateCorpus 9 [] xc = .ok r ∧ Problem lvl r := by
  obtain ⟨r, h1, h2⟩ := ok_of_B h
  exact ⟨r, h1, (filterEmpty_true lvl r).1 h2⟩

theorem of_good {lvl : Nat} {xc : Opened} (h : good lvl xc = true) : ∃ r, validateCorpus 9 [] xc = .ok r ∧ ¬ Problem lvl r := by
  obtain ⟨r, h1, h2⟩ := ok_of_B h
  refine ⟨r, h1, fun hp => ?_⟩
  rw [(filterEmpty_true lvl r).2 hp] at h2
  cases h2

/-- a corpus with an ID -/
def idFile : PFile := ⟨.mk { cls := .corpus, id := some (lit! "c") } [] [], [Part.exIgt (lit! "i1") (lit! "a"), Part.exIgt (lit! "i2") (lit! "b")]⟩
/-- an ID twice -/
def twiceFile : PFile := ⟨.mk { cls := .corpus, id := some (lit! "c") } [] [], [Part.exIgt (lit! "i1") (lit! "a"), Part.exIgt (lit! "i1") (lit! "b")]⟩

/-- C160 is false of information: the new corpora have no IDs -/
theorem C160_refuted : ∃ (env : PEnv) (fn : Str) (f : PFile) (out : Dict Str Obj), env.load fn = .ok f ∧ Part.run env [fn] = .ok out ∧ out.length = 2 ∧
    (∃ r, validateCorpus 9 [] (seenAs f) = .ok r ∧ ¬ Problem INFO r) ∧ ∀ q ∈ out, ∃ r, validateCorpus 9 [] (opened q.2) = .ok r ∧ Problem INFO r := by
  obtain ⟨out, h1, h2⟩ := ok_of_B (r := Part.run (Part.exEnv idFile idFile) [lit! "1"])
    (f := fun out => decide (out.length = 2) && out.all fun q => bad INFO (opened q.2)) (by decide +kernel)
  rw [Bool.and_eq_true, List.all_eq_true] at h2
  exact ⟨_, _, idFile, out, rfl, h1, of_decide_eq_true h2.1, of_good (by decide +kernel), fun q hq => of_bad (h2.2 q hq)⟩

/-- C160 the other way round is false where an ID is used twice: the IGTs with it may come into different files, in which there is no error -/
theorem C160_refuted_back : ∃ (env : PEnv) (fn : Str) (f : PFile) (out : Dict Str Obj), env.load fn = .ok f ∧ Part.run env [fn] = .ok out ∧ out.length = 2 ∧
    (∃ r, validateCorpus 9 [] (seenAs f) = .ok r ∧ Problem ERROR r) ∧ ∀ q ∈ out, ∃ r, validateCorpus 9 [] (opened q.2) = .ok r ∧ ¬ Problem ERROR r := by
  obtain ⟨out, h1, h2⟩ := ok_of_B (r := Part.run (Part.exEnv twiceFile twiceFile) [lit! "1"])
    (f := fun out => decide (out.length = 2) && out.all fun q => good ERROR (opened q.2)) (by decide +kernel)
  rw [Bool.and_eq_true, List.all_eq_true] at h2
  exact ⟨_, _, twiceFile, out, rfl, h1, of_decide_eq_true h2.1, of_bad (by decide +kernel), fun q hq => of_good (h2.2 q hq)⟩

/-- the hypotheses of `C160_passes`, `C160_partial` and `C160_back_partial` are met: two files, one given twice, two keys -/
example : ∃ out, Part.run (Part.exEnv idFile Part.exFile2) [lit! "1", lit! "2", lit! "1"] = .ok out ∧ out.length = 2 ∧ UniqueIds idFile.igts ∧ UniqueIds Part.exFile2.igts ∧
    (∃ r, validateCorpus 9 [] (seenAs idFile) = .ok r ∧ ¬ Problem WARNING r) ∧ (∃ r, validateCorpus 9 [] (seenAs Part.exFile2) = .ok r ∧ ¬ Problem WARNING r) ∧
    outName (Part.exEnv idFile Part.exFile2) (some (lit! "a")) ≠ outName (Part.exEnv idFile Part.exFile2) (some (lit! "b")) := by
  obtain ⟨out, h1, h2⟩ := ok_of_B (r := Part.run (Part.exEnv idFile Part.exFile2) [lit! "1", lit! "2", lit! "1"])
    (f := fun out => decide (out.length = 2)) (by decide +kernel)
  exact ⟨out, h1, of_decide_eq_true h2, by unfold UniqueIds; decide, by unfold UniqueIds; decide, of_good (by decide +kernel), of_good (by decide +kernel), by decide⟩

/-- two IGTs in a file -/
def twoText : Str := lit! "<xigt-corpus id='c'><igt id='i1'><tier id='w' type='words'><item id='w1'>a</item></tier></igt><igt id='i2'><tier id='w' type='words'><item id='w1'>b</item></tier></igt></xigt-corpus>"
def twoP : PElem :=
  .mk (lit! "xigt-corpus") [(lit! "id", lit! "c")] (some []) none
    [.mk (lit! "igt") [(lit! "id", lit! "i1")] (some []) none [.mk (lit! "tier") [(lit! "id", lit! "w"), (lit! "type", lit! "words")] (some []) none
      [.mk (lit! "item") [(lit! "id", lit! "w1")] (some []) (some (lit! "a")) []]],
     .mk (lit! "igt") [(lit! "id", lit! "i2")] (some []) none [.mk (lit! "tier") [(lit! "id", lit! "w"), (lit! "type", lit! "words")] (some []) none
      [.mk (lit! "item") [(lit! "id", lit! "w1")] (some []) (some (lit! "b")) []]]]

set_option maxRecDepth 100000 in
theorem two_read : readText twoText = .ok twoP := rfl

theorem two_layout : Layout twoP := by
  refine ⟨rfl, by simp [twoP, PElem.nsmap], [], _, rfl, by simp, fun k hk => ?_⟩
  rcases List.mem_cons.1 hk with rfl | hk
  · refine ⟨by decide, by decide, by simp [PElem.nsmap], fun x hx => ?_⟩
    cases List.mem_singleton.1 hx
    refine .mk ⟨by simp [PElem.nsmap], by decide, by decide⟩ fun k hk => ?_
    cases List.mem_singleton.1 hk
    exact .mk ⟨by simp [PElem.nsmap], by decide, by decide⟩ (by simp)
  · cases List.mem_singleton.1 hk
    refine ⟨by decide, by decide, by simp [PElem.nsmap], fun x hx => ?_⟩
    cases List.mem_singleton.1 hx
    refine .mk ⟨by simp [PElem.nsmap], by decide, by decide⟩ fun k hk => ?_
    cases List.mem_singleton.1 hk
    exact .mk ⟨by simp [PElem.nsmap], by decide, by decide⟩ (by simp)

theorem two_plain : PlainText id twoText := by
  obtain ⟨x, hx, -⟩ := ok_of_B (r := loadsXml id twoText) (f := fun _ => true) (by decide +kernel)
  exact ⟨twoP, x, two_read, two_layout, clean_of_B (by decide +kernel), rfl, hx⟩

def twoFs : Files.FS where
  files := [([lit! "in.xml"], twoText)]
  dirs := [[]]
  cwd := []

theorem two_fs : twoFs.OK := by
  refine ⟨fun p h c hc => ?_, fun p h => ?_, fun p n h => ?_⟩
  · rcases h with h | h
    · rw [ne_eq, Dict.get?_eq_none_iff, Classical.not_not] at h
      have : p = [lit! "in.xml"] := by simpa [twoFs, Dict.keys] using h
      subst this
      have : c = lit! "in.xml" := by simpa using hc
      subst this
      constructor <;> decide
    · have : p = [] := by simpa [twoFs] using h
      subst this; cases hc
  · have : p = [] := by simpa [twoFs] using h
    subst this; rfl
  · rcases h with h | h
    · rw [ne_eq, Dict.get?_eq_none_iff, Classical.not_not] at h
      have h : p ++ [n] = [lit! "in.xml"] := by simpa [twoFs, Dict.keys] using h
      cases p with
      | nil => exact List.mem_singleton.2 rfl
      | cons c p => simp at h
    · simp [twoFs] at h

def byIds : Files.PArgs := ⟨⟨100, fun _ => [], fun _ => []⟩, lit! "@id", lit! "---", lit! "out", id⟩

/-- the hypotheses of `C160_files_partial` are met: a file for each IGT, without problems -/
example : ∃ fs' t, Files.partition byIds [lit! "in.xml"] twoFs = (.ok (), fs') ∧ Dict.get? fs'.files ([lit! "out"] ++ [lit! "i2.xml"]) = some t ∧
    ∃ o r, openText id t = .ok o ∧ validateCorpus 9 [] o = .ok r ∧ ¬ Problem WARNING r := by
  have h1 : (Files.partition byIds [lit! "in.xml"] twoFs).1 = .ok () := by decide +kernel
  have h2 : Files.partition byIds [lit! "in.xml"] twoFs = (.ok (), (Files.partition byIds [lit! "in.xml"] twoFs).2) := by rw [← h1]
  cases ht : Dict.get? (Files.partition byIds [lit! "in.xml"] twoFs).2.files ([lit! "out"] ++ [lit! "i2.xml"]) with
  | none => exact absurd ht (by decide +kernel)
  | some t =>
    have he : ∀ fn ∈ [lit! "in.xml"], Files.contents (Files.prepared twoFs [lit! "out"]) fn = some twoText := by
      intro fn hfn
      cases List.mem_singleton.1 hfn
      rfl
    have g := C160_files_partial byIds [lit! "in.xml"] twoFs _ two_fs [lit! "out"] (by decide) (by decide) (by decide) (by decide) (by decide +kernel)
      ⟨by decide, fun fn hfn f hf x hx k hk => by
        cases List.mem_singleton.1 hfn
        obtain ⟨f', h, g⟩ := ok_of_B (r := Files.asRead byIds (Files.prepared twoFs [lit! "out"]) (lit! "in.xml"))
          (f := fun f : Part.PFile => f.igts.all fun x => okWith (Part.keyOf byIds.bare f x) fun k => decide ('/' ∉ k.getD [])) (by decide +kernel)
        rw [hf] at h
        cases h
        obtain ⟨k', h', g'⟩ := ok_of_B (List.all_eq_true.1 g x hx)
        rw [hk] at h'
        cases h'
        exact of_decide_eq_true g'⟩
      WARNING 9 (by decide)
      (fun fn hfn t ht => by
        rw [he fn hfn] at ht
        cases ht
        obtain ⟨o, g1, g2⟩ := ok_of_B (r := openText id twoText) (f := good WARNING) (by decide +kernel)
        obtain ⟨r, g3, g4⟩ := of_good g2
        exact ⟨two_plain, o, [], r, g1, g3, g4⟩)
      h2 (lit! "i2.xml") t ht id []
    exact ⟨_, t, h2, ht, g⟩

end
end Xigt.Vld
