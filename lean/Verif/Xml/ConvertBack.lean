import Verif.Xml.Convert
/- C130: from JSON to XML and back. -/

set_option linter.unusedSectionVars false

namespace Xigt.Cnv

section
variable [Uni] [XmlLex]

/-! ### What is written as JSON does not depend on where the namespaces are declared -/

theorem scopeIn_same {m : Dict Str Str} (hm : m.WF) {d : Data} (h : d.nsmap = none ∨ d.nsmap = some m) : scopeIn d m m = m ∧ effNs d m = m := by
  have he : effNs d m = m := by rcases h with h | h <;> simp [effNs, h]
  have hw : written m m = [] := by
    rw [written, List.filter_eq_nil_iff]
    intro p hp
    simp [Dict.get?_of_mem hm hp]
  refine ⟨?_, he⟩
  rw [scopeIn, he, hw]; rfl

theorem makeObj_ns (d : Data) (eff ctx : Dict Str Str) {n : Option (Dict Str Str)} (h : n.getD eff = effNs d eff) :
    makeObj { d with nsmap := n } eff ctx = makeObj d eff ctx := by
  have : activeNs { d with nsmap := n } eff ctx = activeNs d eff ctx := by
    unfold activeNs
    rw [← h]
    rfl
  simp only [makeObj, this]

theorem map_enc {m : Dict Str Str} {f : Obj → Py J} {l : List Obj} (h : ∀ x ∈ l, f (xres m m x) = f x) : mapPy f (l.map (xres m m)) = mapPy f l := by
  rw [mapPy_map]; exact mapPy_congr h

/-- an object read from XML, where all have the namespaces `m` -/
theorem xres_uniform {m : Dict Str Str} (hm : m.WF) {d : Data} {md kids : List Obj} (h : d.nsmap = none ∨ d.nsmap = some m) :
    xres m m (.mk d md kids) = .mk { d with nsmap := some m } (md.map (xres m m)) (kids.map (xres m m)) := by
  rw [xres_mk, (scopeIn_same hm h).1, (scopeIn_same hm h).2]

theorem active_same {m : Dict Str Str} (hm : m.WF) {d : Data} (h : d.nsmap = none ∨ d.nsmap = some m) : activeNs d m m = m := by
  rw [activeNs, (scopeIn_same hm h).2, update_self hm]

theorem enc_mc {m : Dict Str Str} (hm : m.WF) : ∀ x : Obj, Uniform m x → encodeMc m m (xres m m x) = encodeMc m m x := by
  refine Obj.ind fun d md kids _ ih h => ?_
  cases h with
  | mk h1 _ _ h4 =>
    have e1 := (scopeIn_same hm h1).2
    have e2 := active_same hm h1
    have e3 : effNs { d with nsmap := some m } m = m := rfl
    have e4 : activeNs { d with nsmap := some m } m m = m := active_same hm (Or.inr rfl)
    rw [xres_uniform hm h1]
    simp only [encodeMc]
    rw [makeObj_ns d m m (n := some m) e1.symm, e1, e2, e3, e4, encodeMcs_mapPy, encodeMcs_mapPy, map_enc fun x hx => ih x hx (h4 x hx)]

theorem enc_meta {m : Dict Str Str} (hm : m.WF) (x : Obj) (h : Uniform m x) : encodeMeta m m (xres m m x) = encodeMeta m m x := by
  cases h with
  | @mk d md kids h1 _ _ h4 =>
    have e1 := (scopeIn_same hm h1).2
    have e2 := active_same hm h1
    have e3 : effNs { d with nsmap := some m } m = m := rfl
    have e4 : activeNs { d with nsmap := some m } m m = m := active_same hm (Or.inr rfl)
    rw [xres_uniform hm h1]
    simp only [encodeMeta, Obj.data_mk, Obj.kids_mk]
    rw [makeObj_ns d m m (n := some m) e1.symm, e1, e2, e3, e4, encodeMcs_mapPy, encodeMcs_mapPy, map_enc fun x hx => enc_mc hm x (h4 x hx)]

theorem enc_md {m : Dict Str Str} (hm : m.WF) (x : Obj) (h : Uniform m x) : encodeMd m m (xres m m x) = encodeMd m m x := by
  cases h with
  | @mk d md kids h1 _ _ h4 =>
    have e1 := (scopeIn_same hm h1).2
    have e2 := active_same hm h1
    have e3 : effNs { d with nsmap := some m } m = m := rfl
    have e4 : activeNs { d with nsmap := some m } m m = m := active_same hm (Or.inr rfl)
    rw [xres_uniform hm h1]
    simp only [encodeMd, Obj.data_mk, Obj.kids_mk]
    rw [makeObj_ns d m m (n := some m) e1.symm, e1, e2, e3, e4, map_enc fun x hx => enc_meta hm x (h4 x hx)]

theorem enc_item {m : Dict Str Str} (hm : m.WF) (x : Obj) (h : Uniform m x) : encodeItem m m (xres m m x) = encodeItem m m x := by
  cases h with
  | @mk d md kids h1 _ _ h4 =>
    have e1 := (scopeIn_same hm h1).2
    rw [xres_uniform hm h1]
    simp only [encodeItem, Obj.data_mk]
    rw [makeObj_ns d m m (n := some m) e1.symm]

theorem enc_tier {m : Dict Str Str} (hm : m.WF) (x : Obj) (h : Uniform m x) : encodeTier m m (xres m m x) = encodeTier m m x := by
  cases h with
  | @mk d md kids h1 _ h3 h4 =>
    have e1 := (scopeIn_same hm h1).2
    have e2 := active_same hm h1
    have e3 : effNs { d with nsmap := some m } m = m := rfl
    have e4 : activeNs { d with nsmap := some m } m m = m := active_same hm (Or.inr rfl)
    rw [xres_uniform hm h1]
    simp only [encodeTier, Obj.data_mk, Obj.kids_mk, Obj.md_mk]
    rw [makeObj_ns d m m (n := some m) e1.symm, e1, e2, e3, e4, map_enc fun x hx => enc_md hm x (h3 x hx), map_enc fun x hx => enc_item hm x (h4 x hx)]

theorem enc_igt {m : Dict Str Str} (hm : m.WF) (x : Obj) (h : Uniform m x) : encodeIgt m m (xres m m x) = encodeIgt m m x := by
  cases h with
  | @mk d md kids h1 _ h3 h4 =>
    have e1 := (scopeIn_same hm h1).2
    have e2 := active_same hm h1
    have e3 : effNs { d with nsmap := some m } m = m := rfl
    have e4 : activeNs { d with nsmap := some m } m m = m := active_same hm (Or.inr rfl)
    rw [xres_uniform hm h1]
    simp only [encodeIgt, Obj.data_mk, Obj.kids_mk, Obj.md_mk]
    rw [makeObj_ns d m m (n := some m) e1.symm, e1, e2, e3, e4, map_enc fun x hx => enc_md hm x (h3 x hx), map_enc fun x hx => enc_tier hm x (h4 x hx)]

theorem enc_corpus (x : Obj) {m : Dict Str Str} (hm : m.WF) (h0 : x.data.nsmap.getD [] = m) (h : Uniform m x) :
    encodeCorpus (xres [] [] x) = encodeCorpus x := by
  cases h with
  | @mk d md kids h1 _ h3 h4 =>
    simp only [Obj.data_mk] at h0
    have e1 : effNs d [] = m := h0
    have e2 : activeNs d [] [] = m := by rw [activeNs, e1, update_nil hm]
    have e3 : effNs { d with nsmap := some m } [] = m := rfl
    have e4 : activeNs { d with nsmap := some m } [] [] = m := by rw [activeNs, e3, update_nil hm]
    have e5 : scopeIn d [] [] = m := by
      rw [scopeIn, e1]
      have : written m [] = m := by
        rw [written, List.filter_eq_self]
        intro p _
        simp [Dict.get?]
      rw [this, update_nil hm]
    rw [xres_mk, e5, e1]
    simp only [encodeCorpus, Obj.data_mk, Obj.kids_mk, Obj.md_mk]
    rw [makeObj_ns d [] [] (n := some m) e1.symm, e1, e2, e3, e4, map_enc fun x hx => enc_md hm x (h3 x hx), map_enc fun x hx => enc_igt hm x (h4 x hx)]

/-! ### C130 -/

/-- C130 for all corpora that XML keeps (C40), in which no object has other namespaces than the corpus and no type is empty: the
JSON text written for one is read, written as XML, read and written as JSON with the very same text, for every
indentation.  (The order of `namespaces` is that of a set, here taken as the order of the corpus; see C119.) -/
theorem C130_partial (x : Obj) (hc : x.cls = .corpus) (hw : x.WF) (hv : x.Valid) (hk : XmlKept [] x) (hn : NamesOK [] x)
    (hu : Uniform (x.data.nsmap.getD []) x) (i i' : Option Int) (look : Nat → Nat) :
    ∃ s y t z, dumpsJson i x = .ok s ∧ loadsJson s = .ok y ∧ dumpsXml i' y = .ok t ∧ loadsXml look t = .ok z ∧ dumpsJson i z = .ok s ∧
      Obj.eq z x = true := by
  obtain ⟨s, y, h1, h2, h3, h4⟩ := C119_text x hc hw hv hk hu i
  obtain ⟨hm, -⟩ := uniform_good x hv hk _ rfl hu
  have h5 := h4 _ i' (.inl rfl)
  rw [(C119_same (m' := x.data.nsmap.getD []) x hw hu).2] at h5
  have hy : withNs (x.data.nsmap.getD []) y = y := by
    obtain ⟨d, md, kids⟩ := y
    simp only [withNs, Obj.data_mk, Obj.md_mk, Obj.kids_mk] at h3 ⊢
    have : (d.nsmap.map fun _ => x.data.nsmap.getD []) = d.nsmap := by
      cases hd : d.nsmap with
      | none => rfl
      | some m => rw [hd] at h3; simp only [Option.getD_some] at h3; rw [h3]; rfl
    rw [this]
  rw [hy] at h5
  obtain ⟨e, p, b1, b2, b3, b4⟩ := x_corpus hc hw hv hk
  have w1 : writeRead look i' x = .ok (xres [] [] x) := by
    rw [writeRead_eq hn b1 b2 b3 look look i']
    exact ((C42_partial p (written_layout hn b1 b2 b3)).2.1 look _).2 b4
  have w2 := w1
  simp only [writeRead, bind, Except.bind, b1] at w2
  split at w2
  · cases w2
  · rename_i q hq
    obtain ⟨t, t1, _, t3⟩ := C90_layer x i' e q b1 hq look
    refine ⟨s, y, t, xres [] [] x, h1, h2, h5.trans t1, t3.trans w1, ?_, ?_⟩
    · rw [← h1]; simp only [dumpsJson, enc_corpus x hm.1 rfl hu]
    · exact (C10_eq_is_same_data _ _ (xres_wf x hw _ _) hw (xres_cls _ _ x)).2 (xres_same x _ _)

end

/-! ### Cases -/

section
attribute [local instance] asciiUni asciiXml

/-- a JSON text as it is written, with a carriage return in the text of an item -/
def crJson : Str := lit! "{\"igts\": [{\"tiers\": [{\"items\": [{\"text\": \"a\\rb\"}]}]}]}"

/-- **C130** refuted: XML reads a carriage return as a line feed (C40), so the JSON text differs -/
theorem C130_refuted : ∃ y t z s', loadsJson crJson = .ok y ∧ dumpsJson none y = .ok crJson ∧ dumpsXml none y = .ok t ∧ loadsXml id t = .ok z ∧
    dumpsJson none z = .ok s' ∧ s' ≠ crJson := by
  obtain ⟨y, h1, g⟩ := ok_of_B (r := loadsJson crJson)
    (f := fun y => okWith (dumpsJson none y) (fun s => decide (s = crJson)) && okWith (dumpsXml none y) fun t => okWith (loadsXml id t) fun z =>
      okWith (dumpsJson none z) fun s' => decide (s' ≠ crJson)) (by decide +kernel)
  rw [Bool.and_eq_true] at g
  obtain ⟨s, h2, g2⟩ := ok_of_B g.1
  cases of_decide_eq_true g2
  obtain ⟨t, h3, g⟩ := ok_of_B g.2
  obtain ⟨z, h4, g⟩ := ok_of_B g
  obtain ⟨s', h5, g⟩ := ok_of_B g
  exact ⟨y, t, z, s', h1, h2, h3, h4, h5, of_decide_eq_true g⟩

/-- the JSON text of `exXml` -/
example : ∃ s y t z, dumpsJson none exXml = .ok s ∧ loadsJson s = .ok y ∧ dumpsXml (some 2) y = .ok t ∧ loadsXml id t = .ok z ∧ dumpsJson none z = .ok s := by
  obtain ⟨s, h1, g⟩ := ok_of_B (r := dumpsJson none exXml) (f := fun s => okWith (loadsJson s) fun y => okWith (dumpsXml (some 2) y) fun t =>
    okWith (loadsXml id t) fun z => okWith (dumpsJson none z) fun s' => decide (s' = s)) (by decide +kernel)
  obtain ⟨y, h2, g⟩ := ok_of_B g
  obtain ⟨t, h3, g⟩ := ok_of_B g
  obtain ⟨z, h4, g⟩ := ok_of_B g
  obtain ⟨s', h5, g⟩ := ok_of_B g
  cases of_decide_eq_true g
  exact ⟨s, y, t, z, h1, h2, h3, h4, h5⟩

/-- the hypothesis of `C130_partial` besides those of `C40_partial` (met by `exXml`, see StreamProps) is met by it too -/
example : Uniform (exXml.data.nsmap.getD []) exXml := uniform_of_B _ (by decide +kernel)

end

end Xigt.Cnv
