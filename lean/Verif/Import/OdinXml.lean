import Verif.Import.OdinProps
import Verif.Xml.StreamProps
/-
C76: what the ODIN importer writes can be read.
-/
set_option linter.unusedSectionVars false

namespace Xigt.Odin

section
variable [Uni] [XmlLex]

/-- text that survives in an element with other texts around it -/
def TextOK (s : Str) : Prop := XmlChars s ∧ '\r' ∉ s

/-- The conditions on a block: the parts of it that are not cleaned have legal characters, contents and
names of languages are not empty, and line data have names XML allows. -/
structure Writable (title : Str → Str) (o : Opts) (b : Block) (doc first last types : Str) : Prop where
  block : Complete b doc first last types
  id : ∀ i, b.igtId = some i → XmlChars i
  doc : XmlChars doc
  first : XmlChars first
  last : XmlChars last
  types : XmlChars types
  header : o.keepHeaders = true → b.headerLines.getD [] ≠ [] →
    TextOK (join ['\n'] (b.headerLines.getD [])) ∧ ∃ c ∈ join ['\n'] (b.headerLines.getD []), Uni.isSpace c = false
  iso : XmlChars (strip (b.iso.getD (lit! "und")))
  language : TextOK (title (strip (b.language.getD []))) ∧ ∃ c ∈ title (strip (b.language.getD [])), Uni.isSpace c = false
  lines : ∀ l ∈ b.lines.getD [], l.WF ∧
    (∀ t, Dict.get? l (lit! "content") = some t → t ≠ [] ∧ '\r' ∉ t) ∧
    ∀ k v, Dict.get? l k = some v → k ≠ lit! "content" →
      XmlChars v ∧ XmlLex.ncName k = true ∧ k ≠ lit! "id" ∧ k ≠ lit! "type" ∧ k ≠ lit! "xmlns"

theorem legal_iff (c : Char) : Legal c ↔ isXmlChar c = true := by
  have hv : (c.toNat < 0xD800) ∨ (0xDFFF < c.toNat ∧ c.toNat < 0x110000) := c.valid
  have h9 : c = '\t' ↔ c.toNat = 9 := ⟨fun h => by rw [h]; rfl, fun h => Char.toNat_inj.1 (by rw [h]; rfl)⟩
  have h10 : c = '\n' ↔ c.toNat = 10 := ⟨fun h => by rw [h]; rfl, fun h => Char.toNat_inj.1 (by rw [h]; rfl)⟩
  have h13 : c = '\r' ↔ c.toNat = 13 := ⟨fun h => by rw [h]; rfl, fun h => Char.toNat_inj.1 (by rw [h]; rfl)⟩
  unfold Legal isXmlChar
  simp only [Bool.or_eq_true, Bool.and_eq_true, decide_eq_true_eq, h9, h10, h13]
  omega

/-- the names the importer uses are names for XML -/
def names : List Str := [lit! "doc-id", lit! "line-range", lit! "tag-types", lit! "state", lit! "code", lit! "subject",
  lit! "language", lit! "olac", lit! "dc", lit! "xsi"]

theorem xmlChars_lit (s : Str) (h : s.all isXmlChar = true) : XmlChars s := List.all_eq_true.1 h

theorem XmlChars.append {a b : Str} (ha : XmlChars a) (hb : XmlChars b) : XmlChars (a ++ b) := by
  intro c hc
  rcases List.mem_append.1 hc with h | h
  · exact ha c h
  · exact hb c h

theorem natStr_chars (n : Nat) : XmlChars (natStr n) := by
  intro c hc
  have : ∀ (f n : Nat), ∀ c ∈ natStrAux f n, ∃ d, d < 10 ∧ c = digitChar d := by
    intro f
    induction f with
    | zero => intro n c hc; simp [natStrAux] at hc
    | succ f ih =>
      intro n c hc
      rw [natStrAux] at hc
      split at hc
      · rename_i hlt
        cases List.mem_singleton.1 hc
        exact ⟨n, hlt, rfl⟩
      · rcases List.mem_append.1 hc with h | h
        · exact ih _ c h
        · cases List.mem_singleton.1 h
          exact ⟨n % 10, Nat.mod_lt _ (by decide), rfl⟩
  obtain ⟨d, hd, rfl⟩ := this _ _ c hc
  have : ∀ d, d < 10 → isXmlChar (digitChar d) = true := by decide
  exact this d hd

theorem wf_two {a b c d : Str} (h : a ≠ c) : Dict.WF [(a, b), (c, d)] := by
  unfold Dict.WF; simp [Dict.keys, h]
theorem wf_one {a b : Str} : Dict.WF [(a, b)] := by unfold Dict.WF; simp [Dict.keys]

variable (title : Str → Str) (o : Opts)

theorem child_ok (hn : ∀ s ∈ names, XmlLex.ncName s = true) {n code text : Str} (h1 : n ∈ names) (h2 : nameOK n = true)
    (h3 : XmlChars code) (h4 : TextOK text) (h5 : ∃ c ∈ text, Uni.isSpace c = false)
    (h6 : n ≠ lit! "igt" ∧ n ≠ lit! "xigt-corpus") :
    (child n code text).WF ∧ (child n code text).Valid ∧ XmlKept nsmap (child n code text) ∧ NamesOK nsmap (child n code text) := by
  have hnt : XmlLex.ncName (lit! "type") = true := XmlLex.names _ (by simp)
  refine ⟨.mk (wf_two (by decide)) (by simp [Cls.hasText]) (by simp) (by simp) (by simp) (by simp) (by simp) (by simp),
    .mk (by simp) (by rintro m ⟨⟩; exact h2) (by exact List.nodup_nil) (by exact List.nodup_nil) (by simp) (by simp) (by simp),
    .mk ?_ (by simp) (by simp), .mk (by rintro m ⟨⟩ _; exact h6) (by simp) (by simp)⟩
  refine ⟨by simp, by simp, ?_, by simp, by simp, ?_, ?_, by simp, by simp, ?_⟩
  · intro _
    refine ⟨rfl, rfl, by rintro m ⟨⟩; exact hn n h1, ?_⟩
    rintro u ⟨⟩
    exact ⟨lit! "dc", rfl⟩
  · rintro _ t ⟨⟩; exact h5
  · rintro t ⟨⟩; exact h4
  · intro k v hkv
    simp only [langAttrs, List.mem_cons, List.not_mem_nil, or_false, Prod.mk.injEq] at hkv
    rcases hkv with ⟨rfl, rfl⟩ | ⟨rfl, rfl⟩
    · exact ⟨xmlChars_lit _ (by decide), .inr ⟨lit! "http://www.w3.org/2001/XMLSchema-instance", lit! "type", rfl, hnt,
        .inr ⟨lit! "xsi", rfl⟩⟩⟩
    · exact ⟨h3, .inr ⟨lit! "http://www.language-archives.org/OLAC/1.1/", lit! "code", rfl, hn _ (by decide),
        .inr ⟨lit! "olac", rfl⟩⟩⟩

/-- everything C40 asks of an object -/
def Fine (m : Dict Str Str) (x : Obj) : Prop := x.WF ∧ x.Valid ∧ XmlKept m x ∧ NamesOK m x

theorem header_fine (b : Block) (doc first last types : Str) (h : Writable title o b doc first last types) :
    ∀ x ∈ header o b, x.cls = .metaC ∧ Fine nsmap x := by
  intro x hx
  unfold header at hx
  split at hx
  · rename_i hc
    obtain ⟨h1, h2⟩ := h.header hc.1 hc.2
    cases List.mem_singleton.1 hx
    refine ⟨rfl, .mk Dict.wf_nil (by simp [headerData, Cls.hasText]) (by simp [headerData]) (by simp) (by simp) (by simp) (by simp) (by simp),
      .mk (by rintro i ⟨⟩; exact meta_id 1) (by rintro i ⟨⟩) (by exact List.nodup_nil) (by exact List.nodup_nil) (by rintro i ⟨⟩) (by simp) (by simp),
      .mk ?_ (by simp) (by simp), .mk (by rintro i ⟨⟩) (by simp) (by simp)⟩
    refine ⟨by rintro i ⟨⟩, fun _ => rfl, by simp [headerData], by simp [headerData], by simp [headerData], ?_, ?_, ?_, ?_, by simp [headerData]⟩
    · rintro _ t ⟨⟩; exact h2
    · rintro t ⟨⟩; exact h1
    · rintro i ⟨⟩; exact xmlChars_lit (lit! "meta1") (by decide)
    · rintro i ⟨⟩; exact xmlChars_lit _ (by decide)
  · cases hx

theorem langMeta_fine (hn : ∀ s ∈ names, XmlLex.ncName s = true) (b : Block) (doc first last types : Str)
    (h : Writable title o b doc first last types) (n : Nat) : Fine nsmap (langMeta title n b) := by
  have c1 := child_ok hn (n := lit! "subject") (by decide) nameOK_subject h.iso h.language.1 h.language.2 ⟨by decide, by decide⟩
  have c2 := child_ok hn (n := lit! "language") (code := lit! "en") (text := lit! "English") (by decide) nameOK_language
    (xmlChars_lit _ (by decide)) ⟨xmlChars_lit _ (by decide), by decide⟩ ⟨'E', by decide, by rw [Uni.ascii_space _ (by decide)]; decide⟩
    ⟨by decide, by decide⟩
  refine ⟨.mk Dict.wf_nil (by simp [Cls.hasText]) (by simp) (by simp) (by simp) ?_ (by simp) ?_,
    .mk (by rintro i ⟨⟩; exact meta_id n) (by simp) (by exact List.nodup_nil) (by exact List.nodup_nil) (by simp) (by simp) ?_,
    .mk ?_ (by simp) ?_, .mk (by simp) (by simp) ?_⟩
  · intro x hx
    simp only [List.mem_cons, List.not_mem_nil, or_false] at hx
    rcases hx with rfl | rfl <;> rfl
  · intro x hx
    simp only [List.mem_cons, List.not_mem_nil, or_false] at hx
    rcases hx with rfl | rfl
    · exact c1.1
    · exact c2.1
  · intro x hx
    simp only [List.mem_cons, List.not_mem_nil, or_false] at hx
    rcases hx with rfl | rfl
    · exact c1.2.1
    · exact c2.2.1
  · refine ⟨by simp, by simp, by simp, by simp, by simp, by simp, by simp, ?_, by simp, by simp⟩
    rintro i ⟨⟩
    exact XmlChars.append (xmlChars_lit _ (by decide)) (natStr_chars _)
  · intro x hx
    simp only [List.mem_cons, List.not_mem_nil, or_false] at hx
    rcases hx with rfl | rfl
    · exact c1.2.2.1
    · exact c2.2.2.1
  · intro x hx
    simp only [List.mem_cons, List.not_mem_nil, or_false] at hx
    rcases hx with rfl | rfl
    · exact c1.2.2.2
    · exact c2.2.2.2

theorem header_ids (b : Block) :
    ((header o b ++ [langMeta title ((header o b).length + 1) b]).filterMap fun x => x.data.id).Nodup := by
  unfold header
  split
  · simp only [List.cons_append, List.nil_append, List.filterMap_cons, Obj.data_mk, headerData, List.filterMap_nil,
      List.length_cons, List.length_nil, List.nodup_cons, List.mem_singleton, langMeta]
    refine ⟨?_, by simp⟩
    intro e
    simp only [List.cons_append, List.nil_append, List.cons.injEq, true_and] at e
    have h1 : natStr 1 = ['1'] := by decide
    have := natStr_inj (h1.trans e)
    omega
  · simp [langMeta]

theorem md_fine (hn : ∀ s ∈ names, XmlLex.ncName s = true) (b : Block) (doc first last types : Str)
    (h : Writable title o b doc first last types) : Fine nsmap (mdObj title o b) := by
  have hh := header_fine title o b doc first last types h
  have hl := langMeta_fine title o hn b doc first last types h ((header o b).length + 1)
  have all : ∀ x ∈ header o b ++ [langMeta title ((header o b).length + 1) b], x.cls = .metaC ∧ Fine nsmap x := by
    intro x hx
    rcases List.mem_append.1 hx with hx | hx
    · exact hh x hx
    · cases List.mem_singleton.1 hx; exact ⟨rfl, hl⟩
  refine ⟨.mk Dict.wf_nil (by simp) (by simp) (by simp) (by simp) ?_ (by simp) (fun x hx => (all x hx).2.1),
    .mk (by simp) (by simp) (by exact List.nodup_nil) (header_ids title o b) (by simp) (by simp) (fun x hx => (all x hx).2.2.1),
    .mk ?_ (by simp) (fun x hx => (all x hx).2.2.2.1), .mk (by simp) (by simp) (fun x hx => (all x hx).2.2.2.2)⟩
  · intro x hx
    rw [(all x hx).1]; rfl
  · exact ⟨by simp, by simp, by simp, by simp, by simp, by simp, by simp, by simp, by simp, by simp⟩

theorem line_fine {r : Char} (hr : Legal r) (hr' : r ≠ '\r') (ho : o.repl = [r]) {l : Dict Str Str} {j : Nat} {t : Str}
    (hw : l.WF) (ht : t ≠ [] ∧ '\r' ∉ t)
    (ha : ∀ k v, Dict.get? l k = some v → k ≠ lit! "content" →
      XmlChars v ∧ XmlLex.ncName k = true ∧ k ≠ lit! "id" ∧ k ≠ lit! "type" ∧ k ≠ lit! "xmlns") :
    Fine nsmap (.mk (itemData o l j t) [] []) := by
  have hattrs : ∀ k v, (k, v) ∈ Dict.del l (lit! "content") → Dict.get? l k = some v ∧ k ≠ lit! "content" := by
    intro k v hkv
    have hg := Dict.get?_of_mem (hw.del _) hkv
    rw [Dict.get?_del hw] at hg
    split at hg
    · cases hg
    · rename_i hne
      exact ⟨hg, Ne.symm hne⟩
  refine ⟨.mk (hw.del _) (by simp [itemData, Cls.hasText]) (by simp [itemData]) (by simp) (by simp) (by simp) (by simp) (by simp),
    .mk (by rintro i ⟨⟩; exact r_id j) (by rintro i ⟨⟩) (by exact List.nodup_nil) (by exact List.nodup_nil) (by rintro i ⟨⟩) (by simp) (by simp),
    .mk ?_ (by simp) (by simp), .mk (by rintro i ⟨⟩) (by simp) (by simp)⟩
  refine ⟨by rintro i ⟨⟩, fun _ => rfl, by simp [itemData], by simp [itemData], ?_, by simp [itemData], ?_, ?_, by simp [itemData], ?_⟩
  · intro _ e
    simp only [itemData, ho, Option.some.injEq, clean_map, List.map_eq_nil_iff] at e
    exact ht.1 e
  · rintro s ⟨⟩
    rw [ho]
    refine ⟨fun c hc => (legal_iff c).1 ((C58_partial t r hr).2.1 c hc), ?_⟩
    rw [clean_map]
    intro hm
    obtain ⟨c, hc, e⟩ := List.mem_map.1 hm
    split at e
    · exact hr' e
    · exact ht.2 (e ▸ hc)
  · rintro i ⟨⟩
    exact XmlChars.append (xmlChars_lit _ (by decide)) (natStr_chars _)
  · intro k v hkv
    obtain ⟨h1, h2⟩ := hattrs k v hkv
    obtain ⟨h3, h4⟩ := ha k v h1 h2
    exact ⟨h3, .inl h4⟩

theorem rawItems_fine {r : Char} (hr : Legal r) (hr' : r ≠ '\r') (ho : o.repl = [r]) : ∀ (ls : List (Dict Str Str)) (j : Nat) (xs : List Obj),
    (∀ l ∈ ls, l.WF ∧ (∀ t, Dict.get? l (lit! "content") = some t → t ≠ [] ∧ '\r' ∉ t) ∧
      ∀ k v, Dict.get? l k = some v → k ≠ lit! "content" →
        XmlChars v ∧ XmlLex.ncName k = true ∧ k ≠ lit! "id" ∧ k ≠ lit! "type" ∧ k ≠ lit! "xmlns") →
    rawItems o ls j = .ok xs → ∀ x ∈ xs, x.cls = .item ∧ Fine nsmap x := by
  intro ls
  induction ls with
  | nil => intro j xs _ h; cases h; simp
  | cons l ls ih =>
    intro j xs hl h
    rw [rawItems] at h
    split at h
    · cases h
    rename_i t ht
    simp only [bind, Except.bind] at h
    split at h
    · cases h
    rename_i x hx
    split at h
    · cases h
    rename_i xs' hxs'
    cases h
    obtain ⟨rfl, _⟩ := construct_inv hx
    intro y hy
    rcases List.mem_cons.1 hy with rfl | hy
    · obtain ⟨a, b, c⟩ := hl l (by simp)
      exact ⟨rfl, line_fine o hr hr' ho a (b t ht) c⟩
    · exact ih _ _ (fun l' h' => hl l' (by simp [h'])) hxs' y hy

theorem igt_fine (hn : ∀ s ∈ names, XmlLex.ncName s = true) {r : Char} (hr : Legal r) (hr' : r ≠ '\r') (ho : o.repl = [r])
    (b : Block) (doc first last types : Str) (h : Writable title o b doc first last types) (x : Obj)
    (hx : makeIgt title o b = .ok x) : x.cls = .igt ∧ x.data.id = b.igtId ∧ Fine nsmap x := by
  obtain ⟨rg, hrg, hs⟩ := h.block.range
  rw [← split_two] at hs
  obtain ⟨xs, hxs, ht⟩ := rawTier_ok (o := o) h.block.lines
  unfold makeIgt attributes lineRange at hx
  simp only [hrg, hs, h.block.doc, h.block.types, metadata_ok, ht, bind, Except.bind, join_two] at hx
  obtain ⟨rfl, hid⟩ := construct_inv hx
  refine ⟨rfl, rfl, ?_⟩
  have hmd := md_fine title o hn b doc first last types h
  have hit := rawItems_fine o hr hr' ho _ _ _ h.lines hxs
  have hti : Fine nsmap (.mk tierData [] xs) := by
    refine ⟨.mk wf_one (by simp [tierData]) (by simp [tierData]) (by simp) (by simp) ?_ (by simp) (fun x hx => (hit x hx).2.1),
      .mk (by rintro i ⟨⟩; exact (idAccepted_iff _).2 ⟨'r', [], rfl, by decide⟩) (by rintro i ⟨⟩) (by exact List.nodup_nil) ?_ (by rintro i ⟨⟩) (by simp) (fun x hx => (hit x hx).2.2.1),
      .mk ?_ (by simp) (fun x hx => (hit x hx).2.2.2.1), .mk (by rintro i ⟨⟩) (by simp) (fun x hx => (hit x hx).2.2.2.2)⟩
    · intro x hx
      rw [(hit x hx).1]; rfl
    · rw [rawItems_ids hxs]; exact ids_nodup _ _
    · refine ⟨by rintro i ⟨⟩, fun _ => rfl, by simp [tierData], by simp [tierData], by simp [tierData], by simp [tierData], by simp [tierData], ?_, ?_, ?_⟩
      · rintro i ⟨⟩; exact xmlChars_lit _ (by decide)
      · rintro i ⟨⟩; exact xmlChars_lit _ (by decide)
      · intro k v hkv
        cases List.mem_singleton.1 hkv
        exact ⟨xmlChars_lit _ (by decide), .inl ⟨hn _ (by decide), by decide, by decide, by decide⟩⟩
  refine ⟨.mk ?_ (by simp) (by simp) (by simp [Cls.hasMd]) ?_ ?_ ?_ ?_, .mk hid (by simp) (by exact List.nodup_nil) (by simp [tierData]) (by simp) ?_ ?_,
    .mk ?_ ?_ ?_, .mk (by simp) ?_ ?_⟩
  · unfold Dict.WF; simp [Dict.keys]
  · intro x hx; cases List.mem_singleton.1 hx; rfl
  · intro x hx; cases List.mem_singleton.1 hx; rfl
  · intro x hx; cases List.mem_singleton.1 hx; exact hmd.1
  · intro x hx; cases List.mem_singleton.1 hx; exact hti.1
  · intro x hx; cases List.mem_singleton.1 hx; exact hmd.2.1
  · intro x hx; cases List.mem_singleton.1 hx; exact hti.2.1
  · refine ⟨by simp, by simp, by simp, by simp, by simp, by simp, by simp, h.id, by simp, ?_⟩
    intro k v hkv
    simp only [List.mem_cons, List.not_mem_nil, or_false, Prod.mk.injEq] at hkv
    rcases hkv with ⟨rfl, rfl⟩ | ⟨rfl, rfl⟩ | ⟨rfl, rfl⟩
    · exact ⟨h.doc, .inl ⟨hn _ (by decide), by decide, by decide, by decide⟩⟩
    · exact ⟨XmlChars.append h.first (XmlChars.append (a := ['-']) (xmlChars_lit _ (by decide)) h.last),
        .inl ⟨hn _ (by decide), by decide, by decide, by decide⟩⟩
    · exact ⟨h.types, .inl ⟨hn _ (by decide), by decide, by decide, by decide⟩⟩
  · intro x hx; cases List.mem_singleton.1 hx; exact hmd.2.2.1
  · intro x hx; cases List.mem_singleton.1 hx; exact hti.2.2.1
  · intro x hx; cases List.mem_singleton.1 hx; exact hmd.2.2.2
  · intro x hx; cases List.mem_singleton.1 hx; exact hti.2.2.2

/-- the corpus imported from blocks that are `Writable` meets the conditions of C40 -/
theorem corpus_fine (hn : ∀ s ∈ names, XmlLex.ncName s = true) {r : Char} (hr : Legal r) (hr' : r ≠ '\r') (ho : o.repl = [r])
    (bs : List Block) (hb : ∀ b ∈ bs, ∃ doc first last types, Writable title o b doc first last types)
    (hd : (bs.filterMap fun b => b.igtId).Nodup) :
    ∃ xs, odinIgts title o bs = .ok xs ∧ Fine [] (corpus xs) := by
  have hall : ∃ xs, All2 (fun b x => makeIgt title o b = .ok x) bs xs ∧ (∀ x ∈ xs, x.cls = .igt ∧ Fine nsmap x) ∧
      xs.filterMap (fun x => x.data.id) = bs.filterMap fun b => b.igtId := by
    clear hd
    induction bs with
    | nil => exact ⟨[], .nil, by simp, rfl⟩
    | cons b bs ih =>
      obtain ⟨xs, h1, h2, h3⟩ := ih (fun b hb' => hb b (by simp [hb']))
      obtain ⟨doc, first, last, types, hw⟩ := hb b (by simp)
      obtain ⟨x, hx, _⟩ := C75_complete title o b doc first last types hw.block
      obtain ⟨f1, f2, f3⟩ := igt_fine title o hn hr hr' ho b doc first last types hw x hx
      refine ⟨x :: xs, .cons hx h1, ?_, ?_⟩
      · intro y hy
        rcases List.mem_cons.1 hy with rfl | hy
        · exact ⟨f1, f3⟩
        · exact h2 y hy
      · simp only [List.filterMap_cons, f2, h3]
  obtain ⟨xs, h1, h2, h3⟩ := hall
  have hdecl : ∀ p u, (p, u) ∈ nsmap → PrefixOK p ∧ UriOK u := by
    intro p u hpu
    simp only [nsmap, List.mem_cons, List.not_mem_nil, or_false, Prod.mk.injEq] at hpu
    rcases hpu with ⟨rfl, rfl⟩ | ⟨rfl, rfl⟩ | ⟨rfl, rfl⟩
    all_goals exact ⟨⟨hn _ (by decide), by decide, by decide⟩, xmlChars_lit _ (by decide), by decide, by decide, by decide, by decide⟩
  exact ⟨xs, (C75_all title o bs xs).2 h1,
    (.mk Dict.wf_nil (by simp) (by simp) (by simp [Cls.hasMd]) (by simp) (by intro x hx; rw [(h2 x hx).1]; rfl) (by simp) (fun x hx => (h2 x hx).2.1)),
    (.mk (by simp) (by simp) (by exact List.nodup_nil) (by rw [h3]; exact hd) (by rintro m ⟨⟩; unfold Dict.WF; decide) (by simp) (fun x hx => (h2 x hx).2.2.1)),
    (.mk ⟨by rintro own ⟨⟩; exact hdecl, by simp, by simp, by simp, by simp, by simp, by simp, by simp, by simp, by simp⟩ (by simp)
      (fun x hx => (h2 x hx).2.2.2.1)),
    (.mk (by simp) (by simp) (fun x hx => (h2 x hx).2.2.2.2))⟩

/-- C76 for blocks that are `Writable`: what is imported is written, and reading the file gives the
imported corpus, with every indentation.  Missing: other blocks, for which it can fail
(`C76_refuted`...). -/
theorem C76_partial (hn : ∀ s ∈ names, XmlLex.ncName s = true) {r : Char} (hr : Legal r) (hr' : r ≠ '\r') (ho : o.repl = [r])
    (bs : List Block) (hb : ∀ b ∈ bs, ∃ doc first last types, Writable title o b doc first last types)
    (hd : (bs.filterMap fun b => b.igtId).Nodup) (look : Nat → Nat) (ind : Option Int) :
    ∃ xs y, odinIgts title o bs = .ok xs ∧ writeRead look ind (corpus xs) = .ok y ∧
      SameData y (corpus xs) ∧ Obj.eq y (corpus xs) = true := by
  obtain ⟨xs, h1, f1, f2, f3, f4⟩ := corpus_fine title o hn hr hr' ho bs hb hd
  obtain ⟨y, hy⟩ := C40_partial (corpus xs) rfl f1 f2 f3 f4 look ind
  exact ⟨xs, y, h1, hy⟩

end

section
attribute [local instance] asciiUni asciiXml

/-- C76 is false: only the contents of lines are cleaned.  With a control character in the name of the
language the importer writes a file that cannot be read. -/
theorem C76_refuted : ∃ b xs, odinIgts id {} [b] = .ok xs ∧ writeRead id (some 2) (corpus xs) = .error .parseError :=
  ⟨{ exBlock with language := some (lit! "fren\x01ch") }, _, rfl, rfl⟩

/-- C76 is false also of the header (if it is kept). -/
theorem C76_refuted_header : ∃ b xs, odinIgts id { keepHeaders := true } [b] = .ok xs ∧
    writeRead id (some 2) (corpus xs) = .error .parseError :=
  ⟨{ exBlock with headerLines := some [lit! "x\x0c"] }, _, rfl, rfl⟩

/-- C76 is false also of lines without content: their text is gone after reading. -/
theorem C76_refuted_empty : ∃ b xs y, odinIgts id {} [b] = .ok xs ∧ writeRead id (some 2) (corpus xs) = .ok y ∧
    Obj.eq y (corpus xs) = false :=
  ⟨{ exBlock with lines := some [[(lit! "content", [])]] }, _, _, rfl, rfl, by decide +kernel⟩

/-- C76 is false also when the language is not known: its empty name is gone after reading. -/
theorem C76_refuted_language : ∃ b xs y, odinIgts id {} [b] = .ok xs ∧ writeRead id (some 2) (corpus xs) = .ok y ∧
    Obj.eq y (corpus xs) = false :=
  ⟨{ exBlock with language := none }, _, _, rfl, rfl, by decide +kernel⟩

/-- the hypotheses of `C76_partial` are met -/
theorem exBlock_writable : Writable id {} exBlock (lit! "397") (lit! "959") (lit! "961") (lit! "L G T") := by
  have hx : ∀ s : Str, s.all isXmlChar = true → XmlChars s := fun s h => List.all_eq_true.1 h
  refine ⟨⟨rfl, rfl, ⟨_, rfl, (split_two _ _ _).1 (by decide +kernel)⟩, by decide, by intro i hi; cases hi; decide +kernel⟩, ?_, hx _ (by decide), hx _ (by decide),
    hx _ (by decide), hx _ (by decide), (by intro h; cases h), hx _ (by decide +kernel), ⟨⟨hx _ (by decide +kernel), by decide +kernel⟩, 'f', by decide +kernel, by decide⟩, ?_⟩
  · intro i hi; cases hi; exact hx _ (by decide)
  · intro l hl
    have hl' : l = [(lit! "line", lit! "959"), (lit! "content", lit! "chiens\x01")] ∨ l = [(lit! "content", lit! "dogs"), (lit! "tag", lit! "G")] := by
      simpa [exBlock] using hl
    rcases hl' with rfl | rfl
    · refine ⟨by unfold Dict.WF; decide, ?_, ?_⟩
      · intro t ht
        have : t = lit! "chiens\x01" := by
          have h : some (lit! "chiens\x01") = some t := ht
          injection h with h; exact h.symm
        subst this; decide
      · intro k v hkv hk
        have hm := Dict.get?_mem hkv
        simp only [List.mem_cons, List.not_mem_nil, or_false, Prod.mk.injEq] at hm
        rcases hm with ⟨rfl, rfl⟩ | ⟨rfl, rfl⟩
        · exact ⟨hx _ (by decide), by decide, by decide, by decide, by decide⟩
        · exact absurd rfl hk
    · refine ⟨by unfold Dict.WF; decide, ?_, ?_⟩
      · intro t ht
        have : t = lit! "dogs" := by
          have h : some (lit! "dogs") = some t := ht
          injection h with h; exact h.symm
        subst this; decide
      · intro k v hkv hk
        have hm := Dict.get?_mem hkv
        simp only [List.mem_cons, List.not_mem_nil, or_false, Prod.mk.injEq] at hm
        rcases hm with ⟨rfl, rfl⟩ | ⟨rfl, rfl⟩
        · exact absurd rfl hk
        · exact ⟨hx _ (by decide), by decide, by decide, by decide, by decide⟩

example : ∀ s ∈ names, XmlLex.ncName s = true := by decide

end
end Xigt.Odin
