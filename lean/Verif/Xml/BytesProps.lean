import Verif.Xml.Bytes
import Verif.Xml.Again
/- C117, C118: writing and reading in any encoding. -/

set_option linter.unusedSectionVars false

namespace Xigt.Byt
open Xigt.Tbx (Bytes chr utf8 latin1)

/-! ### Specification -/

/-- the characters of a name are among `P` -/
def In (P : Char → Prop) (s : Str) : Prop := ∀ c ∈ s, P c

/-- the name of an attribute without its namespace is among `P` -/
def AttrIn (P : Char → Prop) (k : Str) : Prop :=
  (k.head? ≠ some '{' → In P k) ∧ ∀ uri key, k = '{' :: (uri ++ '}' :: key) → '}' ∉ uri → In P key

/-- all names that an object and what it contains bring into a document are among `P`: the names of metadata
children and attributes, and the prefixes.  (IDs, types, values, texts and namespaces are not in names.) -/
inductive NamesIn (P : Char → Prop) : Obj → Prop
  | mk {d md kids} : (∀ own, d.nsmap = some own → ∀ p ∈ own, In P p.1) → (∀ n, d.name = some n → In P n) →
      (∀ p ∈ d.attrs, AttrIn P p.1) → (∀ x ∈ md, NamesIn P x) → (∀ x ∈ kids, NamesIn P x) → NamesIn P (.mk d md kids)

/-- names of encodings in XML declarations -/
structure EncName (n : Str) : Prop where
  first : ∃ c r, n = c :: r ∧ (('a' ≤ c ∧ c ≤ 'z') ∨ ('A' ≤ c ∧ c ≤ 'Z'))
  all : ∀ c ∈ n, ('a' ≤ c ∧ c ≤ 'z') ∨ ('A' ≤ c ∧ c ≤ 'Z') ∨ ('0' ≤ c ∧ c ≤ '9') ∨ c = '.' ∨ c = '-' ∨ c = '_'

/-- the parser uses the encoding that `name` stands for when writing: it is UTF-8 or US-ASCII under these names, and
otherwise known to the parser by its name -/
def Agree (known : Str → Option (Bytes → Py Str)) (name : Str) (k : Coding) : Prop :=
  if name.map Char.toLower = lit! "utf-8" then k = utf8Coding
  else if name.map Char.toLower = lit! "us-ascii" then k = ascii
  else known name = some k.dec

/-! ### Declarations -/

def theDecl (name : Str) : Mu.Declaration where
  version := { lead := lit! " ", q := '\'', val := lit! "1.0" }
  encoding := some { lead := lit! " ", q := '\'', val := name }

theorem theDecl_ok {name : Str} (h : EncName name) : (theDecl name).OK where
  version := ⟨by simp [theDecl], by simp [theDecl, Mu.Spaces, xmlSpace], by simp [theDecl, Mu.Spaces], by simp [theDecl, Mu.Spaces], .inr rfl, by simp only [theDecl]; decide⟩
  encoding := by
    intro a ha
    cases ha
    refine ⟨⟨by simp, by simp [Mu.Spaces, xmlSpace], by simp [Mu.Spaces], by simp [Mu.Spaces], .inr rfl, ?_⟩, ?_⟩
    · intro c hc
      have := h.all c hc
      simp only [declChar, Bool.or_eq_true, decide_eq_true_eq]
      rcases this with h | h | h | h | h | h <;> simp [h]
    · obtain ⟨c, r, rfl, hc⟩ := h.first
      simpa [encodingOK] using hc
  standalone := by intro a ha; cases ha
  sp := by simp [theDecl, Mu.Spaces]

theorem theDecl_show (name : Str) : (theDecl name).show ++ ['\n'] = lit! "<?xml version='1.0' encoding='" ++ name ++ lit! "'?>\n" := by
  simp [theDecl, Mu.Declaration.show, Mu.Declaration.body, Mu.Pseudo.show]

theorem theDecl_ascii {name : Str} (h : EncName name) : ∀ c ∈ (theDecl name).show ++ ['\n'], c.toNat < 128 := by
  rw [theDecl_show]
  intro c hc
  rcases List.mem_append.1 hc with hc | hc
  · rcases List.mem_append.1 hc with hc | hc
    · exact (by decide : ∀ c ∈ (lit! "<?xml version='1.0' encoding='" : Str), c.toNat < 128) c hc
    · have := h.all c hc
      have le : ∀ {a b : Char}, a ≤ b → a.toNat ≤ b.toNat := fun h => h
      rcases this with ⟨-, g⟩ | ⟨-, g⟩ | ⟨-, g⟩ | g | g | g
      · have := le g; simp at this; omega
      · have := le g; simp at this; omega
      · have := le g; simp at this; omega
      · subst g; decide
      · subst g; decide
      · subst g; decide
  · exact (by decide : ∀ c ∈ (lit! "'?>\n" : Str), c.toNat < 128) c hc

theorem ascii_noCr {s : Str} (h : ∀ c ∈ s, c ≠ '\r') : '\r' ∉ s := fun hm => h _ hm rfl

theorem theDecl_ncr {name : Str} (h : EncName name) : '\r' ∉ (theDecl name).show ++ ['\n'] := by
  rw [theDecl_show]
  intro hc
  rcases List.mem_append.1 hc with hc | hc
  · rcases List.mem_append.1 hc with hc | hc
    · exact absurd hc (by decide)
    · have := h.all _ hc
      exact absurd this (by decide)
  · exact absurd hc (by decide)

/-- the encoding of a declaration is found -/
theorem declared_show {name : Str} (h : EncName name) {b : Bytes} {rest : Str} (hb : b.map chr = (theDecl name).show ++ rest) :
    declared b = some name := by
  have hd := theDecl_ok h
  have e : (theDecl name).show ++ rest = lit! "<?xml" ++ ((theDecl name).body ++ ('?' :: '>' :: rest)) := by simp [Mu.Declaration.show]
  have e1 : (lit! "<?xml" ++ ((theDecl name).body ++ ('?' :: '>' :: rest))).drop 5 = (theDecl name).body ++ ('?' :: '>' :: rest) := rfl
  have e2 : (theDecl name).body = (theDecl name).version.show (lit! "version") ++
      ((⟨lit! " ", [], [], '\'', name⟩ : Mu.Pseudo).show (lit! "encoding") ++ []) := by
    simp [Mu.Declaration.body, theDecl]
  unfold declared
  simp only [hb]
  rw [e, if_pos, e1, Mu.cutPi_body _ (Mu.body_noq hd)]
  · simp only [e2]
    rw [Mu.pseudoAttr_show hd.version (by simp) (by decide)]
    simp only
    rw [Mu.pseudoAttr_show (hd.encoding _ rfl).1 (by simp) (by decide)]
    simp
  · rw [e1, e2]
    rw [Bool.and_eq_true]
    refine ⟨?_, ?_⟩
    · exact List.isPrefixOf_iff_prefix.2 ⟨_, rfl⟩
    · simp [theDecl, Mu.Pseudo.show, xmlSpace]

theorem declared_none {b : Bytes} {c : Char} {s : Str} (hb : b.map chr = '<' :: c :: s) (hc : c ≠ '?') : declared b = none := by
  unfold declared
  simp only [hb]
  rw [if_neg]
  rw [Bool.and_eq_true]
  rintro ⟨h, -⟩
  obtain ⟨t, ht⟩ := List.isPrefixOf_iff_prefix.1 h
  injection ht with _ ht
  injection ht with ht _
  exact hc ht.symm

/-! ### Documents -/

section
variable {k : Coding} (hl : k.Law)
include hl

theorem scan_text (e : Elem) (hok : ElemOK e) (hen : Encodes k e) (ht : ∀ c ∈ e.tail.getD [], xmlSpace c = true) :
    (∃ c t, replaced k (ser e) = '<' :: c :: t ∧ nameEnd c = false) ∧ ∃ t, eol (replaced k (ser e)) = t ∧ dropDecl t = .ok t ∧
      ∀ (r : Option Elem), r = none → Rd.run ⟨.content, [], r⟩ t = .ok ⟨.content, [], some (noTail (rawE (eolE e)))⟩ := by
  have h1 := eol_ser e hok [] (by simp)
  rw [List.append_nil, eol, List.append_nil] at h1
  have h2 := run_core' hl (eolE e) (eolE_ok e hok) (encodes_eol hl e hen) [] none (.inr rfl)
  have ht' : ∀ c ∈ (eolE e).tail.getD [], xmlSpace c = true := by
    cases e
    rw [eolE, Elem.tail, getD_eol]
    exact eol_xspace _ ht
  have hsp : ∀ s : Str, (∀ c ∈ s, xmlSpace c = true) → ∀ c ∈ s, c.toNat < 128 := by
    intro s hs c hc
    have := hs c hc
    simp only [xmlSpace, Bool.or_eq_true, decide_eq_true_eq] at this
    rcases this with ((rfl | rfl) | rfl) | rfl <;> decide
  have head : ∀ e : Elem, ElemOK e → Encodes k e → ∃ c t, replaced k (ser e) = '<' :: c :: t ∧ nameEnd c = false := by
    intro e hok hen
    cases hok with
    | @mk tag attrs text tail kids g1 g2 =>
      cases hen with
      | mk n1 n2 n3 =>
        cases tag with
        | nil => exact absurd rfl g1
        | cons c tag =>
          have hcc : ∀ s, replaced k (c :: s) = c :: replaced k s := by
            intro s
            rw [show c :: s = [c] ++ s from rfl, replaced_append, replaced_id (s := [c]) (by simpa using n1 c (by simp))]
            rfl
          rw [ser, replaced_cons hl (by decide), List.cons_append, hcc]
          exact ⟨c, _, rfl, g2 c (by simp)⟩
  refine ⟨head e hok hen, _, rfl, ?_, ?_⟩
  · rw [eol_replaced hl, h1]
    obtain ⟨c, t, he, hc⟩ := head _ (eolE_ok e hok) (encodes_eol hl e hen)
    refine dropDecl_id _ fun u hu => ?_
    rw [he] at hu
    injection hu with _ hu
    injection hu with hu _
    subst hu
    exact absurd hc (by decide)
  · rintro _ rfl
    rw [eol_replaced hl, h1, ser_eq, replaced_append, run_ok h2, escText_space _ ht', replaced_ascii hl (hsp _ ht')]
    simp only [Rd.attach, run_space _ _ ht']

/-- a document in which characters were replaced is read as before -/
theorem scan_replaced (e : Elem) (hok : ElemOK e) (hen : Encodes k e) (ht : ∀ c ∈ e.tail.getD [], xmlSpace c = true) (name : Str)
    (hn : declaration name = [] ∨ EncName name) :
    scanXml (replaced k (declaration name ++ ser e)) = .ok (noTail (rawE (eolE e))) := by
  obtain ⟨⟨c, t, he, hc⟩, t', e1, e2, e3⟩ := scan_text hl e hok hen ht
  rw [replaced_append]
  have h0 : declaration name = [] ∨ (EncName name ∧ declaration name = (theDecl name).show ++ ['\n']) := by
    rcases hn with h | h
    · exact .inl h
    · unfold declaration
      split
      · exact .inl rfl
      · exact .inr ⟨h, (theDecl_show name).symm⟩
  rcases h0 with h | ⟨hn, h⟩
  · rw [h]
    simp only [scanXml, show replaced k [] ++ replaced k (ser e) = replaced k (ser e) from rfl, dropBom_id _ _ he, e1, e2, bind, Except.bind]
    rw [show (({} : Rd) : Rd) = ⟨.content, [], none⟩ from rfl, e3 none rfl]
  · rw [h, replaced_ascii hl (theDecl_ascii hn)]
    have hb : ∀ s : Str, dropBom (((theDecl name).show ++ ['\n']) ++ s) = ((theDecl name).show ++ ['\n']) ++ s := by
      intro s
      rw [theDecl_show]; rfl
    simp only [scanXml, hb, eol_noCr _ _ (theDecl_ncr hn), e1]
    rw [List.append_assoc, Mu.dropDecl_show (theDecl_ok hn)]
    simp only [bind, Except.bind]
    rw [show (({} : Rd) : Rd) = ⟨.content, [], none⟩ from rfl, run_ok (run_space none ['\n'] (by decide)), e3 none rfl]

omit hl in
theorem replaced_enc (hl : k.Law) (s : Str) : ∀ c ∈ replaced k s, k.enc c ≠ none := by
  intro c hc
  obtain ⟨d, hd, hc⟩ := List.mem_flatMap.1 hc
  split at hc
  · rename_i h
    rw [List.mem_singleton] at hc
    subst hc
    intro h'
    rw [h'] at h
    cases h
  · intro h'
    have : c.toNat < 128 := by
      simp only [charRef, List.mem_cons, List.mem_append, List.not_mem_nil, or_false] at hc
      rcases hc with rfl | (rfl | hc) | rfl
      · decide
      · decide
      · exact natStr_small _ _ hc
      · decide
    rw [hl.ascii c this] at h'
    cases h'

theorem encode_ascii {s : Str} (h : ∀ c ∈ s, c.toNat < 128) : (s.flatMap fun c => (k.enc c).getD []).map chr = s := by
  induction s with
  | nil => rfl
  | cons c s ih =>
    rw [List.flatMap_cons, List.map_append, ih (fun c hc => h c (by simp [hc])), hl.ascii c (h c (by simp))]
    simp only [Option.getD_some, List.map_cons, List.map_nil, chr_ofNat (show c.toNat < 256 from Nat.lt_trans (h c (by simp)) (by omega))]
    rfl

/-- encodings that UTF-8 contains -/
theorem utf8_encode (hu : ∀ c b, k.enc c = some b → b = utf8Char c) (s : Str) : utf8 (encode k s) = .ok (replaced k s) := by
  have e : encode k s = (replaced k s).flatMap fun c => (utf8Coding.enc c).getD [] := by
    unfold encode
    have hs := replaced_enc hl s
    generalize replaced k s = t at hs
    induction t with
    | nil => rfl
    | cons c t ih =>
      rw [List.flatMap_cons, List.flatMap_cons, ih (fun c hc => hs c (by simp [hc]))]
      congr 1
      cases he : k.enc c with
      | none => exact absurd he (hs c (by simp))
      | some b => simp [utf8Coding, hu c b he]
  rw [e]
  exact utf8_law.dec_enc (replaced k s) (by simp [utf8Coding])
end

/-! ### Names -/

theorem set_mem {d : Dict Str Str} {a v : Str} {p : Str × Str} (h : p ∈ Dict.set d a v) : p = (a, v) ∨ p ∈ d := by
  induction d with
  | nil => simp [Dict.set] at h; exact .inl h
  | cons q d ih =>
    obtain ⟨j, w⟩ := q
    rw [Dict.set] at h
    split at h
    · rcases List.mem_cons.1 h with rfl | h
      · rename_i e; subst e; exact .inl rfl
      · exact .inr (by simp [h])
    · rcases List.mem_cons.1 h with rfl | h
      · exact .inr (by simp)
      · rcases ih h with h | h
        · exact .inl h
        · exact .inr (by simp [h])

theorem cut_once {c : Char} {s a b : Str} (h : splitOnce c s = some (a, b)) : s = a ++ c :: b ∧ c ∉ a := by
  induction s generalizing a with
  | nil => cases h
  | cons d s ih =>
    simp only [splitOnce] at h
    split at h
    · rename_i e; cases h; subst e; simp
    · rename_i e
      cases hs : splitOnce c s with
      | none => rw [hs] at h; cases h
      | some p =>
        rw [hs] at h
        cases h
        obtain ⟨e1, e2⟩ := ih hs
        refine ⟨by rw [e1]; rfl, ?_⟩
        intro hm
        rcases List.mem_cons.1 hm with rfl | hm
        · exact e rfl
        · exact e2 hm

section
variable {P : Char → Prop} (hP : ∀ c : Char, c.toNat < 128 → P c)
include hP

theorem In.append {s t : Str} (hs : In P s) (ht : In P t) : In P (s ++ t) := by
  intro c hc
  rcases List.mem_append.1 hc with h | h
  · exact hs c h
  · exact ht c h

theorem in_ascii {s : Str} (h : ∀ c ∈ s, c.toNat < 128) : In P s := fun c hc => hP c (h c hc)

theorem in_inverse {m : Dict Str Str} (hm : ∀ p ∈ m, In P p.1) {u p : Str} (h : Dict.get? (inverse m) u = some p) : In P p := by
  suffices aux : ∀ (l acc : Dict Str Str), (∀ p ∈ l, In P p.1) → (∀ p ∈ acc, In P p.2) →
      ∀ p ∈ l.foldl (fun acc p => Dict.set acc p.2 p.1) acc, In P p.2 from
    aux m [] hm (by simp) _ (Dict.get?_mem h)
  intro l
  induction l with
  | nil => exact fun _ _ h => h
  | cons q l ih =>
    intro acc hl hacc
    refine ih _ (fun p hp => hl p (by simp [hp])) ?_
    intro p hp
    rcases set_mem hp with rfl | hp
    · exact hl q (by simp)
    · exact hacc p hp

theorem in_colon {p n : Str} (hp : In P p) (hn : In P n) : In P (p ++ ':' :: n) :=
  In.append hP hp (In.append hP (in_ascii hP (s := [':']) (by decide)) hn)

theorem in_key {rev : Dict Str Str} (hr : ∀ u p, Dict.get? rev u = some p → In P p) {a b : Str} (ha : AttrIn P a) (h : xmlKey rev a = .ok b) :
    In P b := by
  unfold xmlKey at h
  split at h
  · rename_i r
    split at h
    · cases h
    · rename_i uri key hs
      have hk : In P key := ha.2 uri key (by rw [← (cut_once hs).1]) (cut_once hs).2
      split at h
      · cases h; exact hk
      · split at h
        · rename_i pre hp
          cases h
          exact in_colon hP (hr _ _ hp) hk
        · cases hg : Dict.getItem knownNs uri with
          | error e => rw [hg] at h; cases h
          | ok pre =>
            rw [hg] at h
            cases h
            refine in_colon hP ?_ hk
            unfold Dict.getItem at hg
            split at hg
            · rename_i v hv
              cases hg
              have hm := Dict.get?_mem hv
              have : ∀ p ∈ knownNs, ∀ c ∈ p.2, c.toNat < 128 := by decide
              exact in_ascii hP (this _ hm)
            · cases hg
  · rename_i hne
    cases h
    exact ha.1 (by
      intro hh
      cases a with
      | nil => cases hh
      | cons c r => cases hh; exact hne r rfl)

theorem in_attrs {rev : Dict Str Str} (hr : ∀ u p, Dict.get? rev u = some p → In P p) : ∀ {l acc as : Dict Str Str},
    (∀ p ∈ acc, In P p.1) → (∀ p ∈ l, AttrIn P p.1) → xmlAttrs rev acc l = .ok as → ∀ p ∈ as, In P p.1 := by
  intro l
  induction l with
  | nil => intro acc as h _ he; cases he; exact h
  | cons q l ih =>
    intro acc as h hl he
    obtain ⟨a, v⟩ := q
    simp only [xmlAttrs, bind, Except.bind] at he
    split at he
    · cases he
    · rename_i b hb
      refine ih ?_ (fun p hp => hl p (by simp [hp])) he
      intro p hp
      rcases set_mem hp with rfl | hp
      · exact in_key hP hr (hl (a, v) (by simp)) hb
      · exact h p hp

theorem in_decls (m eff : Dict Str Str) (hm : ∀ p ∈ m, In P p.1) : ∀ p ∈ xmlDecls m eff, In P p.1 := by
  unfold xmlDecls
  suffices h : ∀ (l acc : Dict Str Str), (∀ p ∈ l, In P p.1) → (∀ p ∈ acc, In P p.1) →
      ∀ p ∈ l.foldl (fun acc p => if Dict.get? eff p.1 = some p.2 then acc else Dict.set acc (XMLNS ++ p.1) p.2) acc, In P p.1 from
    h m [] hm (by simp)
  intro l
  induction l with
  | nil => exact fun _ _ h => h
  | cons q l ih =>
    intro acc hl h
    refine ih _ (fun p hp => hl p (by simp [hp])) ?_
    dsimp only
    split
    · exact h
    · intro p hp
      rcases set_mem hp with rfl | hp
      · exact In.append hP (in_ascii hP (by decide)) (hl q (by simp))
      · exact h p hp

theorem in_setSome {d : Dict Str Str} (h : ∀ p ∈ d, In P p.1) (a : Str) (ha : In P a) (v : Option Str) : ∀ p ∈ setSome d a v, In P p.1 := by
  cases v with
  | none => exact h
  | some v =>
    intro p hp
    rcases set_mem hp with rfl | hp
    · exact ha
    · exact h p hp
end

section
variable [Uni] [XmlLex] {k : Coding} (hl : k.Law)
include hl

/-- the encoding has the character -/
abbrev Has (k : Coding) (c : Char) : Prop := (k.enc c).isSome = true

theorem has_ascii : ∀ c : Char, c.toNat < 128 → Has k c := fun _ h => enc_ascii hl h

theorem buildElem_enc {tag d eff text kids e} (h : buildElem tag d eff text kids = .ok e) (ht : In (Has k) tag)
    (hm : ∀ p ∈ effNs d eff, In (Has k) p.1) (ha : ∀ p ∈ d.attrs, AttrIn (Has k) p.1) (hk : ∀ x ∈ kids, Encodes k x) : Encodes k e := by
  simp only [buildElem, bind, Except.bind, pure, Except.pure] at h
  split at h
  · cases h
  · rename_i as has
    cases h
    have hr : ∀ u p, Dict.get? (inverse (effNs d eff)) u = some p → In (Has k) p := fun u p => in_inverse (has_ascii hl) hm
    refine .mk ?_ ?_ hk
    · unfold xmlTag
      split
      · rename_i pre hp
        cases hn : d.ns with
        | none => rw [hn] at hp; cases hp
        | some u => rw [hn] at hp; exact in_colon (has_ascii hl) (hr u pre hp) ht
      · exact ht
    · refine in_attrs (has_ascii hl) hr ?_ ha has
      exact in_setSome (has_ascii hl) (in_setSome (has_ascii hl) (in_decls (has_ascii hl) _ _ hm) _ (in_ascii (has_ascii hl) (by decide)) _) _
        (in_ascii (has_ascii hl) (by decide)) _

theorem effNs_in {d : Data} {eff : Dict Str Str} (he : ∀ p ∈ eff, In (Has k) p.1)
    (h : ∀ own, d.nsmap = some own → ∀ p ∈ own, In (Has k) p.1) : ∀ p ∈ effNs d eff, In (Has k) p.1 := by
  unfold effNs
  cases hn : d.nsmap with
  | none => exact he
  | some own => exact h own hn

theorem mapPy_enc {f : Obj → Py Elem} {xs : List Obj} {es : List Elem} (h : mapPy f xs = .ok es)
    (hf : ∀ x ∈ xs, ∀ e, f x = .ok e → Encodes k e) : ∀ e ∈ es, Encodes k e := by
  intro e he
  obtain ⟨x, hx, hxe⟩ := @mem_all2 _ _ _ _ _ _ _ (mapPy_ok_iff.1 h) _ he
  exact hf x hx e hxe

theorem buildMc_enc : ∀ (x : Obj) (eff : Dict Str Str) (e : Elem), (∀ p ∈ eff, In (Has k) p.1) → NamesIn (Has k) x → buildMc eff x = .ok e →
    Encodes k e := by
  refine Obj.ind fun d md kids _ ih eff e he hx h => ?_
  simp only [buildMc, bind, Except.bind] at h
  cases hx with
  | mk h1 h2 h3 h4 h5 =>
    have hm := effNs_in hl he h1
    split at h
    · cases h
    · rename_i ks hks
      rw [buildMcs_eq] at hks
      refine buildElem_enc hl h ?_ hm h3 (mapPy_enc hl hks fun x hx e hb => ih x hx _ e hm (h5 x hx) hb)
      cases hn : d.name with
      | none => intro c hc; cases hc
      | some n => exact h2 n hn

theorem buildMeta_enc (x : Obj) (eff : Dict Str Str) (e : Elem) (he : ∀ p ∈ eff, In (Has k) p.1) (hx : NamesIn (Has k) x)
    (h : buildMeta eff x = .ok e) : Encodes k e := by
  simp only [buildMeta, bind, Except.bind] at h
  cases hx with
  | mk h1 h2 h3 h4 h5 =>
    have hm := effNs_in hl he h1
    split at h
    · cases h
    · rename_i ks hks
      rw [buildMcs_eq] at hks
      exact buildElem_enc hl h (in_ascii (has_ascii hl) (by decide)) hm h3 (mapPy_enc hl hks fun x hx e hb => buildMc_enc hl x _ e hm (h5 x hx) hb)

theorem buildMd_enc (x : Obj) (eff : Dict Str Str) (e : Elem) (he : ∀ p ∈ eff, In (Has k) p.1) (hx : NamesIn (Has k) x)
    (h : buildMd eff x = .ok e) : Encodes k e := by
  simp only [buildMd, bind, Except.bind] at h
  cases hx with
  | mk h1 h2 h3 h4 h5 =>
    have hm := effNs_in hl he h1
    split at h
    · cases h
    · rename_i ks hks
      exact buildElem_enc hl h (in_ascii (has_ascii hl) (by decide)) hm h3 (mapPy_enc hl hks fun x hx e hb => buildMeta_enc hl x _ e hm (h5 x hx) hb)

theorem buildItem_enc (x : Obj) (eff : Dict Str Str) (e : Elem) (he : ∀ p ∈ eff, In (Has k) p.1) (hx : NamesIn (Has k) x)
    (h : buildItem eff x = .ok e) : Encodes k e := by
  cases hx with
  | mk h1 h2 h3 h4 h5 => exact buildElem_enc hl h (in_ascii (has_ascii hl) (by decide)) (effNs_in hl he h1) h3 (by simp)

theorem outer_enc {tag : Str} {x : Obj} {eff : Dict Str Str} {bk : Obj → Py Elem} {e : Elem} (ht : ∀ c ∈ tag, c.toNat < 128)
    (he : ∀ p ∈ eff, In (Has k) p.1) (hx : NamesIn (Has k) x)
    (h : (do
      let ms ← mapPy (buildMd (effNs x.data eff)) x.md
      let ks ← mapPy bk x.kids
      buildElem tag x.data eff none (ms ++ ks)) = .ok e)
    (hb : (∀ p ∈ effNs x.data eff, In (Has k) p.1) → ∀ x, NamesIn (Has k) x → ∀ e, bk x = .ok e → Encodes k e) : Encodes k e := by
  cases hx with
  | mk h1 h2 h3 h4 h5 =>
    have hm := effNs_in hl he h1
    simp only [bind, Except.bind] at h
    split at h
    · cases h
    · rename_i ms hms
      split at h
      · cases h
      · rename_i ks hks
        refine buildElem_enc hl h (in_ascii (has_ascii hl) ht) hm h3 ?_
        intro y hy
        rcases List.mem_append.1 hy with hy | hy
        · exact mapPy_enc hl hms (fun x hx e hb => buildMd_enc hl x _ e hm (h4 x hx) hb) y hy
        · exact mapPy_enc hl hks (fun x hx e h => hb hm x (h5 x hx) e h) y hy

theorem buildTier_enc (x : Obj) (eff : Dict Str Str) (e : Elem) (he : ∀ p ∈ eff, In (Has k) p.1) (hx : NamesIn (Has k) x)
    (h : buildTier eff x = .ok e) : Encodes k e :=
  outer_enc hl (by decide) he hx h fun hm x hx e hb => buildItem_enc hl x _ e hm hx hb

theorem buildIgt_enc (x : Obj) (eff : Dict Str Str) (e : Elem) (he : ∀ p ∈ eff, In (Has k) p.1) (hx : NamesIn (Has k) x)
    (h : buildIgt eff x = .ok e) : Encodes k e :=
  outer_enc hl (by decide) he hx h fun hm x hx e hb => buildTier_enc hl x _ e hm hx hb

theorem buildCorpus_enc (x : Obj) (e : Elem) (hx : NamesIn (Has k) x) (h : buildCorpus x = .ok e) : Encodes k e :=
  outer_enc (eff := []) hl (by decide) (by simp) hx h fun hm x hx e hb => buildIgt_enc hl x _ e hm hx hb

omit hl in
theorem indentElem_enc (ind : Int) : ∀ (e : Elem) (level : Nat), Encodes k e → Encodes k (indentElem ind level e) := by
  refine Elem.ind fun tag attrs text tail kids ih level h => ?_
  cases h with
  | mk h1 h2 h3 =>
    cases kids with
    | nil => rw [indentElem]; exact .mk h1 h2 (by simp)
    | cons y ys =>
      rw [indentElem]
      refine .mk h1 h2 (onLast_all (P := Encodes k) ?_ ?_)
      · intro x hx
        cases hx with | mk a b c => exact .mk a b c
      · rw [indentElems_eq]
        intro x hx
        rcases List.mem_cons.1 hx with rfl | hx
        · exact ih y (by simp) _ (h3 y (by simp))
        · obtain ⟨z, hz, rfl⟩ := List.mem_map.1 hx
          exact ih z (by simp [hz]) _ (h3 z (by simp [hz]))

omit hl in
theorem indent_enc {e : Elem} (h : Encodes k e) (ind : Option Int) : Encodes k (indent ind e) := by
  cases ind with
  | none => exact h
  | some n => exact indentElem_enc n e 0 h

end

/-! ### Theorems -/

section
variable [Uni] [XmlLex]

/-- what is written is read as if no character had been replaced -/
theorem read_replaced {k : Coding} (hl : k.Law) (x : Obj) (ind : Option Int) (e : Elem) (p : PElem) (hb : buildCorpus x = .ok e)
    (hp : parseElem [] (indent ind e) = .ok p) (hx : NamesIn (Has k) x) (name : Str) (hn : declaration name = [] ∨ EncName name) :
    readText (replaced k (declaration name ++ ser (indent ind e))) = .ok p := by
  have hk := indent_keys' (buildCorpus_keys x e hb) ind
  have ht := indent_tail (buildOf_tail (c := .corpus) (m := []) hb) ind
  have hok := elemOK_of _ [] p hk hp
  simp only [readText, scan_replaced hl _ hok (indent_enc (buildCorpus_enc hl x e hx hb) ind) ht name hn, bind, Except.bind]
  exact parse_noTail (parse_raw _ [] p hp)

/-- a corpus is written under a tag that is not a processing instruction -/
theorem corpus_head (x : Obj) (hx : XmlKept [] x) (hc : x.cls = .corpus) (e : Elem) (hb : buildCorpus x = .ok e) (ind : Option Int) :
    ∃ t, ser (indent ind e) = '<' :: 'x' :: t := by
  have hns : x.data.ns = none := by
    cases hx with
    | mk h1 h2 h3 => exact h1.ns (by intro h; rw [show Obj.cls (.mk _ _ _) = _ from h] at hc; cases hc)
  have htag : e.tag = lit! "xigt-corpus" := by
    simp only [buildCorpus, bind, Except.bind] at hb
    split at hb
    · cases hb
    split at hb
    · cases hb
    simp only [buildElem, bind, Except.bind, pure, Except.pure] at hb
    split at hb
    · cases hb
    · cases hb
      simp [Elem.tag, xmlTag, hns]
  obtain ⟨tag, attrs, text, tail, kids⟩ := e
  cases htag
  cases ind with
  | none => exact ⟨_, rfl⟩
  | some n => cases kids <;> exact ⟨_, rfl⟩

/-- C117 for all corpora that XML keeps (C40), every indentation and every encoding of which the parser knows the name: if
the encoding has the characters of all names, the bytes that are written are read as an equal corpus.
Missing: names with characters that the encoding lacks (`C117_refuted`). -/
theorem C117_partial (x : Obj) (hc : x.cls = .corpus) (hw : x.WF) (hv : x.Valid) (hk : XmlKept [] x) (hn : NamesOK [] x)
    (k : Coding) (hl : k.Law) (hx : NamesIn (Has k) x) (name : Str) (he : EncName name)
    (known : Str → Option (Bytes → Py Str)) (ha : Agree known name k) (look : Nat → Nat) (ind : Option Int) :
    ∃ b y, dumpBytes name k ind x = .ok b ∧ loadBytes known look b = .ok y ∧ SameData y x ∧ Obj.eq y x = true := by
  obtain ⟨y, h1, h2, h3⟩ := C40_partial x hc hw hv hk hn look ind
  simp only [writeRead, bind, Except.bind] at h1
  split at h1
  · cases h1
  rename_i e hb
  split at h1
  · cases h1
  rename_i p hp
  refine ⟨encode k (declaration name ++ ser (indent ind e)), y, ?_, ?_, h2, h3⟩
  · simp only [dumpBytes, dumpsXml, hb, bind, Except.bind, pure, Except.pure]
  have hd : decode known (encode k (declaration name ++ ser (indent ind e))) = .ok (replaced k (declaration name ++ ser (indent ind e))) := by
    have hu : (∀ c b, k.enc c = some b → b = utf8Char c) → declaration name = [] →
        decode known (encode k (declaration name ++ ser (indent ind e))) = .ok (replaced k (declaration name ++ ser (indent ind e))) := by
      intro hu h0
      obtain ⟨t, ht⟩ := corpus_head x hk hc e hb ind
      have hnone : declared (encode k (declaration name ++ ser (indent ind e))) = none := by
        rw [h0, List.nil_append, ht, encode, replaced_cons hl (by decide), replaced_cons hl (by decide), List.flatMap_cons, List.flatMap_cons,
          hl.ascii '<' (by decide), hl.ascii 'x' (by decide)]
        exact declared_none (c := 'x') (s := ((replaced k t).flatMap fun c => (k.enc c).getD []).map chr) rfl (by decide)
      rw [decode, hnone]
      simp only
      rw [utf8_encode hl hu]
      rfl
    unfold Agree at ha
    split at ha
    · rename_i h
      subst ha
      exact hu (fun c b h => by cases h; rfl) (by simp [declaration, h])
    split at ha
    · rename_i h
      subst ha
      refine hu (fun c b h => ?_) (by simp [declaration, h])
      simp only [ascii] at h
      split at h
      · rename_i hc; cases h; simp [utf8Char, hc]
      · cases h
    · rename_i g1 g2
      have h0 : declaration name = (theDecl name).show ++ ['\n'] := by
        rw [declaration, if_neg (by rintro (h | h); exact g1 h; exact g2 h), theDecl_show]
      have hs : declared (encode k (declaration name ++ ser (indent ind e))) = some name := by
        refine declared_show he (rest := '\n' :: ((replaced k (ser (indent ind e))).flatMap fun c => (k.enc c).getD []).map chr) ?_
        rw [encode, replaced_append, List.flatMap_append, List.map_append, h0, replaced_ascii hl (theDecl_ascii he), encode_ascii hl (theDecl_ascii he)]
        simp
      rw [decode, hs]
      simp only [ha]
      rw [encode, hl.dec_enc _ (replaced_enc hl _)]
      rfl
  simp only [loadBytes, hd, bind, Except.bind, loadsXml, read_replaced hl x ind e p hb hp hx name (.inr he)]
  exact h1

/-- C118 for all corpora that XML keeps (C40), every indentation, and the encodings that UTF-8 contains (UTF-8 itself and
US-ASCII): `loads` reads what `dumps` returns.  Missing: other encodings, which `loads` takes for UTF-8 (`C118_refuted`). -/
theorem C118_partial (x : Obj) (hc : x.cls = .corpus) (hw : x.WF) (hv : x.Valid) (hk : XmlKept [] x) (hn : NamesOK [] x)
    (k : Coding) (hl : k.Law) (hu : ∀ c b, k.enc c = some b → b = utf8Char c) (hx : NamesIn (Has k) x) (name : Str) (he : EncName name)
    (look : Nat → Nat) (ind : Option Int) :
    ∃ b y, dumpBytes name k ind x = .ok b ∧ loadsBytes look b = .ok y ∧ SameData y x ∧ Obj.eq y x = true := by
  obtain ⟨y, h1, h2, h3⟩ := C40_partial x hc hw hv hk hn look ind
  simp only [writeRead, bind, Except.bind] at h1
  split at h1
  · cases h1
  rename_i e hb
  split at h1
  · cases h1
  rename_i p hp
  refine ⟨encode k (declaration name ++ ser (indent ind e)), y, ?_, ?_, h2, h3⟩
  · simp only [dumpBytes, dumpsXml, hb, bind, Except.bind, pure, Except.pure]
  simp only [loadsBytes, utf8_encode hl hu, bind, Except.bind, loadsXml, read_replaced hl x ind e p hb hp hx name (.inr he)]
  exact h1
end

/-! ### Cases -/

/-- names of ASCII characters and é -/
@[reducible] def latinXml : XmlLex where
  ncName s := asciiNc (s.map fun c => if c = 'é' then 'e' else c)
  not_nil := rfl
  no_colon s h hm := asciiXml.no_colon _ h (List.mem_map.2 ⟨':', hm, by decide⟩)
  no_brace s h hm := asciiXml.no_brace _ h (List.mem_map.2 ⟨'{', hm, by decide⟩)
  no_delim s h c hc := by
    by_cases hq : c = 'é'
    · subst hq; decide
    · exact asciiXml.no_delim _ h c (List.mem_map.2 ⟨c, hc, by simp [hq]⟩)
  names := by decide

section
attribute [local instance] asciiUni latinXml

/-- a text that is not ASCII -/
def exBytes (t : Str) : Obj := .mk { cls := .corpus, attrs := [(lit! "a", t)] } [] [.mk { cls := .igt, id := some (lit! "i1") } [] []]

/-- a parser that knows ISO 8859-1 -/
def exKnown (n : Str) : Option (Bytes → Py Str) := if n = lit! "iso-8859-1" then some isoLatin1.dec else none

/-- the hypotheses of `C117_partial` and `C118_partial` are met, for ISO 8859-1, UTF-8 and US-ASCII -/
theorem exBytes_ok (t : Str) (ht : XmlChars t) (k : Coding) (hl : k.Law) :
    (exBytes t).cls = .corpus ∧ (exBytes t).WF ∧ (exBytes t).Valid ∧ XmlKept [] (exBytes t) ∧ NamesOK [] (exBytes t) ∧ NamesIn (Has k) (exBytes t) := by
  have hx : ∀ s : Str, s.all isXmlChar = true → XmlChars s := fun s h => List.all_eq_true.1 h
  refine ⟨rfl, ?_, ?_, ?_, ?_, ?_⟩
  · refine .mk (by unfold Dict.WF; simp [Dict.keys]) (by simp) (by simp) (by simp [Cls.hasMd]) (by simp [Obj.cls]) (by simp [Cls.contained, Obj.cls]) (by simp) ?_
    intro y hy; cases List.mem_singleton.1 hy
    exact .mk Dict.wf_nil (by simp) (by simp) (by simp) (by simp) (by simp) (by simp) (by simp)
  · refine .mk (by simp) (by simp) (by decide) (by decide) (by simp) (by simp) ?_
    intro y hy; cases List.mem_singleton.1 hy
    exact .mk (by intro i hi; cases hi; decide +kernel) (by simp) (by decide) (by decide) (by simp) (by simp) (by simp)
  · refine .mk ⟨by simp, by simp, by simp, by simp, by simp, by simp, by simp, by simp, by simp, ?_⟩ (by simp) ?_
    · intro k v hkv
      cases List.mem_singleton.1 hkv
      exact ⟨ht, .inl ⟨by decide, by decide, by decide, by decide⟩⟩
    · intro y hy; cases List.mem_singleton.1 hy
      refine .mk ⟨by simp, by simp, by simp, by simp, by simp, by simp, by simp, ?_, by simp, by simp⟩ (by simp) (by simp)
      intro i hi; cases hi; exact hx _ (by decide)
  · refine .mk (by simp) (by simp) ?_
    intro y hy; cases List.mem_singleton.1 hy
    exact .mk (by simp) (by simp) (by simp)
  · refine .mk (by simp) (by simp) ?_ (by simp) ?_
    · intro p hp
      cases List.mem_singleton.1 hp
      refine ⟨fun _ c hc => ?_, fun uri key h => ?_⟩
      · cases List.mem_singleton.1 hc
        simp [Has, hl.ascii 'a' (by decide)]
      · simp at h
    · intro y hy; cases List.mem_singleton.1 hy
      exact .mk (by simp) (by simp) (by simp) (by simp) (by simp)

example : EncName (lit! "iso-8859-1") ∧ Agree exKnown (lit! "iso-8859-1") isoLatin1 ∧ isoLatin1.Law :=
  ⟨⟨⟨_, _, rfl, by decide⟩, by decide⟩, rfl, isoLatin1_law⟩
example : EncName (lit! "US-ASCII") ∧ Agree exKnown (lit! "US-ASCII") ascii ∧ ascii.Law ∧ ∀ c b, ascii.enc c = some b → b = utf8Char c :=
  ⟨⟨⟨_, _, rfl, by decide⟩, by decide⟩, rfl, ascii_law, fun c b h => by
    simp only [ascii] at h
    split at h
    · rename_i hc; cases h; simp [utf8Char, hc]
    · cases h⟩

example : (dumpBytes (lit! "us-ascii") ascii none (exBytes (lit! "é"))).map (fun b => String.ofList (b.map chr)) =
    .ok "<xigt-corpus a=\"&#233;\"><igt id=\"i1\" /></xigt-corpus>" := by decide +kernel
example : (dumpBytes (lit! "iso-8859-1") isoLatin1 none (exBytes (lit! "é"))).map (fun b => String.ofList (b.map chr)) =
    .ok "<?xml version='1.0' encoding='iso-8859-1'?>\n<xigt-corpus a=\"é\"><igt id=\"i1\" /></xigt-corpus>" := by decide +kernel

/-- **C117** refuted: a corpus that XML keeps, but which has an attribute called é, is written in US-ASCII as a document
that cannot be read, as names have no references -/
theorem C117_refuted : ∃ x b, x.cls = .corpus ∧ x.WF ∧ x.Valid ∧ XmlKept [] x ∧ NamesOK [] x ∧ ascii.Law ∧
    dumpBytes (lit! "us-ascii") ascii (some 2) x = .ok b ∧ loadBytes exKnown id b = .error .parseError := by
  obtain ⟨b, h1, h2⟩ := ok_of_B (r := dumpBytes (lit! "us-ascii") ascii (some 2) (.mk { cls := .corpus, attrs := [(lit! "é", lit! "1")] } [] []))
    (f := fun b => failed (loadBytes exKnown id b) .parseError) (by decide +kernel)
  refine ⟨_, b, rfl, ?_, ?_, ?_, ?_, ascii_law, h1, failed_of_B h2⟩
  · exact .mk (by unfold Dict.WF; simp [Dict.keys]) (by simp) (by simp) (by simp) (by simp) (by simp) (by simp) (by simp)
  · exact .mk (by simp) (by simp) (by simp) (by simp) (by simp) (by simp) (by simp)
  · refine .mk ⟨by simp, by simp, by simp, by simp, by simp, by simp, by simp, by simp, by simp, ?_⟩ (by simp) (by simp)
    intro k v hkv
    cases List.mem_singleton.1 hkv
    exact ⟨List.all_eq_true.1 (by decide), .inl ⟨by decide, by decide, by decide, by decide⟩⟩
  · exact .mk (by simp) (by simp) (by simp)

/-- **C118** refuted: `loads` takes what `dumps` returns in ISO 8859-1 for UTF-8 (xigtxml.py:59).  A text of é is not
read (the bytes are no UTF-8), and a text of Ã© is read as é, without an error -/
theorem C118_refuted : ∃ x y b c z, x = exBytes (lit! "é") ∧ y = exBytes (lit! "Ã©") ∧
    dumpBytes (lit! "iso-8859-1") isoLatin1 (some 2) x = .ok b ∧ loadsBytes id b = .error .valueError ∧
    dumpBytes (lit! "iso-8859-1") isoLatin1 (some 2) y = .ok c ∧ loadsBytes id c = .ok z ∧
    z.data.attrs = [(lit! "a", lit! "é")] ∧ Obj.eq z y = false := by
  obtain ⟨b, h1, h2⟩ := ok_of_B (r := dumpBytes (lit! "iso-8859-1") isoLatin1 (some 2) (exBytes (lit! "é")))
    (f := fun b => failed (loadsBytes id b) .valueError) (by decide +kernel)
  obtain ⟨c, h3, h4⟩ := ok_of_B (r := dumpBytes (lit! "iso-8859-1") isoLatin1 (some 2) (exBytes (lit! "Ã©")))
    (f := fun c => okWith (loadsBytes id c) fun z => decide (z.data.attrs = [(lit! "a", lit! "é")]) && !Obj.eq z (exBytes (lit! "Ã©"))) (by decide +kernel)
  obtain ⟨z, h5, h6⟩ := ok_of_B h4
  rw [Bool.and_eq_true, decide_eq_true_eq, Bool.not_eq_true'] at h6
  exact ⟨_, _, b, c, z, rfl, rfl, h1, failed_of_B h2, h3, h5, h6.1, h6.2⟩

end

end Xigt.Byt
