import Verif.Xml.Markup
/-
C113: whole documents, with XML declaration and what stands before and after the root.
-/

set_option linter.unusedSectionVars false

namespace Xigt.Mu

/-- one of the attributes of an XML declaration -/
structure Pseudo where
  lead : Str
  s1 : Str := []
  s2 : Str := []
  q : Char := '"'
  val : Str

def Pseudo.show (k : Str) (a : Pseudo) : Str :=
  a.lead ++ (k ++ (a.s1 ++ ('=' :: (a.s2 ++ (a.q :: (a.val ++ [a.q]))))))

structure Pseudo.OK (a : Pseudo) : Prop where
  lead : a.lead ≠ []
  leads : Spaces a.lead
  s1 : Spaces a.s1
  s2 : Spaces a.s2
  q : a.q = '"' ∨ a.q = '\''
  val : ∀ c ∈ a.val, declChar c = true

/-- an XML declaration -/
structure Declaration where
  version : Pseudo
  encoding : Option Pseudo := none
  standalone : Option Pseudo := none
  sp : Str := []

def Declaration.body (d : Declaration) : Str :=
  d.version.show (lit! "version") ++ ((match d.encoding with | some a => a.show (lit! "encoding") | none => []) ++
    ((match d.standalone with | some a => a.show (lit! "standalone") | none => []) ++ d.sp))

def Declaration.show (d : Declaration) : Str := lit! "<?xml" ++ (d.body ++ lit! "?>")

structure Declaration.OK (d : Declaration) : Prop where
  version : d.version.OK
  encoding : ∀ a, d.encoding = some a → a.OK ∧ encodingOK a.val = true
  standalone : ∀ a, d.standalone = some a → a.OK ∧ (a.val = lit! "yes" ∨ a.val = lit! "no")
  sp : Spaces d.sp

/-- a document -/
structure Doc where
  decl : Option Declaration := none
  before : List Node := []
  root : Node
  after : List Node := []

def Doc.show (d : Doc) : Str :=
  (match d.decl with | some x => x.show | none => []) ++ (shows d.before ++ (d.root.show ++ shows d.after))

/-- what may stand around the root -/
inductive Misc : Node → Prop
  | space {s} : Spaces s → Misc (.chars s)
  | comment {s} : Misc (.comment s)
  | pi {t s} : Misc (.pi t s)

structure Doc.OK (d : Doc) : Prop where
  decl : ∀ x, d.decl = some x → x.OK
  before : ∀ m ∈ d.before, m.OK ∧ Misc m
  root : d.root.OK
  elem : d.root.datum = none
  after : ∀ m ∈ d.after, m.OK ∧ Misc m

/-! ### Reading them -/

theorem run_misc (ms : List Node) (h : ∀ m ∈ ms, m.OK ∧ Misc m) (root : Option Elem) :
    Rd.run ⟨.content, [], root⟩ (shows ms) = .ok ⟨.content, [], root⟩ := by
  induction ms with
  | nil => rfl
  | cons m ms ih =>
    obtain ⟨hok, hm⟩ := h m (by simp)
    rw [shows, run_ok (r' := ⟨.content, [], root⟩)]
    · exact ih fun m hm => h m (by simp [hm])
    · cases hm with
      | space hs => rw [Node.show]; exact run_space root _ hs
      | comment => cases hok with | comment h1 h2 => rw [Node.show]; exact run_comment rfl _ h1 h2
      | pi => cases hok with | pi h1 h2 h3 h4 h5 => rw [Node.show]; exact run_pi rfl _ _ h1 h2 h3 h4 h5

theorem dropWhile_spaces {s : Str} (hs : Spaces s) (c : Char) (t : Str) (hc : xmlSpace c = false) : (s ++ c :: t).dropWhile xmlSpace = c :: t := by
  induction s with
  | nil => simp [List.dropWhile, hc]
  | cons x s ih =>
    have hx := hs x (by simp)
    simp only [List.cons_append, List.dropWhile, hx]
    exact ih fun c h => hs c (by simp [h])

theorem takeWhile_before {p : Char → Bool} {k : Str} (hk : ∀ c ∈ k, p c = true) (c : Char) (t : Str) (hc : p c = false) : (k ++ c :: t).takeWhile p = k := by
  induction k with
  | nil => simp [List.takeWhile, hc]
  | cons x k ih =>
    have hx := hk x (by simp)
    simp only [List.cons_append, List.takeWhile, hx]
    rw [ih fun c h => hk c (by simp [h])]

theorem pseudoAttr_show {a : Pseudo} (ha : a.OK) {k : Str} (hk : k ≠ []) (hlow : ∀ c ∈ k, ('a' ≤ c ∧ c ≤ 'z')) (rest : Str) :
    pseudoAttr (a.show k ++ rest) = some (k, a.val, rest) := by
  have hlowc : ∀ c : Char, xmlSpace c = true ∨ c = '=' → ¬ ('a' ≤ c ∧ c ≤ 'z') := by
    intro c hc
    rcases hc with hc | rfl
    · simp only [xmlSpace, Bool.or_eq_true, decide_eq_true_eq] at hc
      rcases hc with ((rfl | rfl) | rfl) | rfl <;> decide
    · decide
  have hls : ∀ c : Char, ('a' ≤ c ∧ c ≤ 'z') → xmlSpace c = false := by
    intro c hc
    cases hx : xmlSpace c with
    | false => rfl
    | true => exact absurd hc (hlowc c (.inl hx))
  have hqs : xmlSpace a.q = false := by rcases ha.q with h | h <;> rw [h] <;> decide
  have hqd : declChar a.q = false := by rcases ha.q with h | h <;> rw [h] <;> decide
  cases hl : a.lead with
  | nil => exact absurd hl ha.lead
  | cons x lead =>
    have hx : xmlSpace x = true := ha.leads x (by simp [hl])
    obtain ⟨kc, kt, rfl⟩ := List.exists_cons_of_ne_nil hk
    have e0 : a.show (kc :: kt) ++ rest = x :: (lead ++ kc :: (kt ++ (a.s1 ++ ('=' :: (a.s2 ++ (a.q :: (a.val ++ a.q :: rest))))))) := by
      simp [Pseudo.show, hl]
    rw [e0, pseudoAttr]
    simp only [hx, if_true]
    rw [dropWhile_spaces (fun c h => ha.leads c (by simp [hl, h])) kc _ (hls kc (hlow kc (by simp)))]
    have e1 : (kc :: (kt ++ (a.s1 ++ ('=' :: (a.s2 ++ (a.q :: (a.val ++ a.q :: rest))))))).takeWhile (fun c => decide ('a' ≤ c ∧ c ≤ 'z')) = kc :: kt := by
      have : ∃ c t, a.s1 ++ ('=' :: (a.s2 ++ (a.q :: (a.val ++ a.q :: rest)))) = c :: t ∧ ¬ ('a' ≤ c ∧ c ≤ 'z') := by
        cases h1 : a.s1 with
        | nil => exact ⟨'=', _, rfl, by decide⟩
        | cons y s1 => exact ⟨y, _, rfl, hlowc y (.inl (ha.s1 y (by simp [h1])))⟩
      obtain ⟨c, t, he, hc⟩ := this
      rw [he, ← List.cons_append]
      exact takeWhile_before (fun c h => decide_eq_true (hlow c h)) c t (decide_eq_false hc)
    rw [e1]
    have e2 : (kc :: (kt ++ (a.s1 ++ ('=' :: (a.s2 ++ (a.q :: (a.val ++ a.q :: rest))))))).drop (kc :: kt).length = a.s1 ++ ('=' :: (a.s2 ++ (a.q :: (a.val ++ a.q :: rest)))) := by
      rw [← List.cons_append, List.drop_left]
    rw [e2, dropWhile_spaces ha.s1 '=' _ (by decide)]
    simp only
    rw [dropWhile_spaces ha.s2 a.q _ hqs]
    have e3 : (a.q = '"' || a.q = '\'') = true := by rcases ha.q with h | h <;> rw [h] <;> decide
    simp only [e3, if_true]
    rw [takeWhile_before ha.val a.q rest hqd, List.drop_left]
    simp

theorem cutPi_body (s : Str) (h : '?' ∉ s) (rest : Str) : cutPi (s ++ ('?' :: '>' :: rest)) = some (s, rest) := by
  induction s with
  | nil => rfl
  | cons c s ih =>
    have hc : c ≠ '?' := by rintro rfl; exact h (by simp)
    rw [List.cons_append, cutPi, ih (fun h' => h (by simp [h']))]
    · rfl
    · intro s' h1 h2; exact hc h1

theorem spaces_noq {s : Str} (h : Spaces s) : '?' ∉ s := fun hm => absurd (h _ hm) (by decide)

theorem pseudo_noq {a : Pseudo} (ha : a.OK) {k : Str} (hk : '?' ∉ k) : '?' ∉ a.show k := by
  intro h
  have hq : '?' ≠ a.q := by rcases ha.q with h | h <;> rw [h] <;> decide
  simp only [Pseudo.show, List.mem_append, List.mem_cons, List.not_mem_nil, or_false] at h
  rcases h with h | h | h | h | h | h | h | h
  · exact spaces_noq ha.leads h
  · exact hk h
  · exact spaces_noq ha.s1 h
  · exact absurd h (by decide)
  · exact spaces_noq ha.s2 h
  · exact hq h
  · exact absurd (ha.val _ h) (by decide)
  · exact hq h

theorem not_spaces {a : Pseudo} (ha : a.OK) (k rest : Str) : (a.show k ++ rest).all xmlSpace = false := by
  cases h : (a.show k ++ rest).all xmlSpace with
  | false => rfl
  | true =>
    have := List.all_eq_true.1 h '=' (by simp [Pseudo.show])
    exact absurd this (by decide)

/-- declarations are read -/
theorem body_ok {d : Declaration} (hd : d.OK) : xmlDeclOK d.body = true := by
  have hsp : d.sp.all xmlSpace = true := List.all_eq_true.2 hd.sp
  have hst : ∀ a, d.standalone = some a → ∀ rest, rest.all xmlSpace = true → standaloneOK (a.show (lit! "standalone") ++ rest) = true := by
    intro a ha rest hr
    obtain ⟨h1, h2⟩ := hd.standalone a ha
    rw [standaloneOK, pseudoAttr_show h1 (by simp) (by decide)]
    rcases h2 with h2 | h2 <;> simp only [h2, hr] <;> decide
  rw [xmlDeclOK, Declaration.body, pseudoAttr_show hd.version (by simp) (by decide)]
  simp only
  cases he : d.encoding with
  | none =>
    cases hs : d.standalone with
    | none => simp [hsp]
    | some a =>
      have h2 := hst a hs d.sp hsp
      obtain ⟨h1, _⟩ := hd.standalone a hs
      simp only [List.nil_append, not_spaces h1, Bool.false_or]
      rw [pseudoAttr_show h1 (by simp) (by decide)]
      simp only
      rw [if_neg (by decide), h2]
      decide
  | some b =>
    obtain ⟨b1, b2⟩ := hd.encoding b he
    simp only [not_spaces b1, Bool.false_or]
    rw [pseudoAttr_show b1 (by simp) (by decide)]
    simp only [if_true, b2]
    cases hs : d.standalone with
    | none => simp [hsp]
    | some a =>
      have h2 := hst a hs d.sp hsp
      simp [h2]

theorem body_noq {d : Declaration} (hd : d.OK) : '?' ∉ d.body := by
  intro h
  rw [Declaration.body] at h
  simp only [List.mem_append] at h
  rcases h with h | h | h | h
  · exact pseudo_noq hd.version (by decide) h
  · split at h
    · rename_i a ha; exact pseudo_noq (hd.encoding a ha).1 (by decide) h
    · cases h
  · split at h
    · rename_i a ha; exact pseudo_noq (hd.standalone a ha).1 (by decide) h
    · cases h
  · exact spaces_noq hd.sp h

theorem dropDecl_show {d : Declaration} (hd : d.OK) (rest : Str) : dropDecl (d.show ++ rest) = .ok rest := by
  have e : d.show ++ rest = lit! "<?xml" ++ (d.body ++ ('?' :: '>' :: rest)) := by simp [Declaration.show]
  have hh : ((lit! "<?xml" ++ (d.body ++ ('?' :: '>' :: rest))).drop 5).head?.any xmlSpace = true := by
    cases hl : d.version.lead with
    | nil => exact absurd hl hd.version.lead
    | cons x l =>
      have hx := hd.version.leads x (by simp [hl])
      simp [Declaration.body, Pseudo.show, hl, hx]
  rw [e, dropDecl, if_pos]
  · have : (lit! "<?xml" ++ (d.body ++ ('?' :: '>' :: rest))).drop 5 = d.body ++ ('?' :: '>' :: rest) := rfl
    rw [this, cutPi_body _ (body_noq hd)]
    simp [body_ok hd]
  · rw [Bool.and_eq_true]
    exact ⟨List.isPrefixOf_iff_prefix.2 ⟨_, rfl⟩, hh⟩

/-- without a declaration a document does not begin as if it had one -/
theorem dropDecl_shows {d : Doc} (hd : d.OK) :
    dropDecl (shows d.before ++ (d.root.show ++ shows d.after)) = .ok (shows d.before ++ (d.root.show ++ shows d.after)) := by
  generalize hs : shows d.before ++ (d.root.show ++ shows d.after) = s
  rw [dropDecl, if_neg]
  intro hp
  rw [Bool.and_eq_true] at hp
  obtain ⟨hp, hsp⟩ := hp
  obtain ⟨t, ht⟩ := List.isPrefixOf_iff_prefix.1 hp
  -- a node that is shown first
  have key : ∀ (m : Node) (u : Str), m.OK → Misc m ∨ m.datum = none → m.show ≠ [] → m.show ++ u = lit! "<?xml" ++ t → False := by
    intro m u hok hm hne he
    cases hok with
    | @chars s h1 h2 h3 =>
      rw [Node.show] at he hne
      obtain ⟨c, s, rfl⟩ := List.exists_cons_of_ne_nil hne
      injection he with he _
      subst he
      exact h2 (by simp)
    | ref h1 h2 => rcases hm with hm | hm <;> cases hm
    | cdata h1 h2 => rcases hm with hm | hm <;> cases hm
    | comment => rw [Node.show] at he; injection he with _ he; injection he with he _; exact absurd he (by decide)
    | @pi t' s h1 h2 h3 h4 h5 =>
      rw [Node.show] at he
      have he : t' ++ (s ++ lit! "?>" ++ u) = lit! "xml" ++ t := by
        have := List.cons.inj (List.cons.inj he).2
        simpa using this.2
      have hhead : t.head?.any xmlSpace = true := by
        rw [← ht] at hsp
        simpa using hsp
      -- the target is the name before the white space
      obtain ⟨w, t, rfl⟩ : ∃ w t0, t = w :: t0 := by
        cases t with
        | nil => cases hhead
        | cons w t0 => exact ⟨w, t0, rfl⟩
      have hw : xmlSpace w = true := by simpa using hhead
      have htk : ∀ (l : Str) (y : Char) (z : Str), (∀ c ∈ l, nameEnd c = false) → nameEnd y = true → (l ++ y :: z).takeWhile (fun c => !nameEnd c) = l := by
        intro l y z hl hy
        exact takeWhile_before (fun c hc => by simp [hl c hc]) y z (by simp [hy])
      have e1 : (lit! "xml" ++ w :: t).takeWhile (fun c => !nameEnd c) = lit! "xml" := htk _ w t (by decide) (space_ne hw).2.2.2.2.2
      have e2 : ∃ y z, s ++ lit! "?>" ++ u = y :: z ∧ nameEnd y = true := by
        cases s with
        | nil => exact ⟨'?', _, rfl, by decide⟩
        | cons c s => exact ⟨c, _, rfl, (space_ne (h5 c rfl)).2.2.2.2.2⟩
      obtain ⟨y, z, e2, hy⟩ := e2
      rw [e2] at he
      rw [← he, htk t' y z h1.2 hy] at e1
      rw [e1] at h2
      exact absurd h2 (by decide)
    | @elem tag attrs sp empty kids sp2 h1 =>
      rw [Node.show] at he
      obtain ⟨c, tag, rfl⟩ := List.exists_cons_of_ne_nil h1.1
      injection he with _ he
      injection he with he _
      have := h1.2 c (by simp)
      rw [he] at this
      exact absurd this (by decide)
  -- the first node that shows anything
  have first : ∀ (ms : List Node) (u : Str), (∀ m ∈ ms, m.OK ∧ Misc m) → d.root.show ≠ [] → shows ms ++ (d.root.show ++ u) = lit! "<?xml" ++ t → False := by
    intro ms
    induction ms with
    | nil => intro u _ hne he; exact key d.root u hd.root (.inr hd.elem) hne he
    | cons m ms ih =>
      intro u h hne he
      rw [shows, List.append_assoc] at he
      obtain ⟨h1, h2⟩ := h m (by simp)
      by_cases hm : m.show = []
      · rw [hm] at he; exact ih u (fun m hm => h m (by simp [hm])) hne he
      · exact key m _ h1 (.inl h2) hm he
  refine first d.before (shows d.after) hd.before ?_ (by rw [hs, ht])
  have := hd.elem
  cases hr : d.root <;> rw [hr] at this <;> cases this
  rw [Node.show]
  simp

/-- **C113** for the element tree: a document is read as what it says.  `eol` makes newlines of all line ends. -/
theorem C113_tree (s : Str) (d : Doc) (hd : d.OK) (hs : eol (dropBom s) = d.show) : scanXml s = .ok d.root.elem' := by
  have hdrop : dropDecl d.show = .ok (shows d.before ++ (d.root.show ++ shows d.after)) := by
    rw [Doc.show]
    cases hc : d.decl with
    | none => simpa using dropDecl_shows hd
    | some x => exact dropDecl_show (hd.decl x hc) _
  simp only [scanXml, hs, hdrop, bind, Except.bind]
  rw [show (({} : Rd) : Rd) = ⟨.content, [], none⟩ from rfl, run_ok (run_misc d.before hd.before none)]
  rw [run_ok (run_elem d.root hd.root hd.elem [] none (.inr rfl))]
  simp only [Rd.attach, run_misc d.after hd.after]

/-! ### Documents without comments -/

/-- a character as character data -/
def plainChar (c : Char) : Node :=
  if c = '<' then .ref (lit! "lt") else if c = '&' then .ref (lit! "amp") else .chars [c]

mutual
/-- a part without comments, processing instructions and CDATA sections -/
def Node.bare : Node → List Node
  | .chars s => [.chars s]
  | .ref s => [.ref s]
  | .cdata s => s.map plainChar
  | .comment _ => []
  | .pi _ _ => []
  | .elem tag attrs sp empty kids sp2 => [.elem tag attrs sp empty (bares kids) sp2]
def bares : List Node → List Node
  | [] => []
  | m :: ms => m.bare ++ bares ms
end

/-- the document without its declaration, comments, processing instructions and CDATA sections -/
def Doc.bare (d : Doc) : Doc where
  before := bares d.before
  root := d.root.bare.headD d.root
  after := bares d.after

theorem plainChar_datum (c : Char) : (plainChar c).datum = some [c] := by
  rw [plainChar]
  split
  · rename_i h; subst h; rfl
  split
  · rename_i h; subst h; rfl
  · rfl

theorem plainChar_ok (c : Char) (hc : isXmlChar c = true) : (plainChar c).OK := by
  rw [plainChar]
  split
  · exact .ref (by decide) (by decide)
  split
  · exact .ref (by decide) (by decide)
  · rename_i h1 h2
    exact .chars (fun d hd => by rw [List.mem_singleton.1 hd]; exact hc) (fun h => h1 (List.mem_singleton.1 h).symm) (fun h => h2 (List.mem_singleton.1 h).symm)

theorem plain_lead (s : Str) (ms : List Node) : leadText (s.map plainChar ++ ms) = s ++ leadText ms ∧ elems (s.map plainChar ++ ms) = elems ms := by
  induction s with
  | nil => exact ⟨rfl, rfl⟩
  | cons c s ih => simp [leadText, elems, plainChar_datum, ih.1, ih.2]

theorem bare_same : ∀ m : Node, (m.datum = none → ∃ m', m.bare = [m'] ∧ m'.datum = none ∧ m'.elem' = m.elem') ∧
    ∀ ms, leadText (m.bare ++ ms) = (match m.datum with | some t => t ++ leadText ms | none => []) ∧
      elems (m.bare ++ ms) = (match m.datum with | some _ => elems ms | none => withTail (leadText ms) m.elem' :: elems ms) := by
  have all : ∀ l : List Node, (∀ m ∈ l, (m.datum = none → ∃ m', m.bare = [m'] ∧ m'.datum = none ∧ m'.elem' = m.elem') ∧
    ∀ ms, leadText (m.bare ++ ms) = (match m.datum with | some t => t ++ leadText ms | none => []) ∧
      elems (m.bare ++ ms) = (match m.datum with | some _ => elems ms | none => withTail (leadText ms) m.elem' :: elems ms)) →
      leadText (bares l) = leadText l ∧ elems (bares l) = elems l := by
    intro l hl
    induction l with
    | nil => exact ⟨rfl, rfl⟩
    | cons m l ih =>
      obtain ⟨i1, i2⟩ := ih fun m hm => hl m (by simp [hm])
      obtain ⟨_, h2⟩ := hl m (by simp)
      obtain ⟨h3, h4⟩ := h2 (bares l)
      rw [bares, h3, h4, leadText, elems]
      cases m.datum <;> simp [i1, i2]
  refine Node.ind ?_ ?_ ?_ ?_ ?_ ?_
  · intro s; refine ⟨(fun h => by cases h), fun ms => ?_⟩; simp [Node.bare, leadText, elems, Node.datum]
  · intro s; refine ⟨(fun h => by cases h), fun ms => ?_⟩; simp [Node.bare, leadText, elems, Node.datum]
  · intro s; refine ⟨(fun h => by cases h), fun ms => ?_⟩; simpa [Node.bare, Node.datum] using plain_lead s ms
  · intro s; refine ⟨(fun h => by cases h), fun ms => ?_⟩; simp [Node.bare, Node.datum]
  · intro t s; refine ⟨(fun h => by cases h), fun ms => ?_⟩; simp [Node.bare, Node.datum]
  · intro tag attrs sp empty kids sp2 ih
    obtain ⟨h1, h2⟩ := all kids ih
    have he : Node.elem' (.elem tag attrs sp empty (bares kids) sp2) = Node.elem' (.elem tag attrs sp empty kids sp2) := by
      simp only [Node.elem', h1, h2]
    refine ⟨fun _ => ⟨_, by rw [Node.bare], rfl, he⟩, fun ms => ?_⟩
    simp [Node.bare, leadText, elems, Node.datum, he]

theorem mem_bares {x : Node} : ∀ {l : List Node}, x ∈ bares l → ∃ m ∈ l, x ∈ m.bare
  | [], h => by simp [bares] at h
  | m :: l, h => by
    rw [bares, List.mem_append] at h
    rcases h with h | h
    · exact ⟨m, by simp, h⟩
    · obtain ⟨m', h1, h2⟩ := mem_bares h
      exact ⟨m', by simp [h1], h2⟩

theorem bare_ok : ∀ m : Node, m.OK → ∀ x ∈ m.bare, x.OK := by
  refine Node.ind ?_ ?_ ?_ ?_ ?_ ?_
  · intro s h x hx; rw [Node.bare, List.mem_singleton] at hx; rw [hx]; exact h
  · intro s h x hx; rw [Node.bare, List.mem_singleton] at hx; rw [hx]; exact h
  · intro s h x hx
    rw [Node.bare] at hx
    obtain ⟨c, hc, rfl⟩ := List.mem_map.1 hx
    cases h with | cdata h1 _ => exact plainChar_ok c (h1 c hc)
  · intro s _ x hx; simp [Node.bare] at hx
  · intro t s _ x hx; simp [Node.bare] at hx
  · intro tag attrs sp empty kids sp2 ih h x hx
    rw [Node.bare, List.mem_singleton] at hx
    subst hx
    cases h with
    | elem h1 h2 h3 h4 h5 h6 h7 =>
      refine .elem h1 h2 h3 h4 h5 (fun k hk => ?_) (fun h => ?_)
      · obtain ⟨m, hm, hk⟩ := mem_bares hk
        exact ih m hm (h6 m hm) k hk
      · rw [h7 h]; rfl

theorem Doc.bare_ok {d : Doc} (hd : d.OK) : d.bare.OK ∧ d.bare.root.elem' = d.root.elem' := by
  obtain ⟨m', h1, h2, h3⟩ := (bare_same d.root).1 hd.elem
  have hr : d.bare.root = m' := by simp [Doc.bare, h1]
  have misc : ∀ l : List Node, (∀ m ∈ l, m.OK ∧ Misc m) → ∀ x ∈ bares l, x.OK ∧ Misc x := by
    intro l hl x hx
    obtain ⟨m, hm, hx⟩ := mem_bares hx
    obtain ⟨g1, g2⟩ := hl m hm
    refine ⟨Mu.bare_ok m g1 x hx, ?_⟩
    cases g2 with
    | space hs => rw [Node.bare, List.mem_singleton] at hx; rw [hx]; exact .space hs
    | comment => simp [Node.bare] at hx
    | pi => simp [Node.bare] at hx
  refine ⟨⟨fun x hx => by simp [Doc.bare] at hx, misc _ hd.before, ?_, ?_, misc _ hd.after⟩, by rw [hr, h3]⟩
  · rw [hr]; exact Mu.bare_ok d.root hd.root m' (by simp [h1])
  · rw [hr]; exact h2

section
variable [Uni] [XmlLex]

/-- **C113** What is read from a document is what it says: with the XML declaration, comments, processing
instructions, CDATA sections, references, either quotes, white space in tags and either form of empty
elements, in any mode and however the text comes in pieces. -/
theorem C113 (s s' : Str) (d d' : Doc) (hd : d.OK) (hd' : d'.OK) (hs : eol (dropBom s) = d.show) (hs' : eol (dropBom s') = d'.show)
    (he : d.root.elem' = d'.root.elem') (look : Nat → Nat) : readText s = readText s' ∧ loadsXml look s = loadsXml look s' := by
  have h : readText s = readText s' := by
    simp only [readText, C113_tree s d hd hs, C113_tree s' d' hd' hs', he]
  exact ⟨h, by rw [loadsXml, loadsXml, h]⟩

/-- **C113** A document is read as it is without declaration, comments, processing instructions and CDATA
sections -/
theorem C113_bare (s s' : Str) (d : Doc) (hd : d.OK) (hs : eol (dropBom s) = d.show) (hs' : eol (dropBom s') = d.bare.show) (look : Nat → Nat) :
    readText s = readText s' ∧ loadsXml look s = loadsXml look s' :=
  C113 s s' d d.bare hd (Doc.bare_ok hd).1 hs hs' (Doc.bare_ok hd).2.symm look

end

/-! ### Examples -/

section
attribute [local instance] asciiUni

def noteNode : Node := .elem (lit! "xigt-corpus") [] [] false
  [.chars (lit! "\n"), .comment (lit! " all of it "),
   .elem (lit! "igt") [{ lead := lit! " ", key := lit! "id", s1 := lit! " ", q := '\'', val := [.chr 'i', .ref (lit! "#49")] }] (lit! "\n") false [.pi (lit! "x") [], .comment []] (lit! " ")] []

def noteDoc : Doc where
  decl := some { version := { lead := lit! " ", val := lit! "1.0" }, encoding := some { lead := lit! " ", q := '\'', val := lit! "utf-8" } }
  before := [.chars (lit! "\n"), .comment (lit! " Language: Abkhaz - ")]
  root := noteNode
  after := [.chars (lit! "\n")]

example : noteDoc.show = lit! "<?xml version=\"1.0\" encoding='utf-8'?>\n<!-- Language: Abkhaz - --><xigt-corpus>\n<!-- all of it --><igt id ='i&#49;'\n><?x?><!----></igt ></xigt-corpus>\n" := by
  decide +kernel

/-- the conditions of C113 hold of it -/
example : noteDoc.OK := by
  have sp : Spaces (lit! " ") := by intro c hc; simp at hc; subst hc; decide
  have no0 : Spaces [] := by intro c hc; cases hc
  have nl : Spaces (lit! "\n") := by intro c hc; simp at hc; subst hc; decide
  refine ⟨?_, ?_, ?_, rfl, ?_⟩
  · intro x hx
    cases hx
    refine ⟨⟨by simp, sp, no0, no0, .inl rfl, by decide⟩, ?_, (fun a ha => by cases ha), no0⟩
    intro a ha
    cases ha
    exact ⟨⟨by simp, sp, no0, no0, .inr rfl, by decide⟩, by decide⟩
  · intro m hm
    simp only [noteDoc, List.mem_cons, List.not_mem_nil, or_false] at hm
    rcases hm with rfl | rfl
    · exact ⟨.chars (by unfold Chars; decide) (by decide) (by decide), .space nl⟩
    · exact ⟨.comment (by unfold Chars; decide) (by decide), .comment⟩
  · refine .elem ⟨by simp, by decide⟩ (by intro a ha; cases ha) (by simp) no0 no0 ?_ (by simp)
    intro k hk
    simp only [List.mem_cons, List.not_mem_nil, or_false] at hk
    rcases hk with rfl | rfl | rfl
    · exact .chars (by unfold Chars; decide) (by decide) (by decide)
    · exact .comment (by unfold Chars; decide) (by decide)
    · refine .elem ⟨by simp, by decide⟩ ?_ (by simp) nl sp ?_ (by simp)
      · intro a ha
        simp only [List.mem_cons, List.not_mem_nil, or_false] at ha
        subst ha
        refine ⟨by simp, sp, ⟨by simp, by decide⟩, sp, no0, .inr rfl, ?_⟩
        intro v hv
        simp only [List.mem_cons, List.not_mem_nil, or_false] at hv
        rcases hv with rfl | rfl
        · exact ⟨by decide, by decide, by decide, by decide⟩
        · exact ⟨by decide, by decide⟩
      · intro k hk
        simp only [List.mem_cons, List.not_mem_nil, or_false] at hk
        rcases hk with rfl | rfl
        · exact .pi ⟨by simp, by decide⟩ (by decide) (by unfold Chars; decide) (by decide) (by intro c hc; cases hc)
        · exact .comment (by unfold Chars; decide) (by decide)
  · intro m hm
    simp only [noteDoc, List.mem_cons, List.not_mem_nil, or_false] at hm
    subst hm
    exact ⟨.chars (by unfold Chars; decide) (by decide) (by decide), .space nl⟩

/-- and without comments it is this -/
example : noteDoc.bare.show = lit! "\n<xigt-corpus>\n<igt id ='i&#49;'\n></igt ></xigt-corpus>\n" := by decide +kernel

end
end Xigt.Mu
