import Verif.Xml.Stream
import Verif.Xml.Props
import Verif.Corpus.Props
/- Reading XML as a stream: C42, and with it C40 and C41. -/

set_option linter.unusedSectionVars false

namespace Xigt

/-- `P` holds of an element and all elements in it -/
inductive Every (P : PElem → Prop) : PElem → Prop
  | mk {tag attrs ns text kids} : P (.mk tag attrs ns text kids) → (∀ k ∈ kids, Every P k) → Every P (.mk tag attrs ns text kids)

/-- a complete element without a name the event loop reacts to -/
def Quiet (e : PElem) : Prop := e.nsmap ≠ none ∧ e.tag ≠ lit! "igt" ∧ e.tag ≠ lit! "xigt-corpus"

/-- the layout the writer produces: metadata first, and the names of the event loop only where they belong -/
structure Layout (e : PElem) : Prop where
  tag : e.tag = lit! "xigt-corpus"
  ns : e.nsmap ≠ none
  kids : ∃ ms ks, e.kids = ms ++ ks ∧ (∀ x ∈ ms, Every Quiet x) ∧
    ∀ k ∈ ks, k.tag ≠ lit! "metadata" ∧ k.tag ≠ lit! "xigt-corpus" ∧ k.nsmap ≠ none ∧ ∀ x ∈ k.kids, Every Quiet x

theorem Every.here {P : PElem → Prop} {e : PElem} (h : Every P e) : P e := by cases h; assumption
theorem Every.kids {P : PElem → Prop} {e : PElem} (h : Every P e) : ∀ k ∈ e.kids, Every P k := by cases h; assumption
theorem Every.mono {P Q : PElem → Prop} (hpq : ∀ e, P e → Q e) : ∀ {e : PElem}, Every P e → Every Q e := by
  intro e
  refine PElem.ind (P := fun e => Every P e → Every Q e) (fun tag attrs ns text kids ih h => ?_) e
  cases h with
  | mk h1 h2 => exact .mk (hpq _ h1) fun k hk => ih k hk (h2 k hk)

/-! ### Numbers of elements -/

theorem PElem.events_pos (e : PElem) : 2 ≤ e.events := by cases e; rw [PElem.events]; omega

theorem number_start (s : Nat) (e : PElem) : (number s e).start = s := by cases e; rfl
theorem number_tag (s : Nat) (e : PElem) : (number s e).tag = e.tag := by cases e; rfl

theorem evsL_append (a b : List NElem) : evsL (a ++ b) = evsL a ++ evsL b := by
  induction a with
  | nil => rfl
  | cons x a ih => rw [List.cons_append, evsL, evsL, ih, List.append_assoc]

theorem numberL_append (a b : List PElem) : ∀ s, numberL s (a ++ b) = numberL s a ++ numberL (s + PElem.eventsL a) b := by
  induction a with
  | nil => intro s; simp [numberL, PElem.eventsL]
  | cons x a ih =>
    intro s
    rw [List.cons_append, numberL, numberL, ih, PElem.eventsL, List.cons_append, Nat.add_assoc]

theorem evs_number (s : Nat) (tag attrs ns text kids) : evs (number s (.mk tag attrs ns text kids)) =
    .start (number s (.mk tag attrs ns text kids)) :: (evsL (numberL (s + 1) kids) ++ [.stop (number s (.mk tag attrs ns text kids))]) := by
  rw [number, evs]

theorem evsL_length_of {kids : List PElem} (h : ∀ k ∈ kids, ∀ s, (evs (number s k)).length = k.events) :
    ∀ s, (evsL (numberL s kids)).length = PElem.eventsL kids := by
  induction kids with
  | nil => intro s; rfl
  | cons k ks ih =>
    intro s
    rw [numberL, evsL, List.length_append, h k (by simp) s, ih (fun x hx => h x (by simp [hx])), PElem.eventsL]

theorem evs_length : ∀ (e : PElem) (s : Nat), (evs (number s e)).length = e.events := by
  refine PElem.ind fun tag attrs ns text kids ih s => ?_
  rw [evs_number, List.length_cons, List.length_append, evsL_length_of ih, PElem.events]
  rfl

theorem evsL_length (kids : List PElem) (s : Nat) : (evsL (numberL s kids)).length = PElem.eventsL kids :=
  evsL_length_of (fun k _ s => evs_length k s) s

def XEv.elem : XEv → NElem
  | .start e => e
  | .stop e => e

/-- the elements in the events of an element are the elements in it -/
theorem evs_tags {P : Str → Prop} : ∀ (e : PElem), Every (fun x => P x.tag) e → ∀ s, ∀ v ∈ evs (number s e), P v.elem.tag := by
  refine PElem.ind fun tag attrs ns text kids ih h s v hv => ?_
  cases h with
  | mk h1 h2 =>
    rw [evs_number] at hv
    rcases List.mem_cons.1 hv with rfl | hv
    · exact h1
    · rcases List.mem_append.1 hv with hv | hv
      · have key : ∀ l : List PElem, (∀ x ∈ l, x ∈ kids) → ∀ s, v ∈ evsL (numberL s l) → P v.elem.tag := by
          intro l
          induction l with
          | nil => intro _ s hv; cases hv
          | cons k ks ihl =>
            intro hm s hv
            rw [numberL, evsL] at hv
            rcases List.mem_append.1 hv with hv | hv
            · exact ih k (hm k (by simp)) (h2 k (hm k (by simp))) s v hv
            · exact ihl (fun x hx => hm x (by simp [hx])) _ hv
        exact key kids (fun _ h => h) _ hv
      · cases List.mem_singleton.1 hv
        exact h1

theorem evsL_tags {P : Str → Prop} : ∀ (l : List PElem), (∀ e ∈ l, Every (fun x => P x.tag) e) → ∀ s, ∀ v ∈ evsL (numberL s l), P v.elem.tag := by
  intro l
  induction l with
  | nil => intro _ s v hv; cases hv
  | cons k ks ih =>
    intro h s v hv
    rw [numberL, evsL] at hv
    rcases List.mem_append.1 hv with hv | hv
    · exact evs_tags k (h k (by simp)) s v hv
    · exact ih (fun x hx => h x (by simp [hx])) _ v hv

/-! ### Elements that are complete -/

theorem viewL_of {st : XSt} {kids : List PElem} (h : ∀ k ∈ kids, ∀ s, (∀ i, s ≤ i → i < s + k.events → st.clr i = 0) →
      s + k.events ≤ st.n → view st (number s k) = k) (hnm : st.n ≤ st.m) :
    ∀ s, (∀ i, s ≤ i → i < s + PElem.eventsL kids → st.clr i = 0) → s + PElem.eventsL kids ≤ st.n →
      viewL st 0 (numberL s kids) = kids := by
  induction kids with
  | nil => intro s _ _; rfl
  | cons k ks ih =>
    intro s hc hs
    rw [PElem.eventsL] at hc hs
    have := k.events_pos
    rw [numberL, viewL, number_start, if_pos ⟨Nat.zero_le _, by omega⟩,
      h k (by simp) s (fun i h1 h2 => hc i h1 (by omega)) (by omega),
      ih (fun x hx => h x (by simp [hx])) _ (fun i h1 h2 => hc i (by omega) (by omega)) (by omega)]
    rfl

theorem view_done {st : XSt} (hnm : st.n ≤ st.m) : ∀ (e : PElem), Every (fun x => x.nsmap ≠ none) e → ∀ s,
    (∀ i, s ≤ i → i < s + e.events → st.clr i = 0) → s + e.events ≤ st.n → view st (number s e) = e := by
  refine PElem.ind fun tag attrs ns text kids ih h s hc hs => ?_
  cases h with
  | mk h1 h2 =>
    rw [PElem.events] at hc hs
    have h0 : st.clr s = 0 := hc s (Nat.le_refl _) (by omega)
    have hk : viewL st 0 (numberL (s + 1) kids) = kids :=
      viewL_of (fun k hk s hc hs => ih k hk (h2 k hk) s hc hs) hnm (s + 1) (fun i a b => hc i (by omega) (by omega)) (by omega)
    simp only [PElem.nsmap] at h1
    cases ns with
    | none => exact absurd rfl h1
    | some ns =>
      rw [number, view, h0, if_pos rfl, if_pos ⟨rfl, by omega⟩, if_pos ⟨by omega, by omega⟩, hk]
      rfl

theorem viewL_done {st : XSt} (hnm : st.n ≤ st.m) {kids : List PElem} (h : ∀ k ∈ kids, Every (fun x => x.nsmap ≠ none) k) (s : Nat)
    (hc : ∀ i, s ≤ i → i < s + PElem.eventsL kids → st.clr i = 0) (hs : s + PElem.eventsL kids ≤ st.n) :
    viewL st 0 (numberL s kids) = kids :=
  viewL_of (fun k hk s hc hs => view_done hnm k (h k hk) s hc hs) hnm s hc hs

theorem viewL_append (st : XSt) (c : Nat) (a b : List NElem) : viewL st c (a ++ b) = viewL st c a ++ viewL st c b := by
  induction a with
  | nil => rfl
  | cons x a ih => rw [List.cons_append, viewL, viewL, ih, List.append_assoc]

theorem viewL_tags (st : XSt) (c : Nat) {P : Str → Prop} : ∀ (l : List PElem), (∀ k ∈ l, P k.tag) → ∀ s,
    ∀ v ∈ viewL st c (numberL s l), P v.tag := by
  intro l
  induction l with
  | nil => intro _ s v hv; cases hv
  | cons k ks ih =>
    intro h s v hv
    rw [numberL, viewL] at hv
    rcases List.mem_append.1 hv with hv | hv
    · split at hv
      · cases List.mem_singleton.1 hv
        have := h k (by simp)
        cases k
        rw [number, view]
        exact this
      · cases hv
    · exact ih (fun x hx => h x (by simp [hx])) _ v hv

/-! ### Which elements are cleared -/

/-- all of these numbers belong to elements with numbers from `s` to `t` -/
def InRange (s t : Nat) (l : List Nat) : Prop := ∀ i ∈ l, s ≤ i ∧ i < t

theorem InRange.mono {s t s' t' : Nat} {l : List Nat} (h : InRange s t l) (h1 : s' ≤ s) (h2 : t ≤ t') : InRange s' t' l :=
  fun i hi => ⟨Nat.le_trans h1 (h i hi).1, Nat.lt_of_lt_of_le (h i hi).2 h2⟩

theorem mem_numberL {x : NElem} : ∀ (l : List PElem) (s : Nat), x ∈ numberL s l → ∃ k ∈ l, ∃ s', x = number s' k ∧ s ≤ s' ∧
    s' + k.events ≤ s + PElem.eventsL l := by
  intro l
  induction l with
  | nil => intro s h; cases h
  | cons k ks ih =>
    intro s h
    rw [numberL] at h
    rw [PElem.eventsL]
    rcases List.mem_cons.1 h with rfl | h
    · exact ⟨k, by simp, s, rfl, Nat.le_refl _, by omega⟩
    · obtain ⟨k', hk', s', h1, h2, h3⟩ := ih _ h
      exact ⟨k', by simp [hk'], s', h1, by omega, by omega⟩

theorem visMcL_eq (st : XSt) (c : Nat) (l : List NElem) : visMcL st c l =
    (l.filter fun k => c ≤ k.start ∧ k.start < st.m).flatMap (visMc st) := by
  induction l with
  | nil => rfl
  | cons k ks ih =>
    rw [visMcL, ih, List.filter_cons]
    by_cases h : c ≤ k.start ∧ k.start < st.m
    · rw [if_pos h, if_pos (decide_eq_true h), List.flatMap_cons]
    · rw [if_neg h, if_neg (by simpa using h)]; rfl

theorem vkids_number {st : XSt} {s : Nat} {e : PElem} {x : NElem} (h : x ∈ vkids st (number s e)) :
    ∃ k ∈ e.kids, ∃ s', x = number s' k ∧ s + 1 ≤ s' ∧ s' + k.events < s + e.events := by
  cases e
  rw [number, vkids] at h
  obtain ⟨k, hk, s', h1, h2, h3⟩ := mem_numberL _ _ (List.mem_filter.1 h).1
  exact ⟨k, hk, s', h1, h2, by rw [PElem.events]; omega⟩

theorem flatMap_range {f : NElem → List Nat} {l : List NElem} {s t : Nat} (h : ∀ x ∈ l, InRange s t (f x)) : InRange s t (l.flatMap f) := by
  intro i hi
  obtain ⟨x, hx, hxi⟩ := List.mem_flatMap.1 hi
  exact h x hx i hxi

theorem cons_range {a s t : Nat} {l : List Nat} (h : s ≤ a ∧ a < t) (hl : InRange s t l) : InRange s t (a :: l) := by
  intro i hi
  rcases List.mem_cons.1 hi with rfl | hi
  · exact h
  · exact hl i hi

theorem append_range {s t : Nat} {a b : List Nat} (ha : InRange s t a) (hb : InRange s t b) : InRange s t (a ++ b) := by
  intro i hi
  rcases List.mem_append.1 hi with hi | hi
  · exact ha i hi
  · exact hb i hi

theorem visMc_range (st : XSt) : ∀ (e : PElem) (s : Nat), InRange s (s + e.events) (visMc st (number s e)) := by
  refine PElem.ind fun tag attrs ns text kids ih s => ?_
  rw [number, visMc, visMcL_eq, PElem.events]
  refine cons_range ⟨Nat.le_refl _, by omega⟩ (flatMap_range fun x hx => ?_)
  obtain ⟨k, hk, s', rfl, h2, h3⟩ := mem_numberL _ _ (List.mem_filter.1 hx).1
  exact (ih k hk s').mono (by omega) (by omega)

theorem visMd_range (st : XSt) (e : PElem) (s : Nat) : InRange s (s + e.events) (visMd st (number s e)) := by
  have := e.events_pos
  refine cons_range ⟨by rw [number_start]; exact Nat.le_refl _, by rw [number_start]; omega⟩ (flatMap_range fun x hx => ?_)
  obtain ⟨k, hk, s', rfl, h2, h3⟩ := vkids_number (List.mem_filter.1 hx).1
  exact (visMc_range st k s').mono (by omega) (by omega)

theorem visTier_range (st : XSt) (e : PElem) (s : Nat) : InRange s (s + e.events) (visTier st (number s e)) := by
  have := e.events_pos
  refine cons_range ⟨by rw [number_start]; exact Nat.le_refl _, by rw [number_start]; omega⟩ (append_range (flatMap_range fun x hx => ?_) ?_)
  · obtain ⟨k, hk, s', rfl, h2, h3⟩ := vkids_number (List.mem_filter.1 hx).1
    exact (visMd_range st k s').mono (by omega) (by omega)
  · intro i hi
    obtain ⟨x, hx, rfl⟩ := List.mem_map.1 hi
    obtain ⟨k, hk, s', rfl, h2, h3⟩ := vkids_number (List.mem_filter.1 hx).1
    have := k.events_pos
    rw [number_start]
    omega

theorem visIgt_range (st : XSt) (e : PElem) (s : Nat) : InRange s (s + e.events) (visIgt st (number s e)) := by
  have := e.events_pos
  refine cons_range ⟨by rw [number_start]; exact Nat.le_refl _, by rw [number_start]; omega⟩ (append_range (flatMap_range fun x hx => ?_)
    (flatMap_range fun x hx => ?_))
  · obtain ⟨k, hk, s', rfl, h2, h3⟩ := vkids_number (List.mem_filter.1 hx).1
    exact (visMd_range st k s').mono (by omega) (by omega)
  · obtain ⟨k, hk, s', rfl, h2, h3⟩ := vkids_number (List.mem_filter.1 hx).1
    exact (visTier_range st k s').mono (by omega) (by omega)

/-- when a metadata element before number `t` is decoded, only elements before `t` are cleared -/
theorem visCorpus_range {st : XSt} {e : PElem} {ms ks : List PElem} (he : e.kids = ms ++ ks) (hk : ∀ k ∈ ks, k.tag ≠ lit! "metadata") :
    InRange 1 (1 + PElem.eventsL ms) (visCorpus st (number 0 e)) := by
  refine flatMap_range fun x hx => ?_
  obtain ⟨hx, ht⟩ := List.mem_filter.1 hx
  cases e with
  | mk tag attrs ns text kids =>
    simp only [PElem.kids] at he
    subst he
    rw [number, vkids, numberL_append] at hx
    rcases List.mem_append.1 (List.mem_filter.1 hx).1 with hx | hx
    · obtain ⟨k, hk, s', rfl, h2, h3⟩ := mem_numberL _ _ hx
      exact (visMd_range st k s').mono (by omega) (by omega)
    · obtain ⟨k, hk', s', rfl, h2, h3⟩ := mem_numberL _ _ hx
      rw [number_tag] at ht
      exact absurd (of_decide_eq_true ht) (hk k hk')

/-! ### The event loop -/

section
variable [Uni]

/-- results up to the first exception -/
def upToError : List (Py Obj) → List (Py Obj)
  | [] => []
  | .error e :: _ => [.error e]
  | .ok x :: xs => .ok x :: upToError xs

theorem genIgts_skip (look : Nat → Nat) (root : Nat) (clr : Nat → Nat) (b : List XEv) : ∀ (a : List XEv) (n : Nat),
    (∀ v ∈ a, v.elem.tag ≠ lit! "igt" ∧ v.elem.tag ≠ lit! "xigt-corpus") →
    genIgts look root n clr (a ++ b) = genIgts look root (n + a.length) clr b := by
  intro a
  induction a with
  | nil => intro n _; rfl
  | cons v a ih =>
    intro n h
    have hv := h v (by simp)
    have ih := ih (n + 1) fun w hw => h w (by simp [hw])
    rw [List.length_cons, show n + (a.length + 1) = n + 1 + a.length by omega, ← ih]
    cases v with
    | start e => rw [List.cons_append, genIgts]
    | stop e =>
      simp only [XEv.elem] at hv
      rw [List.cons_append, genIgts, if_neg hv.2, if_neg hv.1]

theorem openLoop_skip (look : Nat → Nat) (root : NElem) (b : List XEv) : ∀ (a : List XEv) (n : Nat),
    (∀ v ∈ a, v.elem.tag ≠ lit! "igt" ∧ v.elem.tag ≠ lit! "xigt-corpus") →
    openLoop look root n (a ++ b) = openLoop look root (n + a.length) b := by
  intro a
  induction a with
  | nil => intro n _; rfl
  | cons v a ih =>
    intro n h
    have hv := h v (by simp)
    have ih := ih (n + 1) fun w hw => h w (by simp [hw])
    rw [List.length_cons, show n + (a.length + 1) = n + 1 + a.length by omega, ← ih]
    cases v with
    | start e => simp only [XEv.elem] at hv; rw [List.cons_append, openLoop, if_neg hv.1]
    | stop e => simp only [XEv.elem] at hv; rw [List.cons_append, openLoop, if_neg hv.2]

/-- what holds of the children of a root in the writer's layout -/
def IgtPart (k : PElem) : Prop :=
  k.tag ≠ lit! "metadata" ∧ k.tag ≠ lit! "xigt-corpus" ∧ k.nsmap ≠ none ∧ ∀ x ∈ k.kids, Every Quiet x

theorem IgtPart.ns {k : PElem} (h : IgtPart k) : Every (fun x => x.nsmap ≠ none) k := by
  obtain ⟨tag, attrs, ns, text, kids⟩ := k
  exact .mk h.2.2.1 fun x hx => (h.2.2.2 x hx).mono fun e he => he.1

theorem genIgts_igts (look : Nat → Nat) (rt : NElem) (hroot : rt.tag = lit! "xigt-corpus") (rest : List XEv) :
    ∀ (ks : List PElem), (∀ k ∈ ks, IgtPart k) → ∀ (n : Nat) (clr : Nat → Nat), rt.start < n → (∀ i, n ≤ i → clr i = 0) →
    genIgts look rt.start n clr (evsL (numberL n ks) ++ .stop rt :: rest) =
      upToError ((ks.filter fun k => k.tag = lit! "igt").map readIgt) := by
  intro ks
  induction ks with
  | nil =>
    intro _ n clr _ _
    show genIgts look rt.start n clr (.stop rt :: rest) = []
    rw [genIgts, if_pos hroot]
  | cons k ks ih =>
    intro h n clr hn hc
    have hk := h k (by simp)
    have ih := ih fun x hx => h x (by simp [hx])
    have hlen := evs_length k n
    have hq : ∀ v ∈ evsL (numberL (n + 1) k.kids), v.elem.tag ≠ lit! "igt" ∧ v.elem.tag ≠ lit! "xigt-corpus" := by
      intro v hv
      exact evsL_tags (P := fun t => t ≠ lit! "igt" ∧ t ≠ lit! "xigt-corpus") _ (fun e he => (hk.2.2.2 e he).mono fun e h => h.2) _ v hv
    rw [numberL, evsL, List.append_assoc]
    have hev : evs (number n k) = .start (number n k) :: (evsL (numberL (n + 1) k.kids) ++ [.stop (number n k)]) := by
      cases k; exact evs_number _ _ _ _ _ _
    have hkl : k.events = PElem.eventsL k.kids + 2 := by cases k; rfl
    rw [hev, List.cons_append, genIgts, List.append_assoc, genIgts_skip look _ clr _ _ _ hq, evsL_length, List.singleton_append, genIgts,
      number_tag, if_neg hk.2.1]
    have hnn : n + 1 + PElem.eventsL k.kids + 1 = n + k.events := by omega
    by_cases ht : k.tag = lit! "igt"
    · rw [if_pos ht]
      have hview : view (advance look (n + 1 + PElem.eventsL k.kids) clr) (number n k) = k := by
        refine view_done ?_ k hk.ns n (fun i h1 _ => hc i h1) ?_
        · exact Nat.le_max_left _ _
        · show n + k.events ≤ n + 1 + PElem.eventsL k.kids + 1
          omega
      rw [hview, List.filter_cons, if_pos (decide_eq_true ht), List.map_cons]
      cases hr : readIgt k with
      | error e => rfl
      | ok x =>
        simp only []
        rw [hnn, ih (n + k.events) _ (by omega), upToError]
        intro i hi
        unfold clearAt
        rw [if_neg]
        · exact hc i (by omega)
        · intro hm
          rcases List.mem_cons.1 hm with rfl | hm
          · omega
          · have := visIgt_range _ k n i hm
            omega
    · rw [if_neg ht, hnn, ih (n + k.events) clr (by omega) (fun i hi => hc i (by omega)), List.filter_cons,
        if_neg (by simpa using ht)]

/-- what `openXml` does with a document of the usual layout -/
def openDirect (e : PElem) : Py Opened := do
  let d ← xmlData .corpus [lit! "id"] (some (lit! "xigt-corpus")) e
  let ms ← mapPy readMd (findall e (lit! "metadata"))
  let x ← construct { d with type := none } ms []
  .ok ⟨x, upToError ((findall e (lit! "igt")).map readIgt)⟩

theorem xmlData_view {c i x} {e e' : PElem} (h1 : e.tag = e'.tag) (h2 : e.attrs = e'.attrs) (h3 : e.nsmap = e'.nsmap) :
    xmlData c i x e = xmlData c i x e' := by
  unfold xmlData getAttrs
  rw [h1, h2, h3]

/-- the root as it looks when the metadata is complete -/
theorem view_root {look : Nat → Nat} {n : Nat} {e : PElem} {ms ks : List PElem} (he : e.kids = ms ++ ks) (hns : e.nsmap ≠ none)
    (hms : ∀ x ∈ ms, Every Quiet x) (hks : ∀ k ∈ ks, IgtPart k) (hn : PElem.eventsL ms ≤ n) :
    xmlData .corpus [lit! "id"] (some (lit! "xigt-corpus")) (view (advance look n fun _ => 0) (number 0 e)) =
      xmlData .corpus [lit! "id"] (some (lit! "xigt-corpus")) e ∧
    findall (view (advance look n fun _ => 0) (number 0 e)) (lit! "metadata") = findall e (lit! "metadata") := by
  obtain ⟨tag, attrs, ns, text, kids⟩ := e
  simp only [PElem.kids] at he
  simp only [PElem.nsmap] at hns
  subst he
  cases ns with
  | none => exact absurd rfl hns
  | some ns =>
    rw [number, view]
    constructor
    · refine xmlData_view rfl ?_ ?_
      · simp [PElem.attrs, advance]
      · simp [PElem.nsmap, advance]
    · simp only [findall, PElem.kids]
      rw [numberL_append, viewL_append, List.filter_append, List.filter_append]
      have h1 : viewL (advance look n fun _ => 0) 0 (numberL (0 + 1) ms) = ms :=
        viewL_done (Nat.le_max_left _ _) (fun k hk => (hms k hk).mono fun e h => h.1) _ (fun _ _ _ => rfl)
          (by show 0 + 1 + PElem.eventsL ms ≤ n + 1; omega)
      have h2 : ∀ l : List PElem, (∀ v ∈ l, v.tag ≠ lit! "metadata") → l.filter (fun k => decide (k.tag = lit! "metadata")) = [] := by
        intro l hl
        rw [List.filter_eq_nil_iff]
        intro v hv
        simpa using hl v hv
      have h0 : (advance look n fun _ => 0).clr 0 = 0 := rfl
      rw [h0, h1, h2 _ (viewL_tags _ _ (P := fun t => t ≠ lit! "metadata") ks (fun k hk => (hks k hk).1) _), h2 ks fun k hk => (hks k hk).1]

theorem quiet_tags {x : PElem} (h : Every Quiet x) : Every (fun x => x.tag ≠ lit! "igt" ∧ x.tag ≠ lit! "xigt-corpus") x :=
  h.mono fun _ h => h.2

theorem openLoop_igts (look : Nat → Nat) {e : PElem} {ms ks₀ : List PElem} (htag : e.tag = lit! "xigt-corpus") (he : e.kids = ms ++ ks₀)
    (hns : e.nsmap ≠ none) (hms : ∀ x ∈ ms, Every Quiet x) (hks₀ : ∀ k ∈ ks₀, IgtPart k) : ∀ (ks : List PElem),
    (∀ k ∈ ks, k ∈ ks₀) → ∀ n, PElem.eventsL ms < n → (ks = [] → n = 1 + PElem.eventsL e.kids) →
    (ks₀.filter fun k => k.tag = lit! "igt") = ks.filter (fun k => k.tag = lit! "igt") →
    (∀ k rest, ks = k :: rest → n + PElem.eventsL ks = 1 + PElem.eventsL e.kids) →
    openLoop look (number 0 e) n (evsL (numberL n ks) ++ [.stop (number 0 e)]) = openDirect e := by
  have hfi : findall e (lit! "igt") = ks₀.filter fun k => k.tag = lit! "igt" := by
    rw [findall, he, List.filter_append]
    have : ms.filter (fun k => decide (k.tag = lit! "igt")) = [] := by
      rw [List.filter_eq_nil_iff]
      intro x hx
      simpa using (hms x hx).here.2.1
    rw [this]; rfl
  intro ks
  induction ks with
  | nil =>
    intro _ n hn hend hfil _
    obtain ⟨v1, v2⟩ := view_root (look := look) he hns hms hks₀ (n := n) (by omega)
    have hall : view (advance look n fun _ => 0) (number 0 e) = e := by
      refine view_done (Nat.le_max_left _ _) e ?_ 0 (fun _ _ _ => rfl) ?_
      · obtain ⟨tag, attrs, ns, text, kids⟩ := e
        refine .mk hns fun k hk => ?_
        simp only [PElem.kids] at he
        rw [he] at hk
        rcases List.mem_append.1 hk with hk | hk
        · exact (hms k hk).mono fun e h => h.1
        · exact (hks₀ k hk).ns
      · have := hend rfl
        have hkl : e.events = PElem.eventsL e.kids + 2 := by cases e; rfl
        show 0 + e.events ≤ n + 1
        omega
    show openLoop look (number 0 e) n [.stop (number 0 e)] = _
    rw [openLoop, number_tag, if_pos htag, openDirect]
    simp only [hall, hfi, hfil, List.filter_nil, mapPy, List.map_nil, bind, Except.bind, pure, Except.pure]
    rfl
  | cons k ks ih =>
    intro hmem n hn hend hfil hpos
    have hk := hks₀ k (hmem k (by simp))
    have hev : evs (number n k) = .start (number n k) :: (evsL (numberL (n + 1) k.kids) ++ [.stop (number n k)]) := by
      cases k; exact evs_number _ _ _ _ _ _
    have hlen := evs_length k n
    have hp := hpos k ks rfl
    rw [PElem.eventsL] at hp
    by_cases ht : k.tag = lit! "igt"
    · obtain ⟨v1, v2⟩ := view_root (look := look) he hns hms hks₀ (n := n) (by omega)
      have hgen : ∀ clr : Nat → Nat, (∀ i, n ≤ i → clr i = 0) → genIgts look (number 0 e).start (n + 1) clr
          (evsL (numberL (n + 1) k.kids) ++ ([.stop (number n k)] ++ (evsL (numberL (n + k.events) ks) ++ [.stop (number 0 e)]))) =
          upToError ((findall e (lit! "igt")).map readIgt) := by
        intro clr hc
        have := genIgts_igts look (number 0 e) (by rw [number_tag]; exact htag) [] (k :: ks)
          (fun x hx => hks₀ x (hmem x hx)) n clr (by rw [number_start]; omega) hc
        rw [numberL, evsL, hev, List.append_assoc, List.cons_append, genIgts, List.append_assoc] at this
        rw [hfi, hfil]
        exact this
      rw [numberL, evsL, hev, List.append_assoc, List.cons_append, openLoop, number_tag, if_pos ht, openDirect]
      simp only [v1, v2, List.append_assoc]
      rw [hgen]
      intro i hi
      unfold clearAt
      rw [if_neg]
      · rfl
      · intro hm
        have := visCorpus_range he (fun k hk => (hks₀ k hk).1) i hm
        omega
    · have hq : ∀ v ∈ evs (number n k), v.elem.tag ≠ lit! "igt" ∧ v.elem.tag ≠ lit! "xigt-corpus" := by
        refine evs_tags (P := fun t => t ≠ lit! "igt" ∧ t ≠ lit! "xigt-corpus") k ?_ n
        obtain ⟨tag, attrs, ns, text, kids⟩ := k
        exact .mk ⟨ht, hk.2.1⟩ fun x hx => quiet_tags (hk.2.2.2 x hx)
      rw [numberL, evsL, List.append_assoc, openLoop_skip look _ _ _ _ hq, hlen]
      refine ih (fun x hx => hmem x (by simp [hx])) _ (by omega) ?_ ?_ ?_
      · rintro rfl
        rw [PElem.eventsL] at hp
        omega
      · rw [hfil, List.filter_cons, if_neg (by simpa using ht)]
      · intro k' rest hr
        omega

theorem openXml_layout (look : Nat → Nat) {e : PElem} (h : Layout e) : openXml look e = openDirect e := by
  obtain ⟨htag, hns, ms, ks, he, hms, hks⟩ := h
  have hev : evs (number 0 e) = .start (number 0 e) :: (evsL (numberL 1 e.kids) ++ [.stop (number 0 e)]) := by
    cases e; exact evs_number _ _ _ _ _ _
  have hq : ∀ v ∈ evsL (numberL 1 ms), v.elem.tag ≠ lit! "igt" ∧ v.elem.tag ≠ lit! "xigt-corpus" :=
    evsL_tags (P := fun t => t ≠ lit! "igt" ∧ t ≠ lit! "xigt-corpus") ms (fun x hx => quiet_tags (hms x hx)) 1
  have hsum : PElem.eventsL e.kids = PElem.eventsL ms + PElem.eventsL ks := by
    rw [he]
    clear hms hq he
    induction ms with
    | nil => simp [PElem.eventsL]
    | cons x ms ih => rw [List.cons_append, PElem.eventsL, PElem.eventsL, ih]; omega
  rw [openXml, hev, openLoop, number_tag, if_neg (by rw [htag]; decide), he, numberL_append, evsL_append, List.append_assoc,
    openLoop_skip look _ _ _ _ hq, evsL_length]
  refine openLoop_igts look htag he hns hms hks ks (fun _ h => h) _ (by omega) ?_ rfl ?_
  · rintro rfl
    rw [hsum, PElem.eventsL]; omega
  · intro k rest _
    omega

theorem drain_upToError (l : List (Py Obj)) : drain (upToError l) = drain l := by
  induction l with
  | nil => rfl
  | cons x l ih =>
    cases x with
    | error e => rfl
    | ok x => rw [upToError, drain, drain, ih]

theorem drain_map {α : Type} (f : α → Py Obj) (l : List α) : drain (l.map f) = mapPy f l := by
  induction l with
  | nil => rfl
  | cons x l ih => rw [List.map_cons, drain, mapPy, ih]

theorem construct_ok_iff {d : Data} {md kids : List Obj} {x : Obj} : construct d md kids = .ok x ↔
    x = .mk d md kids ∧ construct d md [] = .ok (.mk d md []) ∧ dupId kids = false := by
  unfold construct
  by_cases h1 : d.id.all idAccepted = false
  · simp [h1]
  by_cases h2 : d.name.all nameOK = false
  · simp [h1, h2]
  simp only [h1, h2, if_false, dupId, Bool.or_false]
  cases h3 : dupId md <;> cases h4 : dupId kids <;> simp [eq_comm]

theorem upToError_ok (l : List Obj) : upToError (l.map .ok) = l.map .ok := by
  induction l with
  | nil => rfl
  | cons x l ih => rw [List.map_cons, upToError, ih]

theorem mapPy_map_ok {α : Type} {f : α → Py Obj} {l : List α} {ys : List Obj} (h : mapPy f l = .ok ys) : l.map f = ys.map .ok := by
  induction l generalizing ys with
  | nil => cases h; rfl
  | cons x l ih =>
    simp only [mapPy, bind, Except.bind, pure, Except.pure] at h
    split at h
    · cases h
    · rename_i y hy
      split at h
      · cases h
      · rename_i ys' hys
        cases h
        rw [List.map_cons, List.map_cons, hy, ih hys]

theorem uniqueIds_of {xs : List Obj} (h : dupId xs = false) : UniqueIds xs := by
  induction xs with
  | nil => simp [UniqueIds]
  | cons x xs ih =>
    rw [dupId, Bool.or_eq_false_iff] at h
    have ih := ih h.2
    unfold UniqueIds at ih ⊢
    rw [List.filterMap_cons]
    cases hx : x.data.id with
    | none => exact ih
    | some i =>
      refine List.nodup_cons.2 ⟨?_, ih⟩
      intro hm
      obtain ⟨y, hy, he⟩ := List.mem_filterMap.1 hm
      have h1 := h.1
      rw [Bool.and_eq_false_iff] at h1
      rcases h1 with h1 | h1
      · simp [hx] at h1
      · rw [List.any_eq_false] at h1
        have := h1 y hy
        simp [he, hx] at this

/-- C42 for documents in the writer's layout (`Layout`): how the input is cut into chunks makes no
difference, neither to what is opened nor to what is loaded; and the corpus loaded is that of the
complete document; and the IGTs that are yielded in any mode are those of that corpus.
Missing: documents in which elements within metadata are called `igt` or `xigt-corpus` (`C42_refuted`). -/
theorem C42_partial (e : PElem) (h : Layout e) :
    (∀ look look', openXml look e = openXml look' e ∧ loadXml look e = loadXml look' e) ∧
    (∀ look x, loadXml look e = .ok x ↔ readCorpus e = .ok x) ∧
    (∀ look x, readCorpus e = .ok x → ∃ o, openXml look e = .ok o ∧ o.corpus = .mk x.data x.md [] ∧ o.igts = x.kids.map .ok ∧
      ∀ mode, ∃ c, mkCorpus mode .once x.kids = .ok c ∧ ∃ c', Complete c .fresh x.kids c') := by
  refine ⟨fun look look' => ⟨by rw [openXml_layout look h, openXml_layout look' h], by
    rw [loadXml, loadXml, openXml_layout look h, openXml_layout look' h]⟩, fun look x => ?_, fun look x hx => ?_⟩
  · rw [loadXml, openXml_layout look h, openDirect, readCorpus]
    simp only [bind, Except.bind]
    cases hd : xmlData .corpus [lit! "id"] (some (lit! "xigt-corpus")) e with
    | error _ => simp
    | ok d =>
      simp only []
      cases hm : mapPy readMd (findall e (lit! "metadata")) with
      | error _ => simp
      | ok ms =>
        simp only []
        cases hk : mapPy readIgt (findall e (lit! "igt")) with
        | error er =>
          simp only []
          constructor
          · intro hc
            split at hc
            · cases hc
            · rename_i o ho
              split at ho
              · cases ho
              · cases ho
                simp only [drain_upToError, drain_map, hk] at hc
                cases hc
          · intro hc; cases hc
        | ok ks =>
          simp only []
          rw [construct_ok_iff]
          constructor
          · intro hc
            split at hc
            · cases hc
            · rename_i o ho
              split at ho
              · cases ho
              · rename_i y hy
                cases ho
                simp only [drain_upToError, drain_map, hk] at hc
                obtain ⟨rfl, _, _⟩ := construct_ok_iff.1 hy
                exact construct_ok_iff.1 hc
          · rintro ⟨rfl, h1, h2⟩
            rw [h1]
            simp only [drain_upToError, drain_map, hk]
            exact construct_ok_iff.2 ⟨rfl, h1, h2⟩
  · rw [openXml_layout look h, openDirect]
    rw [readCorpus] at hx
    simp only [bind, Except.bind] at hx ⊢
    split at hx
    · cases hx
    · rename_i d hd
      split at hx
      · cases hx
      · rename_i ms hms
        split at hx
        · cases hx
        · rename_i ks hks
          obtain ⟨rfl, h1, h2⟩ := construct_ok_iff.1 hx
          simp only [h1]
          refine ⟨_, rfl, rfl, ?_, fun mode => C36_partial mode .once (by decide) ks (uniqueIds_of h2)⟩
          rw [mapPy_map_ok hks, upToError_ok]
          rfl

/-! ### What is written has the layout -/

variable [XmlLex]

/-- no MetaChild has a name the event loop reacts to, unless it is in a namespace that is declared; `eff` is
the namespace map of the parent -/
inductive NamesOK : Dict Str Str → Obj → Prop
  | mk {eff d md kids} : (∀ n, d.name = some n → (∀ u, d.ns = some u → ∀ p, Dict.get? (d.nsmap.getD eff) p ≠ some u) →
        n ≠ lit! "igt" ∧ n ≠ lit! "xigt-corpus") →
      (∀ x ∈ md, NamesOK (d.nsmap.getD eff) x) → (∀ x ∈ kids, NamesOK (d.nsmap.getD eff) x) → NamesOK eff (.mk d md kids)

theorem parse_ns {scope e p} (h : parseElem scope e = .ok p) : p.nsmap ≠ none := by
  obtain ⟨tag, attrs, text, tail, kids⟩ := e
  rw [parseElem_ok_iff] at h
  obtain ⟨hd, tag', as, text', tl, kids', h1, h2, h3, h4, h5, h6, rfl⟩ := h
  simp [PElem.nsmap]

theorem no_colon_tag {rev : Dict Str Str} {tag : Str} {ns : Option Str} {scope : Dict Str Str} {dflt : Option Str} {t : Str}
    (h : resolveName scope dflt (xmlTag rev tag ns) = .ok t) (ht : t.head? ≠ some '{') : ns.bind (Dict.get? rev) = none := by
  cases hb : ns.bind (Dict.get? rev) with
  | none => rfl
  | some pre =>
    exfalso
    have hx : xmlTag rev tag ns = pre ++ ':' :: tag := by rw [xmlTag, hb]
    have key : ∀ a : Str, ∃ v, splitOnce ':' (a ++ ':' :: tag) = some v := by
      intro a
      induction a with
      | nil => exact ⟨([], tag), by simp [splitOnce]⟩
      | cons c a ih =>
        obtain ⟨v, hv⟩ := ih
        simp only [List.cons_append, splitOnce, hv]
        split
        · exact ⟨_, rfl⟩
        · exact ⟨_, rfl⟩
    obtain ⟨⟨a, b⟩, hv⟩ := key pre
    rw [hx] at h
    simp only [resolveName, hv] at h
    split at h
    · split at h
      · cases h; exact ht rfl
      · split at h
        · cases h; exact ht rfl
        · cases h
    · cases h

theorem quiet_of {tag d eff text kids e scope p} (h : buildElem tag d eff text kids = .ok e) (hp : parseElem scope e = .ok p)
    (h1 : d.ns.bind (Dict.get? (inverse (effNs d eff))) = none → tag ≠ lit! "igt" ∧ tag ≠ lit! "xigt-corpus") : Quiet p := by
  obtain ⟨s, dflt, hr⟩ := parse_tag hp
  rw [(buildElem_ok h).1] at hr
  refine ⟨parse_ns hp, fun e => ?_, fun e => ?_⟩
  · exact (h1 (no_colon_tag hr (by rw [e]; decide))).1 (written_tag h hp (by decide) e).symm
  · exact (h1 (no_colon_tag hr (by rw [e]; decide))).2 (written_tag h hp (by decide) e).symm

/-- everything read from these elements is quiet -/
def WQ (es : List Elem) : Prop := ∀ e ∈ es, ∀ scope p, parseElem scope e = .ok p → Every Quiet p

theorem WQ.kids {tag d eff text kids e scope p} (h : buildElem tag d eff text kids = .ok e) (hp : parseElem scope e = .ok p)
    (hk : WQ kids) : ∀ k ∈ p.kids, Every Quiet k := by
  intro k hkk
  obtain ⟨s', ha⟩ := parse_kids hp
  obtain ⟨x, hx, hxk⟩ := mem_all2 ha hkk
  rw [(buildElem_ok h).2] at hx
  exact hk x hx s' k hxk

theorem every_of' {tag d eff text kids e scope p} (h : buildElem tag d eff text kids = .ok e) (hp : parseElem scope e = .ok p)
    (h1 : d.ns.bind (Dict.get? (inverse (effNs d eff))) = none → tag ≠ lit! "igt" ∧ tag ≠ lit! "xigt-corpus") (hk : WQ kids) :
    Every Quiet p := by
  have hq := quiet_of h hp h1
  have hkk := hk.kids h hp
  cases p
  exact .mk hq hkk

theorem every_of {tag d eff text kids e scope p} (h : buildElem tag d eff text kids = .ok e) (hp : parseElem scope e = .ok p)
    (h1 : tag ≠ lit! "igt") (h2 : tag ≠ lit! "xigt-corpus") (hk : WQ kids) : Every Quiet p :=
  every_of' h hp (fun _ => ⟨h1, h2⟩) hk

theorem WQ.of_map {f : Obj → Py Elem} {xs : List Obj} {es : List Elem} (h : mapPy f xs = .ok es)
    (hf : ∀ x ∈ xs, ∀ e, f x = .ok e → ∀ scope p, parseElem scope e = .ok p → Every Quiet p) : WQ es := by
  rw [mapPy_ok_iff] at h
  intro e he scope p hp
  have key : ∀ (xs' : List Obj) (es' : List Elem), All2 (fun x y => f x = .ok y) xs' es' → (∀ x ∈ xs', x ∈ xs) → e ∈ es' → ∃ x ∈ xs, f x = .ok e := by
    intro xs' es' hall hm he
    obtain ⟨x, hx, hxe⟩ := mem_all2 hall he
    exact ⟨x, hm x hx, hxe⟩
  obtain ⟨x, hx, hxe⟩ := key _ _ h (fun _ h => h) he
  exact hf x hx e hxe scope p hp

theorem WQ.append {a b : List Elem} (ha : WQ a) (hb : WQ b) : WQ (a ++ b) := by
  intro e he
  rcases List.mem_append.1 he with he | he
  · exact ha e he
  · exact hb e he

theorem bind_ok {α β : Type} {x : Py α} {f : α → Py β} {y : β} (h : (x >>= f) = .ok y) : ∃ a, x = .ok a ∧ f a = .ok y := by
  cases x with
  | error e => cases h
  | ok a => exact ⟨a, rfl, h⟩

theorem mc_quiet : ∀ (x : Obj) (eff : Dict Str Str), NamesOK eff x → ∀ e, buildMc eff x = .ok e → ∀ scope p, parseElem scope e = .ok p → Every Quiet p := by
  refine Obj.ind fun d md kids _ ih eff hn e he scope p hp => ?_
  cases hn with
  | mk n1 n2 n3 =>
    rw [buildMc] at he
    obtain ⟨es, h1, h2⟩ := bind_ok he
    rw [buildMcs_eq] at h1
    have hname : d.ns.bind (Dict.get? (inverse (effNs d eff))) = none → d.name.getD [] ≠ lit! "igt" ∧ d.name.getD [] ≠ lit! "xigt-corpus" := by
      intro hns
      cases hd : d.name with
      | none => exact ⟨by decide, by decide⟩
      | some m =>
        refine n1 m hd fun u hu p hp => ?_
        rw [hu, Option.bind_some] at hns
        obtain ⟨q, hq⟩ := inverse_isSome (m := effNs d eff) hp
        rw [hns] at hq
        cases hq
    exact every_of' h2 hp hname (WQ.of_map h1 fun x hx e he => ih x hx _ (n3 x hx) e he)

theorem NamesOK.kids {eff : Dict Str Str} {x : Obj} (h : NamesOK eff x) : ∀ y ∈ x.kids, NamesOK (effNs x.data eff) y := by
  cases h; assumption
theorem NamesOK.md {eff : Dict Str Str} {x : Obj} (h : NamesOK eff x) : ∀ y ∈ x.md, NamesOK (effNs x.data eff) y := by
  cases h; assumption

theorem meta_quiet {x : Obj} {eff e} (hn : NamesOK eff x) (he : buildMeta eff x = .ok e) {scope p} (hp : parseElem scope e = .ok p) :
    Every Quiet p := by
  rw [buildMeta] at he
  obtain ⟨es, h1, h2⟩ := bind_ok he
  rw [buildMcs_eq] at h1
  exact every_of h2 hp (by decide) (by decide) (WQ.of_map h1 fun x hx e he => mc_quiet x _ (hn.kids x hx) e he)

theorem md_quiet {x : Obj} {eff e} (hn : NamesOK eff x) (he : buildMd eff x = .ok e) {scope p} (hp : parseElem scope e = .ok p) :
    Every Quiet p := by
  rw [buildMd] at he
  obtain ⟨es, h1, h2⟩ := bind_ok he
  exact every_of h2 hp (by decide) (by decide) (WQ.of_map h1 fun x hx e he _ _ => meta_quiet (hn.kids x hx) he)

theorem item_quiet {x : Obj} {eff e} (he : buildItem eff x = .ok e) {scope p} (hp : parseElem scope e = .ok p) :
    Every Quiet p :=
  every_of he hp (by decide) (by decide) (fun _ h => by cases h)

theorem tier_quiet {x : Obj} {eff e} (hn : NamesOK eff x) (he : buildTier eff x = .ok e) {scope p} (hp : parseElem scope e = .ok p) :
    Every Quiet p := by
  rw [buildTier] at he
  obtain ⟨ms, h1, he⟩ := bind_ok he
  obtain ⟨ks, h2, he⟩ := bind_ok he
  exact every_of he hp (by decide) (by decide) ((WQ.of_map h1 fun x hx e he _ _ => md_quiet (hn.md x hx) he).append
    (WQ.of_map h2 fun x hx e he _ _ => item_quiet he))

theorem igt_part {x : Obj} {eff e} (hn : NamesOK eff x) (he : buildIgt eff x = .ok e) {scope p} (hp : parseElem scope e = .ok p) :
    IgtPart p := by
  rw [buildIgt] at he
  obtain ⟨ms, h1, he⟩ := bind_ok he
  obtain ⟨ks, h2, he⟩ := bind_ok he
  refine ⟨fun e => ?_, fun e => ?_, parse_ns hp, ?_⟩
  · exact absurd (written_tag he hp (by decide) e) (by decide)
  · exact absurd (written_tag he hp (by decide) e) (by decide)
  · exact WQ.kids he hp ((WQ.of_map h1 fun x hx e he _ _ => md_quiet (hn.md x hx) he).append
      (WQ.of_map h2 fun x hx e he _ _ => tier_quiet (hn.kids x hx) he))

theorem all2_append {α β : Type} {R : α → β → Prop} : ∀ {a b : List α} {l : List β}, All2 R (a ++ b) l →
    ∃ l1 l2, l = l1 ++ l2 ∧ All2 R a l1 ∧ All2 R b l2 := by
  intro a
  induction a with
  | nil => intro b l h; exact ⟨[], l, rfl, .nil, h⟩
  | cons x a ih =>
    intro b l h
    cases h with
    | cons hx h =>
      obtain ⟨l1, l2, rfl, h1, h2⟩ := ih h
      exact ⟨_ :: l1, l2, rfl, .cons hx h1, h2⟩

/-- what is written has the layout -/
theorem written_layout {x : Obj} (hn : NamesOK [] x) {e p} (he : buildCorpus x = .ok e) (hp : parseElem [] e = .ok p)
    (ht : p.tag = lit! "xigt-corpus") : Layout p := by
  rw [buildCorpus] at he
  obtain ⟨ms, h1, he⟩ := bind_ok he
  obtain ⟨ks, h2, he⟩ := bind_ok he
  refine ⟨ht, parse_ns hp, ?_⟩
  obtain ⟨s', ha⟩ := parse_kids hp
  rw [(buildElem_ok he).2] at ha
  obtain ⟨l1, l2, hl, a1, a2⟩ := all2_append ha
  refine ⟨l1, l2, hl, fun k hk => ?_, fun k hk => ?_⟩
  · obtain ⟨y, hy, hyk⟩ := mem_all2 a1 hk
    exact (WQ.of_map h1 fun x hx e he _ _ => md_quiet (hn.md x hx) he) y hy s' k hyk
  · obtain ⟨y, hy, hyk⟩ := mem_all2 a2 hk
    rw [mapPy_ok_iff] at h2
    obtain ⟨z, hz, hzy⟩ := mem_all2 h2 hy
    exact igt_part (hn.kids z hz) hzy hyk

/-! ### Indentation -/

theorem every_sim : ∀ (p q : PElem), Sim p q → Every Quiet p → Every Quiet q := by
  refine PElem.ind fun tag attrs ns text kids ih q h hq => ?_
  have hkids := h.kids
  cases h with
  | mk ht hk =>
    refine .mk hq.here fun k hk' => ?_
    obtain ⟨x, hx, hxk⟩ := mem_all2 hkids hk'
    exact ih x hx k hxk (hq.kids x hx)

theorem Sim.nsmap_eq {p q} (h : Sim p q) : p.nsmap = q.nsmap := by cases h; rfl

theorem layout_sim {p q : PElem} (h : Sim p q) (hl : Layout p) : Layout q := by
  obtain ⟨h1, h2, ms, ks, h3, h4, h5⟩ := hl
  have hk := h.kids
  rw [h3] at hk
  obtain ⟨l1, l2, hl, a1, a2⟩ := all2_append hk
  refine ⟨h.tag_eq.symm.trans h1, by rw [← h.nsmap_eq]; exact h2, l1, l2, hl, fun k hk => ?_, fun k hk => ?_⟩
  · obtain ⟨x, hx, hxk⟩ := mem_all2 a1 hk
    exact every_sim x k hxk (h4 x hx)
  · obtain ⟨x, hx, hxk⟩ := mem_all2 a2 hk
    obtain ⟨i1, i2, i3, i4⟩ := h5 x hx
    refine ⟨by rw [← hxk.tag_eq]; exact i1, by rw [← hxk.tag_eq]; exact i2, by rw [← hxk.nsmap_eq]; exact i3, fun y hy => ?_⟩
    obtain ⟨z, hz, hzy⟩ := mem_all2 hxk.kids hy
    exact every_sim z y hzy (i4 z hz)

theorem map_all2 {α β : Type} {f : α → β} {R : α → α → Prop} {xs ys : List α} (h : All2 R xs ys)
    (hf : ∀ x y, R x y → f x = f y) : xs.map f = ys.map f := by
  induction h with
  | nil => rfl
  | cons hx _ ih => rw [List.map_cons, List.map_cons, hf _ _ hx, ih]

theorem openDirect_sim {p q : PElem} (h : Sim p q) (hp : ReadCorpusOK p) : openDirect p = openDirect q := by
  rw [openDirect, openDirect, h.xmlData_eq, mapPy_all2 (All2.findall h.kids _) fun x y h => readMd_sim h.1,
    map_all2 (All2.findall h.kids (lit! "igt")) fun x y h => readIgt_sim h.1 (hp x h.2.1 h.2.2)]

theorem writeRead_eq {x : Obj} {e : Elem} {p : PElem} (hn : NamesOK [] x) (hb : buildCorpus x = .ok e) (hp : parseElem [] e = .ok p)
    (ht : p.tag = lit! "xigt-corpus") (look look' : Nat → Nat) (ind : Option Int) : writeRead look ind x = loadXml look' p := by
  have hl := written_layout hn hb hp ht
  cases ind with
  | none =>
    simp only [writeRead, hb, bind, Except.bind, indent, hp]
    exact ((C42_partial p hl).1 look look').2
  | some n =>
    obtain ⟨q, hq, hs⟩ := parse_indent n e 0 [] p hp
    simp only [writeRead, hb, bind, Except.bind, indent, hq]
    rw [loadXml, loadXml, openXml_layout look (layout_sim hs hl), openXml_layout look' hl, openDirect_sim hs (corpus_written hb hp)]

/-- C41 for corpora without namespace that can be written and parsed without indentation (and have no
MetaChild called `igt` or `xigt-corpus` but in a declared namespace): the result of reading (a corpus or an exception) is the same
with every indentation and however the input is cut into chunks.
Missing: corpora whose unindented document is no XML (`C41_refuted`). -/
theorem C41_partial (x : Obj) (hn : NamesOK [] x) (e : Elem) (p : PElem) (hb : buildCorpus x = .ok e) (hp : parseElem [] e = .ok p)
    (ht : p.tag = lit! "xigt-corpus") (look look' : Nat → Nat) (ind : Option Int) :
    writeRead look ind x = writeRead look' none x := by
  rw [writeRead_eq hn hb hp ht look look' ind, writeRead_eq hn hb hp ht look' look' none]

/-- C40 for all corpora whose data `XmlKept` admits (and without MetaChild called `igt` or
`xigt-corpus`, except in a declared namespace), with every indentation, and however the input is cut into chunks: reading what was
written gives an equal corpus.  Missing: corpora that break these conditions, some of which do not
survive (`C40_refuted_...`). -/
theorem C40_partial (x : Obj) (hc : x.cls = .corpus) (hw : x.WF) (hv : x.Valid) (hk : XmlKept [] x) (hn : NamesOK [] x)
    (look : Nat → Nat) (ind : Option Int) :
    ∃ y, writeRead look ind x = .ok y ∧ SameData y x ∧ Obj.eq y x = true := by
  obtain ⟨e, p, h1, h2, h3, h4⟩ := x_corpus hc hw hv hk
  refine ⟨xres [] [] x, ?_, xres_same x _ _, ?_⟩
  · rw [writeRead_eq hn h1 h2 h3 look look ind]
    exact ((C42_partial p (written_layout hn h1 h2 h3)).2.1 look _).2 h4
  · exact (C10_eq_is_same_data _ _ (xres_wf x hw _ _) hw (xres_cls _ _ x)).2 (xres_same x _ _)

end

section
attribute [local instance] asciiUni asciiXml

/-- C40 is false: the type of a corpus becomes an attribute -/
theorem C40_refuted : ∃ x y, x.cls = .corpus ∧ x.WF ∧ x.Valid ∧ writeRead id (some 2) x = .ok y ∧ Obj.eq y x = false ∧
    y.data.type = none ∧ y.data.attrs = [(lit! "type", lit! "t")] :=
  ⟨.mk { cls := .corpus, type := some (lit! "t") } [] [],
    .mk { cls := .corpus, attrs := [(lit! "type", lit! "t")], nsmap := some [] } [] [], rfl,
    .mk Dict.wf_nil (by simp) (by simp) (by simp) (by simp) (by simp) (by simp) (by simp),
    .mk (by simp) (by simp) (by simp) (by simp) (by simp) (by simp) (by simp), rfl, by decide +kernel, rfl, rfl⟩

def exXTier (d : Data) (kids : List Obj) : Obj :=
  .mk { cls := .corpus, nsmap := some [(lit! "p", lit! "u")] } [] [.mk { cls := .igt } [] [.mk d [] kids]]

/-- C40 is false also of the text of items: an empty text is lost -/
theorem C40_refuted_text : ∃ y, writeRead id (some 2) (exXTier { cls := .tier } [.mk { cls := .item, text := some [] } [] []]) = .ok y ∧
    Obj.eq y (exXTier { cls := .tier } [.mk { cls := .item, text := some [] } [] []]) = false :=
  ⟨_, rfl, by decide +kernel⟩

/-- C40 is false also of tiers in a namespace: they are lost altogether -/
theorem C40_refuted_ns : ∃ y i, writeRead id (some 2) (exXTier { cls := .tier, ns := some (lit! "u") } []) = .ok y ∧
    y.kids = [i] ∧ i.kids = [] :=
  ⟨_, _, rfl, rfl, rfl⟩

/-- C40 is false also of line ends in text -/
theorem C40_refuted_cr : ∃ y, writeRead id (some 2) (exXTier { cls := .tier } [.mk { cls := .item, text := some ['\r'] } [] []]) = .ok y ∧
    Obj.eq y (exXTier { cls := .tier } [.mk { cls := .item, text := some ['\r'] } [] []]) = false :=
  ⟨_, rfl, by decide +kernel⟩

/-- C40 is false also of attributes in namespaces that are not declared: writing fails -/
theorem C40_refuted_key : writeRead id (some 2) (exXTier { cls := .tier, attrs := [(lit! "{w}k", lit! "v")] } []) = .error .keyError := rfl

def exCtl : Obj :=
  .mk { cls := .corpus } [.mk { cls := .metadata } [] [.mk { cls := .metaC, text := some ['\x1f'] } []
    [.mk { cls := .metaChild, name := some (lit! "m") } [] []]]] []

/-- C41 is false: a text of a control character is no XML without indentation, but is replaced with it -/
theorem C41_refuted : writeRead id none exCtl = .error .parseError ∧ ∃ y, writeRead id (some 2) exCtl = .ok y :=
  ⟨rfl, _, rfl⟩

/-- a corpus with namespaces, metadata and text -/
def exXml : Obj :=
  .mk { cls := .corpus, nsmap := some [(lit! "p", lit! "u")], attrs := [(lit! "{u}k", lit! "v")] }
    [.mk { cls := .metadata } [] [.mk { cls := .metaC, type := some (lit! "x") } []
      [.mk { cls := .metaChild, name := some (lit! "m"), ns := some (lit! "u"), text := some (lit! "t") } [] []]]]
    [.mk { cls := .igt, id := some (lit! "i1") } [] []]

/-- it is read back with every indentation (not by `C40_partial`) -/
example : ∃ y, writeRead id (some 2) exXml = .ok y ∧ Obj.eq y exXml = true := ⟨_, rfl, by decide +kernel⟩

/-- the hypotheses of `C40_partial` and `C41_partial` are met -/
example : exXml.cls = .corpus ∧ exXml.WF ∧ exXml.Valid ∧ XmlKept [] exXml ∧ NamesOK [] exXml ∧
    ∃ e p, buildCorpus exXml = .ok e ∧ parseElem [] e = .ok p ∧ p.tag = lit! "xigt-corpus" := by
  have w0 : ∀ a b : Str, Dict.WF [(a, b)] := by intro a b; unfold Dict.WF; simp [Dict.keys]
  refine ⟨rfl, ?_, ?_, ?_, ?_, _, _, rfl, rfl, rfl⟩
  · refine .mk (w0 _ _) (by simp) (by simp) (by simp [Cls.hasMd]) (by simp [Obj.cls]) (by simp [Cls.contained, Obj.cls]) ?_ ?_
    · intro y hy; cases List.mem_singleton.1 hy
      refine .mk Dict.wf_nil (by simp) (by simp) (by simp) (by simp) (by simp [Cls.contained, Obj.cls]) (by simp) ?_
      intro y hy; cases List.mem_singleton.1 hy
      refine .mk Dict.wf_nil (by simp) (by simp) (by simp) (by simp) (by simp [Cls.contained, Obj.cls]) (by simp) ?_
      intro y hy; cases List.mem_singleton.1 hy
      exact .mk Dict.wf_nil (by simp [Cls.hasText]) (by simp) (by simp) (by simp) (by simp) (by simp) (by simp)
    · intro y hy; cases List.mem_singleton.1 hy
      exact .mk Dict.wf_nil (by simp) (by simp) (by simp) (by simp) (by simp) (by simp) (by simp)
  · refine .mk (by simp) (by simp) (by decide) (by decide) (by intro i hi; cases hi; exact w0 _ _) ?_ ?_
    · intro y hy; cases List.mem_singleton.1 hy
      refine .mk (by simp) (by simp) (by decide) (by decide) (by simp) (by simp) ?_
      intro y hy; cases List.mem_singleton.1 hy
      refine .mk (by simp) (by simp) (by decide) (by decide) (by simp) (by simp) ?_
      intro y hy; cases List.mem_singleton.1 hy
      exact .mk (by simp) (by intro i hi; cases hi; decide +kernel) (by decide) (by decide) (by simp) (by simp) (by simp)
    · intro y hy; cases List.mem_singleton.1 hy
      exact .mk (by intro i hi; cases hi; decide +kernel) (by simp) (by decide) (by decide) (by simp) (by simp) (by simp)
  · have hx : ∀ s : Str, s.all isXmlChar = true → XmlChars s := fun s h => List.all_eq_true.1 h
    refine .mk ⟨?_, by simp, by simp, by simp, by simp, by simp, by simp, by simp, by simp, ?_⟩ ?_ ?_
    · intro own ho p u hp
      cases ho
      cases List.mem_singleton.1 hp
      exact ⟨⟨by decide, by decide, by decide⟩, hx _ (by decide), by decide, by decide, by decide, by decide⟩
    · intro k v hkv
      cases List.mem_singleton.1 hkv
      exact ⟨hx _ (by decide), .inr ⟨lit! "u", lit! "k", rfl, by decide, .inr ⟨lit! "p", rfl⟩⟩⟩
    · intro y hy; cases List.mem_singleton.1 hy
      refine .mk ⟨by simp, by simp, by simp, by simp, by simp, by simp, by simp, by simp, by simp, by simp⟩ (by simp) ?_
      intro y hy; cases List.mem_singleton.1 hy
      refine .mk ⟨by simp, by simp, by simp, by simp, by simp, by simp, by simp, by simp, ?_, by simp⟩ (by simp) ?_
      · intro i hi; cases hi; exact hx _ (by decide)
      intro y hy; cases List.mem_singleton.1 hy
      refine .mk ⟨by simp, by simp, ?_, by simp, by simp, ?_, ?_, by simp, by simp, by simp⟩ (by simp) (by simp)
      · intro _
        refine ⟨rfl, rfl, ?_, ?_⟩
        · intro n hn; cases hn; decide
        · intro u hu; cases hu; exact ⟨lit! "p", rfl⟩
      · intro _ t ht; cases ht; exact ⟨'t', by decide, by decide +kernel⟩
      · intro t ht; cases ht; exact ⟨hx _ (by decide), by decide⟩
    · intro y hy; cases List.mem_singleton.1 hy
      refine .mk ⟨by simp, by simp, by simp, by simp, by simp, by simp, by simp, ?_, by simp, by simp⟩ (by simp) (by simp)
      intro i hi; cases hi; exact hx _ (by decide)

  · refine .mk (by simp) ?_ ?_
    · intro y hy; cases List.mem_singleton.1 hy
      refine .mk (by simp) (by simp) ?_
      intro y hy; cases List.mem_singleton.1 hy
      refine .mk (by simp) (by simp) ?_
      intro y hy; cases List.mem_singleton.1 hy
      exact .mk (by intro i hi; cases hi; exact fun _ => ⟨by decide, by decide⟩) (by simp) (by simp)
    · intro y hy; cases List.mem_singleton.1 hy
      exact .mk (by simp) (by simp) (by simp)

/-- the hypothesis of `C42_partial` is met: the document written for `exXml` -/
example : ∃ p x, Layout p ∧ readCorpus p = .ok x ∧ x.kids.length = 1 := by
  refine ⟨_, _, written_layout (x := exXml) ?_ rfl rfl rfl, rfl, rfl⟩
  refine .mk (by simp) ?_ ?_
  · intro y hy; cases List.mem_singleton.1 hy
    refine .mk (by simp) (by simp) ?_
    intro y hy; cases List.mem_singleton.1 hy
    refine .mk (by simp) (by simp) ?_
    intro y hy; cases List.mem_singleton.1 hy
    exact .mk (by intro i hi; cases hi; exact fun _ => ⟨by decide, by decide⟩) (by simp) (by simp)
  · intro y hy; cases List.mem_singleton.1 hy
    exact .mk (by simp) (by simp) (by simp)

/-- metadata with a MetaChild of that name, and one IGT -/
def exNamed (n : Str) : Obj :=
  .mk { cls := .corpus }
    [.mk { cls := .metadata } [] [.mk { cls := .metaC } [] [.mk { cls := .metaChild, name := some n } [] []]]]
    [.mk { cls := .igt, id := some (lit! "i1") } [] []]

/-- C42 is false: what is loaded from a document the codec wrote depends on how far the parser has read
(all IGTs are lost, or an exception is raised) -/
theorem C42_refuted : ∃ y, writeRead id none (exNamed (lit! "xigt-corpus")) = .ok y ∧ y.kids = [] ∧
    writeRead (fun _ => 100) none (exNamed (lit! "xigt-corpus")) = .error .attributeError :=
  ⟨_, rfl, rfl, rfl⟩

/-- C40 and C42 are false also of MetaChildren called `igt` -/
theorem C42_refuted_igt : writeRead id none (exNamed (lit! "igt")) = .error .attributeError := rfl
end
end Xigt
