import Verif.Regex
/- Lemmas about the regex matcher. -/

set_option linter.unusedSimpArgs false

namespace Xigt
namespace Re

/-! ### Soundness of `run` -/

theorem starRun_sound {f : MSt → List (Str × MSt)} {g : Bool}
    (hf : ∀ st x, x ∈ f st → st.rest = x.1 ++ x.2.rest ∧ x.2.bol = (st.bol && x.1.isEmpty)) :
    ∀ fuel st x, x ∈ starRun f g fuel st →
      st.rest = x.1 ++ x.2.rest ∧ x.2.bol = (st.bol && x.1.isEmpty) := by
  intro fuel
  induction fuel with
  | zero => intro st x hx; simp [starRun] at hx; subst hx; simp
  | succ n ih =>
    intro st x hx
    have key : x = ([], st) ∨ x ∈ ((f st).filter (fun x => !x.1.isEmpty)).flatMap fun x =>
        (starRun f g n x.2).map fun y => (x.1 ++ y.1, y.2) := by
      unfold starRun at hx
      cases g <;> simp only [if_true, List.mem_append, List.mem_cons,
        List.mem_singleton, Bool.false_eq_true, if_false] at hx <;> grind
    rcases key with rfl | h
    · simp
    · simp only [List.mem_flatMap, List.mem_filter, List.mem_map] at h
      obtain ⟨y, ⟨hy, hne⟩, z, hz, rfl⟩ := h
      have h1 := hf st y hy
      have h2 := ih y.2 z hz
      refine ⟨by simp [h1.1, h2.1], ?_⟩
      simp only [h2.2, h1.2, Bool.and_assoc]
      congr 1
      cases y.1 <;> simp_all

theorem run_sound (r : Re) : ∀ st x, x ∈ r.run st →
    st.rest = x.1 ++ x.2.rest ∧ x.2.bol = (st.bol && x.1.isEmpty) := by
  induction r with
  | cls p =>
    intro st x hx
    unfold run at hx
    split at hx
    · simp at hx
    · rename_i c cs h
      split at hx
      · simp at hx; subst hx; simp [h]
      · simp at hx
  | eps => intro st x hx; simp [run] at hx; subst hx; simp
  | seq a b iha ihb =>
    intro st x hx
    simp only [run, List.mem_flatMap, List.mem_map] at hx
    obtain ⟨y, hy, z, hz, rfl⟩ := hx
    have h1 := iha st y hy
    have h2 := ihb y.2 z hz
    refine ⟨by simp [h1.1, h2.1], ?_⟩
    simp only [h2.2, h1.2, Bool.and_assoc]
    congr 1
    cases y.1 <;> simp_all
  | alt a b iha ihb =>
    intro st x hx
    simp only [run, List.mem_append] at hx
    rcases hx with h | h
    · exact iha st x h
    · exact ihb st x h
  | star a ih => intro st x hx; exact starRun_sound ih _ _ _ hx
  | starLazy a ih => intro st x hx; exact starRun_sound ih _ _ _ hx
  | grp n a ih =>
    intro st x hx
    simp only [run, List.mem_map] at hx
    obtain ⟨y, hy, rfl⟩ := hx
    simpa using ih st y hy
  | bos =>
    intro st x hx
    unfold run at hx
    split at hx <;> simp at hx
    subst hx; simp
  | eos =>
    intro st x hx
    unfold run at hx
    split at hx <;> simp at hx
    subst hx; simp

theorem matchAt_sound {r : Re} {bol s must c st} (h : r.matchAt bol s must = some (c, st)) :
    s = c ++ st.rest ∧ st.bol = (bol && c.isEmpty) ∧ (must = true → c ≠ []) := by
  have hm := List.mem_of_mem_head? (by rw [← matchAt.eq_1]; exact h)
  rw [List.mem_filter] at hm
  have := run_sound r _ _ hm.1
  refine ⟨this.1, this.2, ?_⟩
  intro hmu hc
  simp_all

/-! ### The scan loop does not depend on fuel -/

/-- scan from a state, enough fuel -/
def scanFrom (r : Re) (bol : Bool) (s : Str) (must : Bool) (skip : Str) :=
  scanAux r (2 * s.length + 2) bol s must skip

theorem scanAux_fuel (r : Re) : ∀ f1 f2 bol s must skip,
    2 * s.length + (if must then 0 else 1) < f1 → 2 * s.length + (if must then 0 else 1) < f2 →
    scanAux r f1 bol s must skip = scanAux r f2 bol s must skip := by
  intro f1
  induction f1 with
  | zero => intro f2 bol s must skip h1; omega
  | succ n ih =>
    intro f2 bol s must skip h1 h2
    cases f2 with
    | zero => omega
    | succ m =>
      unfold scanAux
      cases hm : r.matchAt bol s must with
      | some p =>
        obtain ⟨c, st⟩ := p
        have hs := matchAt_sound hm
        simp only
        have hlen : s.length = c.length + st.rest.length := by rw [hs.1]; simp
        rw [ih m]
        · cases c with
          | nil =>
            cases must with
            | true => exact absurd rfl (hs.2.2 rfl)
            | false => simp at *; omega
          | cons => simp at *; split at h1 <;> omega
        · cases c with
          | nil =>
            cases must with
            | true => exact absurd rfl (hs.2.2 rfl)
            | false => simp at *; omega
          | cons => simp at *; split at h2 <;> omega
      | none =>
        cases s with
        | nil => rfl
        | cons x xs =>
          simp only
          apply ih
          · simp at *; split at h1 <;> omega
          · simp at *; split at h2 <;> omega

theorem scanFrom_match {r : Re} {bol s must skip c st} (h : r.matchAt bol s must = some (c, st)) :
    scanFrom r bol s must skip =
      ((skip, c, st) :: (scanFrom r (bol && c.isEmpty) st.rest c.isEmpty []).1,
       (scanFrom r (bol && c.isEmpty) st.rest c.isEmpty []).2) := by
  have hs := matchAt_sound h
  have hlen : s.length = c.length + st.rest.length := by rw [hs.1]; simp
  unfold scanFrom
  rw [show 2 * s.length + 2 = (2 * s.length + 1) + 1 from rfl]
  rw [scanAux.eq_def]
  simp only [h]
  rw [scanAux_fuel r (2 * s.length + 1) (2 * st.rest.length + 2)]
  · cases c <;> simp at * <;> omega
  · cases c <;> simp at * <;> omega

theorem scanFrom_nil {r : Re} {bol must skip} (h : r.matchAt bol [] must = none) :
    scanFrom r bol [] must skip = ([], skip) := by
  simp [scanFrom, scanAux, h]

theorem scanFrom_skip {r : Re} {bol x xs must skip} (h : r.matchAt bol (x :: xs) must = none) :
    scanFrom r bol (x :: xs) must skip = scanFrom r false xs false (skip ++ [x]) := by
  unfold scanFrom
  rw [show 2 * (x :: xs).length + 2 = (2 * (x :: xs).length + 1) + 1 from rfl]
  rw [scanAux]
  simp only [h]
  apply scanAux_fuel <;> simp <;> omega

theorem scan_eq (r : Re) (s : Str) : r.scan s = scanFrom r true s false [] := rfl

/-- induction principle along the scan: states strictly decrease -/
theorem scan_induct (r : Re) (P : Bool → Str → Bool → Prop)
    (hmatch : ∀ bol s must c st, r.matchAt bol s must = some (c, st) →
      P (bol && c.isEmpty) st.rest c.isEmpty → P bol s must)
    (hnil : ∀ bol must, r.matchAt bol [] must = none → P bol [] must)
    (hskip : ∀ bol x xs must, r.matchAt bol (x :: xs) must = none → P false xs false →
      P bol (x :: xs) must) :
    ∀ bol s must, P bol s must := by
  suffices ∀ n bol s must, 2 * s.length + (if must = true then 0 else 1) < n → P bol s must by
    intro bol s must; exact this _ bol s must (Nat.lt_succ_self _)
  intro n
  induction n with
  | zero => intro _ _ _ h; omega
  | succ n ih =>
    intro bol s must h
    cases hm : r.matchAt bol s must with
    | some p =>
      obtain ⟨c, st⟩ := p
      have hs := matchAt_sound hm
      have hlen : s.length = c.length + st.rest.length := by rw [hs.1]; simp
      refine hmatch _ _ _ c st hm (ih _ _ _ ?_)
      cases c with
      | nil =>
        cases must with
        | true => exact absurd rfl (hs.2.2 rfl)
        | false => simp at *; omega
      | cons => simp at *; split at h <;> omega
    | none =>
      cases s with
      | nil => exact hnil _ _ hm
      | cons x xs =>
        refine hskip _ _ _ _ hm (ih _ _ _ ?_)
        simp at *; split at h <;> omega

/-- text of a scan: skipped and matched parts in order, then the tail -/
def scanText (r : List (Str × Str × MSt) × Str) : Str :=
  (r.1.flatMap fun m => m.1 ++ m.2.1) ++ r.2

/-- a scan loses nothing -/
theorem scanFrom_text (r : Re) : ∀ bol s must, ∀ skip,
    scanText (scanFrom r bol s must skip) = skip ++ s := by
  apply scan_induct r
  · intro bol s must c st h ih skip
    rw [scanFrom_match h]
    have := ih []
    simp only [scanText, List.flatMap_cons, List.append_assoc] at *
    rw [this, (matchAt_sound h).1]; simp
  · intro bol must h skip
    rw [scanFrom_nil h]; simp [scanText]
  · intro bol x xs must h ih skip
    rw [scanFrom_skip h, ih]; simp

theorem scan_text (r : Re) (s : Str) : scanText (r.scan s) = s := by
  rw [scan_eq, scanFrom_text]; simp

/-! ### First match of compound expressions -/

/-- highest-priority match -/
def first (r : Re) (st : MSt) : Option (Str × MSt) := (r.run st).head?

theorem matchAt_false (r : Re) (bol s) : r.matchAt bol s false = r.first ⟨bol, s, []⟩ := by
  simp only [matchAt, first, Bool.not_false, Bool.true_or]
  rw [List.filter_eq_self.2 (by simp)]

theorem match?_eq (r : Re) (s) : r.match? s = r.first ⟨true, s, []⟩ := rfl

theorem first_none {r : Re} {st} : r.first st = none ↔ r.run st = [] := by
  simp [first]

theorem matchAt_of_first {r : Re} {bol s must c st} (h : r.first ⟨bol, s, []⟩ = some (c, st))
    (hc : c ≠ []) : r.matchAt bol s must = some (c, st) := by
  unfold first at h
  unfold matchAt
  cases hr : r.run ⟨bol, s, []⟩ with
  | nil => simp [hr] at h
  | cons x xs =>
    simp only [hr, List.head?_cons, Option.some.injEq] at h
    subst h
    cases c with
    | nil => exact absurd rfl hc
    | cons => simp [List.filter_cons]

theorem matchAt_none_of_first {r : Re} {bol s must} (h : r.first ⟨bol, s, []⟩ = none) :
    r.matchAt bol s must = none := by
  rw [first_none] at h; simp [matchAt, h]

@[simp] theorem first_eps (st) : first eps st = some ([], st) := rfl

theorem first_cls_cons {p : Char → Bool} {b c cs caps} :
    first (cls p) ⟨b, c :: cs, caps⟩ = if p c then some ([c], ⟨false, cs, caps⟩) else none := by
  unfold first run; simp only; split <;> rfl

theorem first_cls_nil {p : Char → Bool} {b caps} : first (cls p) ⟨b, [], caps⟩ = none := rfl

theorem first_bos (st) : first bos st = if st.bol then some ([], st) else none := by
  unfold first run; split <;> rfl

theorem first_eos (st) : first eos st =
    if st.rest = [] ∨ st.rest = ['\n'] then some ([], st) else none := by
  unfold first run; split <;> rfl

theorem first_grp (n) (r : Re) (st) : first (grp n r) st =
    (first r st).map fun x => (x.1, { x.2 with caps := (n, x.1) :: x.2.caps }) := by
  simp [first, run, List.head?_map]

theorem run_grp (n) (r : Re) (st) : (grp n r).run st =
    (r.run st).map fun x => (x.1, { x.2 with caps := (n, x.1) :: x.2.caps }) := rfl

theorem run_seq (a b : Re) (st) : (seq a b).run st =
    (a.run st).flatMap fun x => (b.run x.2).map fun y => (x.1 ++ y.1, y.2) := rfl

theorem run_alt (a b : Re) (st) : (alt a b).run st = a.run st ++ b.run st := rfl

theorem first_alt (a b : Re) (st) : first (alt a b) st = (first a st).or (first b st) := by
  simp [first, run, List.head?_append]

theorem first_seq (a b : Re) (st) : first (seq a b) st =
    (a.run st).findSome? fun x => (first b x.2).map fun y => (x.1 ++ y.1, y.2) := by
  simp [first, run, List.head?_flatMap, List.head?_map]

/-- no backtracking into `a` needed -/
theorem first_seq_of {a b : Re} {st x y} (ha : first a st = some x) (hb : first b x.2 = some y) :
    first (seq a b) st = some (x.1 ++ y.1, y.2) := by
  rw [first_seq]
  unfold first at ha
  cases h : a.run st with
  | nil => simp [h] at ha
  | cons z zs =>
    simp only [h, List.head?_cons, Option.some.injEq] at ha
    subst ha
    simp [List.findSome?_cons, hb]

theorem first_seq_none_left {a b : Re} {st} (ha : first a st = none) :
    first (seq a b) st = none := by
  rw [first_none] at ha
  simp [first_seq, ha]

/-- `a` has at most this one match -/
theorem first_seq_single {a b : Re} {st x} (ha : a.run st = [x]) :
    first (seq a b) st = (first b x.2).map fun y => (x.1 ++ y.1, y.2) := by
  rw [first_seq, ha]; simp [List.findSome?_cons]
  cases first b x.2 <;> rfl

theorem first_chr_cons {d b c cs caps} :
    first (chr d) ⟨b, c :: cs, caps⟩ = if c = d then some ([c], ⟨false, cs, caps⟩) else none := by
  rw [chr, first_cls_cons]; by_cases h : c = d <;> simp [h]

theorem first_chr_nil {d b caps} : first (chr d) ⟨b, [], caps⟩ = none := rfl

theorem first_opt (a : Re) (st) : first (opt a) st = (first a st).or (some ([], st)) := by
  rw [opt, first_alt, first_eps]

/-! ### Repetition -/

/-- Greedy repetition unfolds. -/
theorem starRun_fuel {f : MSt → List (Str × MSt)} {g : Bool}
    (hf : ∀ st x, x ∈ f st → st.rest = x.1 ++ x.2.rest) :
    ∀ f1 f2 st, st.rest.length ≤ f1 → st.rest.length ≤ f2 →
      starRun f g f1 st = starRun f g f2 st := by
  have h0 : ∀ fl st, st.rest.length = 0 → starRun f g fl st = [([], st)] := by
    intro fl st h
    have hr : st.rest = [] := List.length_eq_zero_iff.1 h
    cases fl with
    | zero => rfl
    | succ n =>
      have : (f st).filter (fun x => !x.1.isEmpty) = [] := by
        rw [List.filter_eq_nil_iff]
        intro x hx
        have := hf st x hx
        rw [hr] at this
        have := List.append_eq_nil_iff.1 this.symm
        simp [this.1]
      unfold starRun
      rw [this]; cases g <;> simp
  intro f1
  induction f1 with
  | zero =>
    intro f2 st h1 _
    rw [h0 _ st (by omega), h0 _ st (by omega)]
  | succ n ih =>
    intro f2 st h1 h2
    cases f2 with
    | zero => rw [h0 _ st (by omega), h0 _ st (by omega)]
    | succ m =>
      unfold starRun
      have : ((f st).filter (fun x => !x.1.isEmpty)).flatMap (fun x =>
          (starRun f g n x.2).map fun y => (x.1 ++ y.1, y.2)) =
        ((f st).filter (fun x => !x.1.isEmpty)).flatMap (fun x =>
          (starRun f g m x.2).map fun y => (x.1 ++ y.1, y.2)) := by
        rw [List.flatMap_def, List.flatMap_def]
        congr 1
        apply List.map_congr_left
        intro x hx
        rw [List.mem_filter] at hx
        have hl := congrArg List.length (hf st x hx.1)
        have hne : 0 < x.1.length := by
          rcases x with ⟨_ | ⟨_, _⟩, _⟩ <;> simp_all
        simp at hl
        rw [ih m x.2 (by omega) (by omega)]
      simp only [this]

theorem run_sound' (r : Re) : ∀ st x, x ∈ r.run st → st.rest = x.1 ++ x.2.rest :=
  fun st x h => (run_sound r st x h).1

/-- greedy star, unfolded once -/
theorem run_star (a : Re) (st : MSt) : (star a).run st =
    (((a.run st).filter (fun x => !x.1.isEmpty)).flatMap fun x =>
      ((star a).run x.2).map fun y => (x.1 ++ y.1, y.2)) ++ [([], st)] := by
  conv => lhs; rw [run]
  rw [starRun_fuel (run_sound' a) _ (st.rest.length + 1) st (Nat.le_refl _) (by omega)]
  rw [starRun]
  simp only [if_true]
  congr 1
  rw [List.flatMap_def, List.flatMap_def]
  congr 1
  apply List.map_congr_left
  intro x hx
  rw [List.mem_filter] at hx
  have hl := congrArg List.length (run_sound' a st x hx.1)
  simp at hl
  rw [run, starRun_fuel (run_sound' a) st.rest.length x.2.rest.length x.2 (by omega) (by omega)]

/-- lazy star, unfolded once -/
theorem run_starLazy (a : Re) (st : MSt) : (starLazy a).run st = ([], st) ::
    (((a.run st).filter (fun x => !x.1.isEmpty)).flatMap fun x =>
      ((starLazy a).run x.2).map fun y => (x.1 ++ y.1, y.2)) := by
  conv => lhs; rw [run]
  rw [starRun_fuel (run_sound' a) _ (st.rest.length + 1) st (Nat.le_refl _) (by omega)]
  rw [starRun]
  simp only [Bool.false_eq_true, if_false]
  congr 1
  rw [List.flatMap_def, List.flatMap_def]
  congr 1
  apply List.map_congr_left
  intro x hx
  rw [List.mem_filter] at hx
  have hl := congrArg List.length (run_sound' a st x hx.1)
  simp at hl
  rw [run, starRun_fuel (run_sound' a) st.rest.length x.2.rest.length x.2 (by omega) (by omega)]

/-- greedy repetition always matches -/
theorem star_run_ne (a : Re) (st) : (star a).run st ≠ [] := by
  rw [run_star]; simp

theorem first_star_some (a : Re) (st) : ∃ x, first (star a) st = some x := by
  cases h : first (star a) st with
  | some x => exact ⟨x, rfl⟩
  | none => exact absurd (first_none.1 h) (star_run_ne a st)

/-- first match of a greedy star: one more iteration when the body matches nonempty -/
theorem first_star_step {a : Re} {st x y} (ha : first a st = some x) (hne : x.1 ≠ [])
    (hs : first (star a) x.2 = some y) : first (star a) st = some (x.1 ++ y.1, y.2) := by
  unfold first at *
  rw [run_star]
  cases h : a.run st with
  | nil => simp [h] at ha
  | cons z zs =>
    simp only [h, List.head?_cons, Option.some.injEq] at ha
    subst ha
    cases hz : z.1 with
    | nil => exact absurd hz hne
    | cons c cs =>
      have : (!z.1.isEmpty) = true := by simp [hz]
      rw [List.filter_cons, if_pos this]
      cases hr : (star a).run z.2 with
      | nil => simp [hr] at hs
      | cons w ws =>
        simp only [hr, List.head?_cons, Option.some.injEq] at hs
        subst hs
        simp [hz, hr]

theorem first_star_stop {a : Re} {st} (ha : first a st = none) :
    first (star a) st = some ([], st) := by
  rw [first_none] at ha
  unfold first; rw [run_star, ha]; rfl

/-- greedy repetition of a class: the longest run -/
theorem first_star_cls (p : Char → Bool) : ∀ s b caps, first (star (cls p)) ⟨b, s, caps⟩ =
    some (s.takeWhile p, ⟨b && (s.takeWhile p).isEmpty, s.dropWhile p, caps⟩) := by
  intro s
  induction s with
  | nil => intro b caps; rw [first_star_stop (first_cls_nil)]; simp
  | cons c cs ih =>
    intro b caps
    by_cases h : p c = true
    · rw [first_star_step (x := ([c], ⟨false, cs, caps⟩)) (by rw [first_cls_cons, if_pos h])
        (by simp) (ih _ _)]
      simp [h]
    · rw [first_star_stop (by rw [first_cls_cons, if_neg h])]
      simp [h]

theorem first_plus_cls (p : Char → Bool) (s b caps) : first (plus (cls p)) ⟨b, s, caps⟩ =
    if s.takeWhile p = [] then none
    else some (s.takeWhile p, ⟨false, s.dropWhile p, caps⟩) := by
  cases s with
  | nil => rw [plus, first_seq_none_left first_cls_nil]; simp
  | cons c cs =>
    by_cases h : p c = true
    · rw [plus, first_seq_of (x := ([c], ⟨false, cs, caps⟩)) (by rw [first_cls_cons, if_pos h])
        (first_star_cls p cs false caps)]
      simp [h]
    · rw [plus, first_seq_none_left (by rw [first_cls_cons, if_neg h])]
      simp [h]

end Re
end Xigt

namespace Xigt
namespace Re

/-! ### Collecting matches -/

theorem scanFrom_skip_irrel (r : Re) : ∀ bol s must, ∀ sk sk',
    (scanFrom r bol s must sk).1.map (fun m => m.2) = (scanFrom r bol s must sk').1.map (fun m => m.2) := by
  apply scan_induct r
  · intro bol s must c st h _ sk sk'
    rw [scanFrom_match h, scanFrom_match h]; rfl
  · intro bol must h sk sk'
    rw [scanFrom_nil h, scanFrom_nil h]
  · intro bol x xs must h ih sk sk'
    rw [scanFrom_skip h, scanFrom_skip h]; exact ih _ _

/-- the matches found from a state -/
def found (r : Re) (bol : Bool) (s : Str) (must : Bool) : List (Str × MSt) :=
  (scanFrom r bol s must []).1.map (fun m => m.2)

theorem findAll_eq (r : Re) (s : Str) : r.findAll s = found r true s false := rfl

theorem found_matchAt {r : Re} {bol s must c st} (h : r.matchAt bol s must = some (c, st)) :
    found r bol s must = (c, st) :: found r (bol && c.isEmpty) st.rest c.isEmpty := by
  rw [found, scanFrom_match h]; rfl

theorem found_first {r : Re} {bol s must c st} (h : r.first ⟨bol, s, []⟩ = some (c, st))
    (hc : c ≠ []) : found r bol s must = (c, st) :: found r false st.rest false := by
  rw [found_matchAt (matchAt_of_first h hc)]
  cases c with
  | nil => exact absurd rfl hc
  | cons => simp

theorem found_nil {r : Re} {bol must} (h : r.matchAt bol [] must = none) :
    found r bol [] must = [] := by
  rw [found, scanFrom_nil h]; rfl

theorem found_skip {r : Re} {bol x xs must} (h : r.matchAt bol (x :: xs) must = none) :
    found r bol (x :: xs) must = found r false xs false := by
  rw [found, scanFrom_skip h]; exact scanFrom_skip_irrel r _ _ _ _ _

/-- text without a match start is skipped -/
theorem found_skip_all {r : Re} {s : Str} : ∀ (pre : Str) (bol must),
    (∀ a x b, pre = a ++ x :: b → ∀ b', r.first ⟨b', x :: b ++ s, []⟩ = none) → pre ≠ [] →
    found r bol (pre ++ s) must = found r false s false := by
  intro pre
  induction pre with
  | nil => intro _ _ _ h; exact absurd rfl h
  | cons x xs ih =>
    intro bol must h _
    rw [List.cons_append, found_skip (matchAt_none_of_first (by
      have := h [] x xs rfl bol; simpa using this))]
    cases xs with
    | nil => rfl
    | cons y ys =>
      exact ih false false (fun a z b e => h (x :: a) z b (by simp [e])) (by simp)

theorem mem_found {r : Re} : ∀ bol s must, ∀ x ∈ found r bol s must,
    ∃ pre b, x.1 ++ x.2.rest <:+ s ∧ s = pre ++ x.1 ++ x.2.rest ∧ x ∈ r.run ⟨b, x.1 ++ x.2.rest, []⟩ := by
  apply scan_induct r
  · intro bol s must c st h ih x hx
    rw [found_matchAt h] at hx
    have hs := (matchAt_sound h).1
    rcases List.mem_cons.1 hx with rfl | hx
    · refine ⟨[], bol, by simp [hs], by simpa using hs, ?_⟩
      have hm := List.mem_of_mem_head? (by rw [← matchAt.eq_1]; exact h)
      rw [List.mem_filter] at hm
      simpa [← hs] using hm.1
    · obtain ⟨pre, b, h1, h2, h3⟩ := ih x hx
      refine ⟨c ++ pre, b, ?_, by rw [hs, h2]; simp, h3⟩
      exact h1.trans ⟨c, hs.symm⟩
  · intro bol must h x hx
    rw [found_nil h] at hx; cases hx
  · intro bol x xs must h ih y hy
    rw [found_skip h] at hy
    obtain ⟨pre, b, h1, h2, h3⟩ := ih y hy
    exact ⟨x :: pre, b, h1.trans (List.suffix_cons _ _), by rw [h2]; simp, h3⟩

end Re
end Xigt

namespace Xigt
namespace Re

/-! ### Membership -/

/-- no capturing group inside -/
def noGrp : Re → Bool
  | .grp _ _ => false
  | .seq a b => a.noGrp && b.noGrp
  | .alt a b => a.noGrp && b.noGrp
  | .star a => a.noGrp
  | .starLazy a => a.noGrp
  | _ => true

theorem starRun_caps {f : MSt → List (Str × MSt)} {g : Bool}
    (hf : ∀ st x, x ∈ f st → x.2.caps = st.caps) :
    ∀ fuel st x, x ∈ starRun f g fuel st → x.2.caps = st.caps := by
  intro fuel
  induction fuel with
  | zero => intro st x hx; simp [starRun] at hx; subst hx; rfl
  | succ n ih =>
    intro st x hx
    have key : x = ([], st) ∨ x ∈ ((f st).filter (fun x => !x.1.isEmpty)).flatMap fun x =>
        (starRun f g n x.2).map fun y => (x.1 ++ y.1, y.2) := by
      unfold starRun at hx
      cases g <;> simp only [if_true, List.mem_append, List.mem_cons,
        List.mem_singleton, Bool.false_eq_true, if_false] at hx <;> grind
    rcases key with rfl | h
    · rfl
    · simp only [List.mem_flatMap, List.mem_filter, List.mem_map] at h
      obtain ⟨y, ⟨hy, _⟩, z, hz, rfl⟩ := h
      rw [← hf st y hy]; exact ih _ z hz

theorem run_caps (r : Re) (h : r.noGrp = true) : ∀ st x, x ∈ r.run st → x.2.caps = st.caps := by
  induction r with
  | cls p =>
    intro st x hx
    unfold run at hx
    split at hx
    · simp at hx
    · split at hx <;> simp at hx
      subst hx; rfl
  | eps => intro st x hx; simp [run] at hx; subst hx; rfl
  | seq a b iha ihb =>
    simp only [noGrp, Bool.and_eq_true] at h
    intro st x hx
    simp only [run, List.mem_flatMap, List.mem_map] at hx
    obtain ⟨y, hy, z, hz, rfl⟩ := hx
    rw [← iha h.1 st y hy]; exact ihb h.2 _ z hz
  | alt a b iha ihb =>
    simp only [noGrp, Bool.and_eq_true] at h
    intro st x hx
    simp only [run, List.mem_append] at hx
    rcases hx with hx | hx
    · exact iha h.1 st x hx
    · exact ihb h.2 st x hx
  | star a ih => intro st x hx; exact starRun_caps (ih h) _ _ _ hx
  | starLazy a ih => intro st x hx; exact starRun_caps (ih h) _ _ _ hx
  | grp n a ih => simp [noGrp] at h
  | bos =>
    intro st x hx
    unfold run at hx
    split at hx <;> simp at hx
    subst hx; rfl
  | eos =>
    intro st x hx
    unfold run at hx
    split at hx <;> simp at hx
    subst hx; rfl

theorem mem_cls {p : Char → Bool} {st x} (h : x ∈ (cls p).run st) :
    ∃ c cs, st.rest = c :: cs ∧ p c = true ∧ x = ([c], { st with bol := false, rest := cs }) := by
  unfold run at h
  split at h
  · simp at h
  · rename_i c cs hr
    split at h
    · rename_i hp; simp at h; exact ⟨c, cs, hr, hp, h⟩
    · simp at h

theorem mem_seq {a b : Re} {st x} (h : x ∈ (seq a b).run st) :
    ∃ y ∈ a.run st, ∃ z ∈ b.run y.2, x = (y.1 ++ z.1, z.2) := by
  simp only [run, List.mem_flatMap, List.mem_map] at h
  obtain ⟨y, hy, z, hz, rfl⟩ := h
  exact ⟨y, hy, z, hz, rfl⟩

theorem mem_alt {a b : Re} {st x} : x ∈ (alt a b).run st ↔ x ∈ a.run st ∨ x ∈ b.run st := by
  simp [run]

theorem mem_opt {a : Re} {st x} : x ∈ (opt a).run st ↔ x ∈ a.run st ∨ x = ([], st) := by
  simp [opt, run]

theorem mem_grp {n} {a : Re} {st x} (h : x ∈ (grp n a).run st) :
    ∃ y ∈ a.run st, x = (y.1, { y.2 with caps := (n, y.1) :: y.2.caps }) := by
  simp only [run, List.mem_map] at h
  obtain ⟨y, hy, rfl⟩ := h
  exact ⟨y, hy, rfl⟩

theorem starRun_all {f : MSt → List (Str × MSt)} {g : Bool} {p : Char → Bool}
    (hf : ∀ st x, x ∈ f st → ∀ c ∈ x.1, p c = true) :
    ∀ fuel st x, x ∈ starRun f g fuel st → ∀ c ∈ x.1, p c = true := by
  intro fuel
  induction fuel with
  | zero => intro st x hx; simp [starRun] at hx; subst hx; simp
  | succ n ih =>
    intro st x hx
    have key : x = ([], st) ∨ x ∈ ((f st).filter (fun x => !x.1.isEmpty)).flatMap fun x =>
        (starRun f g n x.2).map fun y => (x.1 ++ y.1, y.2) := by
      unfold starRun at hx
      cases g <;> simp only [if_true, List.mem_append, List.mem_cons,
        List.mem_singleton, Bool.false_eq_true, if_false] at hx <;> grind
    rcases key with rfl | h
    · simp
    · simp only [List.mem_flatMap, List.mem_filter, List.mem_map] at h
      obtain ⟨y, ⟨hy, _⟩, z, hz, rfl⟩ := h
      intro c hc
      rcases List.mem_append.1 hc with hc | hc
      · exact hf st y hy c hc
      · exact ih _ _ hz c hc

/-- all characters matched by a repeated class are in the class -/
theorem mem_star_cls {p : Char → Bool} {st x} (h : x ∈ (star (cls p)).run st) :
    ∀ c ∈ x.1, p c = true := by
  apply starRun_all (p := p) _ _ _ _ h
  intro st x hx c hc
  obtain ⟨d, ds, _, hd, rfl⟩ := mem_cls hx
  simp at hc; subst hc; exact hd

theorem mem_eos {st x} (h : x ∈ eos.run st) :
    (st.rest = [] ∨ st.rest = ['\n']) ∧ x = ([], st) := by
  unfold run at h
  split at h
  · rename_i hr; simp at h; exact ⟨hr, h⟩
  · simp at h

theorem mem_bos {st x} (h : x ∈ bos.run st) : st.bol = true ∧ x = ([], st) := by
  unfold run at h
  split at h
  · rename_i hr; simp at h; exact ⟨hr, h⟩
  · simp at h

/-- a lazily repeated class can take everything -/
theorem starLazy_cls_full (p : Char → Bool) : ∀ s b caps, (∀ c ∈ s, p c = true) →
    ∃ b', (s, ⟨b', [], caps⟩) ∈ (starLazy (cls p)).run ⟨b, s, caps⟩ := by
  intro s
  induction s with
  | nil => intro b caps _; exact ⟨b, by rw [run_starLazy]; simp⟩
  | cons c cs ih =>
    intro b caps h
    obtain ⟨b', hb⟩ := ih false caps (fun x hx => h x (by simp [hx]))
    refine ⟨b', ?_⟩
    rw [run_starLazy]
    have hr : (cls p).run ⟨b, c :: cs, caps⟩ = [([c], ⟨false, cs, caps⟩)] := by
      simp [run, h c (by simp)]
    rw [hr]
    simp only [List.filter_cons, List.isEmpty_cons, Bool.not_false, if_true, List.filter_nil,
      List.flatMap_cons, List.flatMap_nil, List.append_nil, List.mem_cons, List.mem_map]
    right
    exact ⟨_, hb, rfl⟩

theorem matchAt_mem {r : Re} {bol s must c st} (h : r.matchAt bol s must = some (c, st)) :
    (c, st) ∈ r.run ⟨bol, s, []⟩ := by
  have hm := List.mem_of_mem_head? (by rw [← matchAt.eq_1]; exact h)
  rw [List.mem_filter] at hm
  exact hm.1

end Re
end Xigt
