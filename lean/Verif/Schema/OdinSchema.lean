import Verif.Schema.XigtProps
import Verif.Schema.Imported
/- C104: whether what the ODIN importer writes is valid against its schema, odin-xigt.rnc. -/

set_option linter.unusedSectionVars false

namespace Xigt.Rng

section
variable [Uni] [XmlLex] [Xsd] {env : Str → Pat}

/-! ### The condition -/

/-- a line with `line` and `tag`, and besides its content only `judgment` and one reference -/
def LineFitsO (l : Dict Str Str) : Prop :=
  (∃ v, (lit! "line", v) ∈ l) ∧ (∃ v, (lit! "tag", v) ∈ l) ∧
  (∀ k v, (k, v) ∈ l → k = lit! "content" ∨ k = lit! "line" ∨ k = lit! "tag" ∨ k = lit! "judgment" ∨ BaseAttr k v ∨ ((k = ALN ∨ k = SEG) ∧ AlgnFits v)) ∧
  (Lacks l ALN ∨ Lacks l SEG)

/-- a block with an identifier the schema allows and such lines, of which no header is kept -/
def BlockFitsO (o : Odin.Opts) (b : Odin.Block) : Prop :=
  (∃ i, b.igtId = some i ∧ IdFits i) ∧ ¬ (o.keepHeaders = true ∧ b.headerLines.getD [] ≠ []) ∧ ∀ l ∈ b.lines.getD [], LineFitsO l

/-! ### The types of tiers -/

/-- every attribute `k` has a value in `P` -/
def Only (env : Str → Pat) (p : Pat) (k : Str) (P : Str → Prop) : Prop := ∀ a ns, Matches env p a ns → ∀ v, (k, v) ∈ a → P v

namespace Only
variable {k : Str} {P : Str → Prop}
theorem avoids {p : Pat} (h : Avoids env p k) : Only env p k P := fun a ns hm v hv => absurd rfl (h a ns hm _ hv)
theorem group {p q : Pat} (hp : Only env p k P) (hq : Only env q k P) : Only env (.group p q) k P := by
  intro a ns hm v hv
  obtain ⟨a₁, a₂, n₁, n₂, h1, -, h2, h3⟩ := group_iff.1 hm
  rcases List.mem_append.1 (h1.mem_iff.1 hv) with h | h
  · exact hp _ _ h2 v h
  · exact hq _ _ h3 v h
theorem opt {p : Pat} (hp : Only env p k P) : Only env (.opt p) k P := by
  intro a ns hm v hv
  rcases choice_iff.1 hm with h | h
  · exact hp _ _ h v hv
  · obtain ⟨rfl, -⟩ := empty_iff.1 h
    cases hv
theorem att {p : Pat} : Only env (att k p) k (Val env p) := by
  intro a ns hm v hv
  rw [Rng.att] at hm
  generalize hq : Pat.attr (.name k) p = q at hm
  cases hm <;> cases hq
  · cases List.mem_singleton.1 hv; exact .inl ‹_›
  · cases List.mem_singleton.1 hv; exact .inr ⟨‹_›, ‹_›⟩
end Only

theorem base_avoids {k : Str} (h1 : k ≠ xmlName (lit! "lang")) (h2 : k ≠ xmlName (lit! "space")) : Avoids env BaseAttrs k :=
  .group (.opt (avoids_att h1)) (.opt (avoids_att h2))

theorem tier_type {p : Names} {ty refs : Pat} (hb : p.baseAttrs = BaseAttrs) (ha : Avoids env p.tierAttrs (lit! "type")) (hr : Avoids env refs (lit! "type"))
    (hm : NoAttr env p.tierMetadata) (hd : NoAttr env p.metadata) (hi : NoAttr env p.item) {tag : Str} {a : List (Str × Str)} {ks : List Node}
    (h : Matches env (tierFile p ty refs) [] [.elem tag a ks]) {v : Str} (hv : (lit! "type", v) ∈ a) : Val env ty v := by
  obtain ⟨t, a', ns, e, -, hc⟩ := elem_single.1 h
  cases e
  have hch : ∀ {p q : Pat}, NoAttr env p → NoAttr env q → NoAttr env (.choice p q) := fun hp hq a ns h => (choice_iff.1 h).elim (hp a ns) (hq a ns)
  have key : Only env (.group (att (lit! "id") p.tierId) (.group p.baseAttrs (.group refs
    (.group (.opt (att (lit! "type") ty)) (.group p.tierAttrs
      (.group (.star (.choice p.tierMetadata (.choice p.metadata (metadataFile p)))) (.star (.choice p.item (itemFile p))))))))) (lit! "type") (Val env ty) := by
    refine .group (.avoids (avoids_att (by decide))) (.group (.avoids ?_) (.group (.avoids hr) (.group (.opt .att) (.group (.avoids ha) (.avoids ?_)))))
    · rw [hb]; exact base_avoids (by decide) (by decide)
    · exact (group_noAttr (star_noAttr (hch hm (hch hd (elemLike_elem _ _).noAttr))) (star_noAttr (hch hi (elemLike_elem _ _).noAttr))).avoids _
  rcases hc with h | ⟨-, h | h⟩
  · exact key _ _ h v hv
  · exact key _ _ h v hv
  · exact key _ _ h v hv

theorem nope : NoAttr env .notAllowed := fun _ _ h => nomatch h


variable {dateTime : Str → Prop}

theorem choice_noAttr {p q : Pat} (hp : NoAttr env p) (hq : NoAttr env q) : NoAttr env (.choice p q) := fun a ns h => (choice_iff.1 h).elim (hp a ns) (hq a ns)

theorem odinMd_elem : ElemLike env (odinNames₁ dateTime).tierMetadata := (elemLike_elem _ _).choice (elemLike_elem _ _)

theorem plain_refs_avoid {a c g : Pat} : Avoids env (refsPat a c g) (lit! "type") :=
  .choice (.group (.opt (avoids_att (by decide))) (.opt (avoids_att (by decide)))) (.opt (avoids_att (by decide)))

/-- a tier of type `odin` can only match the pattern for these -/
theorem odin_only {tag : Str} {a : List (Str × Str)} {ks : List Node} (ha : (lit! "type", lit! "odin") ∈ a) :
    Matches env (.choice (odinNames dateTime).tier (tierFile (odinNames dateTime))) [] [.elem tag a ks] ↔
      Matches env (odinTier (odinNames₁ dateTime)) [] [.elem tag a ks] := by
  have hm : NoAttr env (odinNames₁ dateTime).tierMetadata := odinMd_elem.noAttr
  have plain : ∀ w : Str, tokens (lit! "odin") ≠ tokens w → ¬ Matches env (tierFile (odinNames₁ dateTime) (value w)) [] [.elem tag a ks] := by
    intro w hw h
    exact hw (val_value.1 (tier_type rfl .empty plain_refs_avoid hm nope nope h ha))
  constructor
  · intro h
    rcases choice_iff.1 h with h | h
    · simp only [odinNames, odinTiers, choice_iff] at h
      rcases h with h | h | h | h | h | h | h | h | h | h | h
      · cases h
      · exact h
      · exact absurd h (plain _ (by decide))
      · exact absurd h (plain _ (by decide))
      · exact absurd h (plain _ (by decide))
      · exact absurd h (plain _ (by decide))
      · exact absurd h (plain _ (by decide))
      · exact absurd h (plain _ (by decide))
      · rw [bilingualTier] at h
        refine absurd (val_value.1 (tier_type ?_ ?_ ?_ ?_ ?_ ?_ h ha)) (by decide)
        · rfl
        · exact .empty
        · exact .group (avoids_att (by decide)) (avoids_att (by decide))
        · exact hm
        · exact nope
        · exact (elemLike_elem _ _).noAttr
      · rw [phraseTier] at h
        refine absurd (val_value.1 (tier_type ?_ ?_ ?_ ?_ ?_ ?_ h ha)) (by decide)
        · rfl
        · exact .empty
        · exact .group (avoids_att (by decide)) (.group (avoids_att (by decide)) (.opt (avoids_att (by decide))))
        · exact hm
        · exact nope
        · exact (elemLike_elem _ _).noAttr
      · rw [dependencyTier] at h
        refine absurd (val_value.1 (tier_type ?_ ?_ ?_ ?_ ?_ ?_ h ha)) (by decide)
        · rfl
        · exact .empty
        · exact .group (avoids_att (by decide)) (.group (avoids_att (by decide)) (.opt (avoids_att (by decide))))
        · exact hm
        · exact nope
        · exact (elemLike_elem _ _).noAttr
    · exact absurd (tier_type (p := odinNames dateTime) rfl .empty plain_refs_avoid hm nope nope h ha) val_none
  · intro h
    exact choice_iff.2 (.inl (choice_iff.2 (.inr (choice_iff.2 (.inl h)))))

/-! ### Lines -/

def lineSpec : AttSpec := [(lit! "judgment", false, string), (lit! "line", true, string), (lit! "tag", true, string)]

theorem val_string {v : Str} : Val env string v ↔ True := val_data

theorem line_same {q : Pat} : Same env (.group (.group (.opt (att (lit! "judgment") string)) (.group (att (lit! "line") string) (att (lit! "tag") string))) q)
    (attsPat lineSpec q) := .trans .assoc (.right .assoc)

theorem line_fresh : Fresh lineSpec := by
  refine ⟨(show [lit! "judgment", lit! "line", lit! "tag"].Nodup by decide), ?_⟩
  intro s hs
  simp only [lineSpec, List.mem_cons, List.not_mem_nil, or_false] at hs
  rcases hs with rfl | rfl | rfl
  · show lit! "judgment" ∉ _; decide
  · show lit! "line" ∉ _; decide
  · show lit! "tag" ∉ _; decide

theorem line_atts {l : Dict Str Str} (hw : l.WF) :
    (Atts env (baseSpec ++ acSpec AlgnExpr ++ lineSpec) (Dict.del l (lit! "content")) ∨
      Atts env (baseSpec ++ segSpec AlgnExpr ++ lineSpec) (Dict.del l (lit! "content"))) ↔ LineFitsO l := by
  have req : ∀ (r : AttSpec), (∀ s ∈ r, s.2.1 = false) → ∀ a : Dict Str Str,
      (Atts env (baseSpec ++ r ++ lineSpec) a ↔ (∃ v, (lit! "line", v) ∈ a) ∧ (∃ v, (lit! "tag", v) ∈ a) ∧
        ∀ k v, (k, v) ∈ a → BaseAttr k v ∨ (∃ s ∈ r, s.1 = k ∧ Val env s.2.2 v) ∨ k = lit! "judgment" ∨ k = lit! "line" ∨ k = lit! "tag") := by
    intro r hr a
    have hl : ∀ k v, (∃ s ∈ baseSpec ++ r ++ lineSpec, s.1 = k ∧ Val env s.2.2 v) ↔
        BaseAttr k v ∨ (∃ s ∈ r, s.1 = k ∧ Val env s.2.2 v) ∨ k = lit! "judgment" ∨ k = lit! "line" ∨ k = lit! "tag" := by
      intro k v
      rw [List.append_assoc, base_append]
      refine or_congr_right ?_
      constructor
      · rintro ⟨s, hs, h⟩
        rcases List.mem_append.1 hs with hs | hs
        · exact .inl ⟨s, hs, h⟩
        · simp only [lineSpec, List.mem_cons, List.not_mem_nil, or_false] at hs
          rcases hs with rfl | rfl | rfl
          · exact .inr (.inl h.1.symm)
          · exact .inr (.inr (.inl h.1.symm))
          · exact .inr (.inr (.inr h.1.symm))
      · rintro (⟨s, hs, h⟩ | rfl | rfl | rfl)
        · exact ⟨s, List.mem_append_left _ hs, h⟩
        · exact ⟨(lit! "judgment", false, string), by simp [lineSpec], rfl, val_string.2 trivial⟩
        · exact ⟨(lit! "line", true, string), by simp [lineSpec], rfl, val_string.2 trivial⟩
        · exact ⟨(lit! "tag", true, string), by simp [lineSpec], rfl, val_string.2 trivial⟩
    constructor
    · rintro ⟨h1, h2⟩
      exact ⟨h1 (lit! "line", true, string) (by simp [lineSpec]) rfl, h1 (lit! "tag", true, string) (by simp [lineSpec]) rfl,
        fun k v hx => (hl k v).1 (h2 (k, v) hx)⟩
    · rintro ⟨h1, h2, h3⟩
      refine ⟨fun s hs hreq => ?_, fun x hx => (hl x.1 x.2).2 (h3 x.1 x.2 hx)⟩
      rcases List.mem_append.1 hs with hs | hs
      · rcases List.mem_append.1 hs with hs | hs
        · rw [base_opt s hs] at hreq; cases hreq
        · rw [hr s hs] at hreq; cases hreq
      · simp only [lineSpec, List.mem_cons, List.not_mem_nil, or_false] at hs
        rcases hs with rfl | rfl | rfl
        · cases hreq
        · exact h1
        · exact h2
  rw [req _ (fun s hs => ac_opt s (List.mem_append_right _ hs)), req _ (fun s hs => seg_opt s (List.mem_append_right _ hs))]
  simp only [acSpec, segSpec, List.mem_cons, List.not_mem_nil, or_false, exists_eq_or_imp, exists_eq_left, algn_val, mem_del hw]
  have e1 : ∀ k, k ≠ lit! "content" → ((∃ v, (k, v) ∈ l ∧ k ≠ lit! "content") ↔ ∃ v, (k, v) ∈ l) := fun k hk =>
    ⟨fun ⟨v, h, _⟩ => ⟨v, h⟩, fun ⟨v, h⟩ => ⟨v, h, hk⟩⟩
  rw [e1 _ (by decide), e1 _ (by decide), ← and_or_left, ← and_or_left, LineFitsO]
  refine and_congr_right fun _ => and_congr_right fun _ => ?_
  constructor
  · rintro (h | h)
    · refine ⟨fun k v hx => ?_, .inr fun v hx => ?_⟩
      · by_cases hk : k = lit! "content"
        · exact .inl hk
        · rcases h k v ⟨hx, hk⟩ with h | (⟨rfl, h⟩ | ⟨rfl, h⟩) | h | h | h
          · exact .inr (.inr (.inr (.inr (.inl h))))
          · exact .inr (.inr (.inr (.inr (.inr ⟨.inl rfl, h⟩))))
          · exact absurd rfl hk
          · exact .inr (.inr (.inr (.inl h)))
          · exact .inr (.inl h)
          · exact .inr (.inr (.inl h))
      · rcases h SEG v ⟨hx, by decide⟩ with h | (⟨h, -⟩ | ⟨h, -⟩) | h | h | h
        · exact (base_ref h).2.2 rfl
        all_goals exact absurd h (by decide)
    · refine ⟨fun k v hx => ?_, .inl fun v hx => ?_⟩
      · by_cases hk : k = lit! "content"
        · exact .inl hk
        · rcases h k v ⟨hx, hk⟩ with h | ⟨rfl, h⟩ | h | h | h
          · exact .inr (.inr (.inr (.inr (.inl h))))
          · exact .inr (.inr (.inr (.inr (.inr ⟨.inr rfl, h⟩))))
          · exact .inr (.inr (.inr (.inl h)))
          · exact .inr (.inl h)
          · exact .inr (.inr (.inl h))
      · rcases h ALN v ⟨hx, by decide⟩ with h | ⟨h, -⟩ | h | h | h
        · exact (base_ref h).1 rfl
        all_goals exact absurd h (by decide)
  · rintro ⟨h, h' | h'⟩
    · refine .inr fun k v ⟨hx, hk⟩ => ?_
      rcases h k v hx with h | h | h | h | h | ⟨rfl | rfl, h⟩
      · exact absurd h hk
      · exact .inr (.inr (.inr (.inl h)))
      · exact .inr (.inr (.inr (.inr h)))
      · exact .inr (.inr (.inl h))
      · exact .inl h
      · exact absurd hx (h' v)
      · exact .inr (.inl ⟨rfl, h⟩)
    · refine .inl fun k v ⟨hx, hk⟩ => ?_
      rcases h k v hx with h | h | h | h | h | ⟨rfl | rfl, h⟩
      · exact absurd h hk
      · exact .inr (.inr (.inr (.inl h)))
      · exact .inr (.inr (.inr (.inr h)))
      · exact .inr (.inr (.inl h))
      · exact .inl h
      · exact .inr (.inl (.inl ⟨rfl, h⟩))
      · exact absurd hx (h' v)


/-- the names within tiers of type `odin` -/
def odinTierNames (dateTime : Str → Prop) : Names :=
  { odinNames₁ dateTime with
    tierAttrs := att (lit! "state") (.choice (value (lit! "raw")) (.choice (value (lit! "cleaned")) (value (lit! "normalized"))))
    itemAttrs := .group (.opt (att (lit! "judgment") string)) (.group (att (lit! "line") string) (att (lit! "tag") string)) }

theorem odinTier_eq : odinTier (odinNames₁ dateTime) = tierFile (odinTierNames dateTime) (value (lit! "odin")) := rfl

theorem lineO_iff {eff : Dict Str Str} {o : Odin.Opts} {l : Dict Str Str} {j : Nat} {t : Str} (hw : l.WF)
    (n : XNode eff .item (Odin.itemData o l j t) [] []) {nd : Node} (h : Wrote (.mk (Odin.itemData o l j t) [] []) nd) :
    Matches env (itemFile (odinTierNames dateTime)) [] [nd] ↔ LineFitsO l := by
  obtain ⟨t', ns, rfl, hn, ht, hws, ha⟩ := h.inv (fun h => nomatch h)
  rw [itemFile, show clsTag (Odin.itemData o l j t).cls = lit! "item" from rfl, elem_wrote]
  refine (refs_content' n.kept (r := AlgnExpr) (t := .empty) line_same line_fresh text_noAttr hn).trans ?_
  rw [content_text, elems_text_append, show (Odin.itemData o l j t).attrs = Dict.del l (lit! "content") from rfl, line_atts hw]
  constructor
  · exact fun h => h.1.2.2
  · intro h
    refine ⟨⟨⟨_, rfl, IdFits.num (fits_lit (c := 'r') (r := []) (by decide) (by decide)) j⟩, (by rintro v ⟨⟩), h⟩, ?_⟩
    exact List.length_eq_zero_iff.1 (all2_length ha).symm

theorem linesO_iff {eff : Dict Str Str} {o : Odin.Opts} : ∀ (ls : List (Dict Str Str)) (j : Nat) (xs : List Obj) (ns : List Node), (∀ l ∈ ls, l.WF) →
    Odin.rawItems o ls j = .ok xs → (∀ x ∈ xs, XNode eff .item x.data x.md x.kids) → All2 Wrote xs ns →
    ((∀ n ∈ ns, Matches env (itemFile (odinTierNames dateTime)) [] [n]) ↔ ∀ l ∈ ls, LineFitsO l) := by
  intro ls
  induction ls with
  | nil => intro j xs ns _ h _ ha; cases h; cases ha; simp
  | cons l ls ih =>
    intro j xs ns hw h hx ha
    rw [Odin.rawItems] at h
    split at h
    · cases h
    simp only [bind, Except.bind] at h
    split at h
    · cases h
    rename_i x hx'
    split at h
    · cases h
    rename_i ys hys
    cases h
    obtain ⟨rfl, _⟩ := Odin.construct_inv hx'
    cases ha with
    | cons h1 h2 =>
      rw [List.forall_mem_cons, List.forall_mem_cons, ih _ _ _ (fun l h => hw l (by simp [h])) hys (fun x hx'' => hx x (by simp [hx''])) h2]
      exact and_congr_left' (lineO_iff (hw l (by simp)) (hx (.mk (Odin.itemData o l j _) [] []) (by simp)) h1)

/-! ### The tier -/

def stateVal : Pat := .choice (value (lit! "raw")) (.choice (value (lit! "cleaned")) (value (lit! "normalized")))
def stateSpec : AttSpec := [(lit! "state", true, stateVal)]

theorem state_fresh : Fresh stateSpec := by
  refine ⟨(show [lit! "state"].Nodup by decide), ?_⟩
  intro s hs
  simp only [stateSpec, List.mem_cons, List.not_mem_nil, or_false] at hs
  subst hs
  show lit! "state" ∉ _; decide

theorem state_atts : Atts env (baseSpec ++ acSpec Id ++ stateSpec) [(lit! "state", lit! "raw")] := by
  refine ⟨fun s hs hr => ?_, fun x hx => ?_⟩
  · rcases List.mem_append.1 hs with hs | hs
    · rw [ac_opt s hs] at hr; cases hr
    · simp only [stateSpec, List.mem_cons, List.not_mem_nil, or_false] at hs
      subst hs
      exact ⟨lit! "raw", by simp⟩
  · cases List.mem_singleton.1 hx
    exact ⟨(lit! "state", true, stateVal), by simp [stateSpec], rfl, val_choice.2 (.inl (val_value.2 rfl))⟩

theorem mdTag {p : Names} (h1 : ∀ n, Matches env p.tierMetadata [] [n] → tagOf n = lit! "metadata") (h2 : p.metadata = .notAllowed) :
    ∀ n, Matches env (.choice p.tierMetadata (.choice p.metadata (metadataFile p))) [] [n] → tagOf n = lit! "metadata" := by
  refine choice_tag h1 (choice_tag (by rw [h2]; exact not_tag) fun _ h => elem_tag h)

theorem tierO_iff {eff : Dict Str Str} {o : Odin.Opts} {ls : List (Dict Str Str)} {xs : List Obj} (hw : ∀ l ∈ ls, l.WF)
    (hxs : Odin.rawItems o ls 1 = .ok xs) (n : XNode eff .tier Odin.tierData [] xs) {nd : Node} (h : Wrote (.mk Odin.tierData [] xs) nd) :
    Matches env (.choice (odinNames dateTime).tier (tierFile (odinNames dateTime))) [] [nd] ↔ ∀ l ∈ ls, LineFitsO l := by
  obtain ⟨t', ns, rfl, hn, ht, hws, ha⟩ := h.inv (by decide)
  rw [odin_only (by decide), odinTier_eq, tierFile, show clsTag Odin.tierData.cls = lit! "tier" from rfl, elem_wrote]
  have eA : ElemLike env (.choice (odinTierNames dateTime).tierMetadata (.choice (odinTierNames dateTime).metadata (metadataFile (odinTierNames dateTime)))) :=
    odinMd_elem.choice (elemLike_not.choice (elemLike_elem _ _))
  have eB : ElemLike env (.choice (odinTierNames dateTime).item (itemFile (odinTierNames dateTime))) := elemLike_not.choice (elemLike_elem _ _)
  refine (refs_content' n.kept (r := Id) (t := value (lit! "odin")) (e := att (lit! "state") stateVal) (x := stateSpec) (.refl _) state_fresh
    (group_noAttr (star_noAttr eA.noAttr) (star_noAttr eB.noAttr)) hn).trans ?_
  have hk : ∀ x ∈ xs, XNode (effNs Odin.tierData eff) .item x.data x.md x.kids := fun x hx => by
    have hc := n.kids_cls x hx
    exact XNode.of (by injection hc) (n.kids_wf x hx) (n.kids_valid x hx) (n.kept_kids x hx)
  rw [List.nil_append] at ha
  rw [← linesO_iff (env := env) (dateTime := dateTime) ls 1 xs _ hw hxs hk ha, content_two_stars eA eB, elems_text_append]
  constructor
  · rintro ⟨-, -, l, r, hlr, hl, hr⟩ nd hnd
    have hmem := hnd
    rw [hlr] at hnd
    rcases List.mem_append.1 hnd with h | h
    · have tg := mdTag (env := env) (p := odinTierNames dateTime) (choice_tag (fun _ h => elem_tag h) (fun _ h => elem_tag h)) rfl _ (hl nd h)
      obtain ⟨x, hx, hwx⟩ := mem_all2 ha hmem
      have hc : x.cls = .item := (hk x hx).cls_eq
      rw [wrote_tag hwx (by rw [hc]; decide), hc] at tg
      exact absurd tg (by decide)
    · rcases choice_iff.1 (hr nd h) with h | h
      · cases h
      · exact h
  · intro h
    refine ⟨⟨⟨_, rfl, fits_lit (c := 'r') (r := []) (by decide) (by decide)⟩, ?_, .inl state_atts⟩, wrote_ws rfl ht hws, [], _, rfl, by simp, fun n hn => choice_iff.2 (.inr (h n hn))⟩
    rintro v ⟨⟩
    exact val_value.2 rfl

/-! ### The metadata -/

theorem content_one {A : Pat} (hA : ElemLike env A) {ns : List Node} (h : Content env A [] ns) : (elems ns).length = 1 := by
  have key : ∀ ns, Matches env A [] ns → (elems ns).length = 1 := by
    intro ns h
    obtain ⟨w₁, n, w₂, rfl, h1, h2, h3, -⟩ := hA.inv ns h
    have e1 := (wsNodes_iff.1 h1).1
    have e2 := (wsNodes_iff.1 h2).1
    have e3 : elems (n :: w₂) = n :: elems w₂ := List.filter_cons_of_pos h3
    rw [elems_append, e1, e3, e2]; rfl
  rcases h with h | ⟨-, h | h⟩
  · exact key _ h
  · have := key _ h; cases this
  · have := key _ h; cases this

theorem odin_plain : PlainMeta (odinNames dateTime) := ⟨rfl, rfl, rfl, rfl, rfl, rfl, rfl, rfl⟩

theorem mdO_fits (title : Str → Str) (o : Odin.Opts) (b : Odin.Block) :
    MdFitsX (Odin.mdObj title o b) ↔ ¬ (o.keepHeaders = true ∧ b.headerLines.getD [] ≠ []) := by
  have hm : ∀ n, IdFits (lit! "meta" ++ natStr n) := fun n =>
    IdFits.num (fits_lit (c := 'm') (r := lit! "eta") (by decide) (by decide)) n
  constructor
  · intro h hh
    have h1 := h.2.2.2 (.mk (Odin.headerData (b.headerLines.getD [])) [] []) (by
      have h1 : natStr 1 = ['1'] := by decide
      simp [Odin.mdObj, Odin.header, if_pos hh, Odin.headerData, h1])
    have := h1.2.1 _ rfl 'o' (by decide)
    exact absurd this (by decide)
  · intro hh
    refine ⟨(by rintro i ⟨⟩), (by rintro i ⟨⟩), (by intro k v h; cases h), fun m hmem => ?_⟩
    have : m = Odin.langMeta title 1 b := by
      simpa [Odin.mdObj, Odin.header, if_neg hh] using hmem
    subst this
    exact ⟨(by rintro i ⟨⟩; exact hm 1), (by rintro i ⟨⟩), (by intro k v h; cases h), .inl rfl⟩

theorem mdO_iff (he : env ANY = AnyElement) {eff : Dict Str Str} {title : Str → Str} {o : Odin.Opts} {b : Odin.Block}
    (n : XNode eff .metadata (Odin.mdObj title o b).data [] (Odin.mdObj title o b).kids) {nd : Node} (h : Wrote (Odin.mdObj title o b) nd) :
    Matches env (.choice (odinNames dateTime).igtMetadata (.choice (odinNames dateTime).metadata (metadataFile (odinNames dateTime)))) [] [nd] ↔
      ¬ (o.keepHeaders = true ∧ b.headerLines.getD [] ≠ []) := by
  have key : _ ↔ MdFitsX (Odin.mdObj title o b) := mdX_iff he (odin_plain (dateTime := dateTime)) n h
  rw [choice_iff, choice_iff, key, mdO_fits]
  constructor
  · rintro (h1 | h1 | h1)
    · intro hh
      obtain ⟨t', ns, rfl, hn, ht, hws, ha⟩ := h.inv (by decide)
      have h1' : Matches env (.elem (.name (lit! "metadata")) (.group (.opt (att (lit! "id") Id)) (.group BaseAttrs (.group (.opt (att (lit! "type") .empty))
        (.group .empty (metaFile xigtNames (.choice (languageElem (lit! "subject")) (languageElem (lit! "language"))))))))) [] _ := h1
      rw [show clsTag { cls := Cls.metadata : Data }.cls = lit! "metadata" from rfl, elem_wrote, meta_same.content] at h1'
      have hE : ElemLike env (metaFile xigtNames (.choice (languageElem (lit! "subject")) (languageElem (lit! "language")))) := elemLike_elem _ _
      have hl := content_one hE ((attsPat_content hE.noAttr nodup_base hn).1 h1').2
      rw [elems_text_append, ← all2_length ha] at hl
      simp [Odin.header, if_pos hh] at hl
    · cases h1
    · exact h1
  · exact fun h => .inr (.inr h)

/-! ### The block -/

def igtSpec : AttSpec :=
  [(lit! "doc-id", true, string), (lit! "line-range", true, string), (lit! "tag-types", true, string), (lit! "judgment", false, string)]

theorem igtO_same {q : Pat} : Same env (.group (att (lit! "id") Id) (.group BaseAttrs (.group (.opt (att (lit! "type") .empty))
    (.group (odinNames dateTime).igtAttrs q)))) (attsPat ((lit! "id", true, Id) :: (baseSpec ++ ([] ++ ((lit! "type", false, .empty) :: igtSpec)))) q) :=
  .right (base_same.trans (.right (.right (.right (.trans .assoc (.right (.trans .assoc (.right .assoc))))))))

theorem igtO_iff (he : env ANY = AnyElement) {title : Str → Str} {o : Odin.Opts} {b : Odin.Block} {doc first last types : Str}
    (h : Odin.Writable title o b doc first last types) {x : Obj} (hx : Odin.makeIgt title o b = .ok x) {eff : Dict Str Str}
    (n : XNode eff .igt x.data x.md x.kids) {nd : Node} (hwr : Wrote x nd) :
    Matches env (igtFile (odinNames dateTime)) [] [nd] ↔ BlockFitsO o b := by
  obtain ⟨rg, hrg, hs⟩ := h.block.range
  rw [← Odin.split_two] at hs
  obtain ⟨xs, hxs, ht⟩ := Odin.rawTier_ok (o := o) h.block.lines
  unfold Odin.makeIgt Odin.attributes Odin.lineRange at hx
  simp only [hrg, hs, h.block.doc, h.block.types, Odin.metadata_ok, ht, bind, Except.bind, Odin.join_two] at hx
  obtain ⟨rfl, hid⟩ := Odin.construct_inv hx
  simp only [Obj.data_mk, Obj.md_mk, Obj.kids_mk] at n
  obtain ⟨t', ns, rfl, hn, htx, hws, ha⟩ := hwr.inv (fun h => nomatch h)
  have hel : ElemLike env (odinNames dateTime).igtMetadata := elemLike_elem _ _
  have eA : ElemLike env (.choice (odinNames dateTime).igtMetadata (.choice (odinNames dateTime).metadata (metadataFile (odinNames dateTime)))) :=
    hel.choice (elemLike_not.choice (elemLike_elem _ _))
  have htr : ElemLike env (odinNames dateTime).tier := elemLike_not.choice ((elemLike_elem _ _).choice ((elemLike_elem _ _).choice ((elemLike_elem _ _).choice
    ((elemLike_elem _ _).choice ((elemLike_elem _ _).choice ((elemLike_elem _ _).choice ((elemLike_elem _ _).choice ((elemLike_elem _ _).choice
    ((elemLike_elem _ _).choice (elemLike_elem _ _))))))))))
  have eB : ElemLike env (.choice (odinNames dateTime).tier (tierFile (odinNames dateTime))) := htr.choice (elemLike_elem _ _)
  have tB : ∀ n, Matches env (.choice (odinNames dateTime).tier (tierFile (odinNames dateTime))) [] [n] → tagOf n = lit! "tier" := by
    refine choice_tag ?_ fun _ h => elem_tag h
    refine choice_tag not_tag ?_
    iterate 9 refine choice_tag (fun _ h => elem_tag h) ?_
    exact fun _ h => elem_tag h
  have tA : ∀ n, Matches env (.choice (odinNames dateTime).igtMetadata (.choice (odinNames dateTime).metadata (metadataFile (odinNames dateTime)))) [] [n] →
      tagOf n = lit! "metadata" := choice_tag (fun _ h => elem_tag h) (choice_tag not_tag fun _ h => elem_tag h)
  rw [igtFile, show clsTag Cls.igt = lit! "igt" from rfl, elem_wrote]
  refine (igtO_same (dateTime := dateTime)).content.trans ?_
  have hnd : (((lit! "id", true, Id) :: (baseSpec ++ ([] ++ ((lit! "type", false, .empty) :: igtSpec)))).map (·.1)).Nodup := by
    show [lit! "id", xmlName (lit! "lang"), xmlName (lit! "space"), lit! "type", lit! "doc-id", lit! "line-range", lit! "tag-types", lit! "judgment"].Nodup
    decide
  have hat : Atts env (baseSpec ++ [] ++ igtSpec) [(lit! "doc-id", doc), (lit! "line-range", first ++ '-' :: last), (lit! "tag-types", types)] := by
    refine ⟨fun s hs hr => ?_, fun x hx => ?_⟩
    · rw [List.append_nil] at hs
      rcases List.mem_append.1 hs with hs | hs
      · rw [base_opt s hs] at hr; cases hr
      · simp only [igtSpec, List.mem_cons, List.not_mem_nil, or_false] at hs
        rcases hs with rfl | rfl | rfl | rfl
        · exact ⟨doc, by simp⟩
        · exact ⟨first ++ '-' :: last, by simp⟩
        · exact ⟨types, by simp⟩
        · cases hr
    · simp only [List.mem_cons, List.not_mem_nil, or_false] at hx
      rcases hx with rfl | rfl | rfl
      · exact ⟨(lit! "doc-id", true, string), by simp [igtSpec], rfl, val_string.2 trivial⟩
      · exact ⟨(lit! "line-range", true, string), by simp [igtSpec], rfl, val_string.2 trivial⟩
      · exact ⟨(lit! "tag-types", true, string), by simp [igtSpec], rfl, val_string.2 trivial⟩
  have k1 : ∀ k ∈ [lit! "id", lit! "type"], k ∉ (baseSpec ++ [] ++ igtSpec : AttSpec).map (fun s : Str × Bool × Pat => s.1) := by
    show ∀ k ∈ [lit! "id", lit! "type"], k ∉ [xmlName (lit! "lang"), xmlName (lit! "space"), lit! "doc-id", lit! "line-range", lit! "tag-types", lit! "judgment"]
    decide
  rw [attsPat_content (group_noAttr (star_noAttr eA.noAttr) (star_noAttr eB.noAttr)) hnd hn, atts_perm spec_perm',
    has_type (l := baseSpec ++ [] ++ igtSpec) n.kept (k1 (lit! "id") (by simp)) (k1 (lit! "type") (by simp)),
    two_wrote (c := .tier) eA eB ha (wrote_ws rfl htx hws) n.md_cls (fun x hx => by cases List.mem_singleton.1 hx; rfl) (by decide) (by decide) tA tB
      (P := fun _ => ¬ (o.keepHeaders = true ∧ b.headerLines.getD [] ≠ [])) (Q := fun _ => ∀ l ∈ b.lines.getD [], LineFitsO l)
      (fun x hx nd hw => by
        have nx := XNode.of (x := x) (n.md_cls x hx) (n.md_wf x hx) (n.md_valid x hx) (n.kept_md x hx)
        cases List.mem_singleton.1 hx
        exact mdO_iff he nx hw)
      (fun x hx nd hw => by
        have hc := n.kids_cls x hx
        have nx := XNode.of (x := x) (by injection hc) (n.kids_wf x hx) (n.kids_valid x hx) (n.kept_kids x hx)
        cases List.mem_singleton.1 hx
        exact tierO_iff (fun l hl => (h.lines l hl).1) hxs nx hw)]
  simp only [List.forall_mem_singleton]
  constructor
  · exact fun h => ⟨h.1.1, h.2⟩
  · exact fun h => ⟨⟨h.1, (by rintro v ⟨⟩), hat⟩, h.2⟩

/-- **C104**: what is imported from blocks that can be written and read (`Writable`, C76) is a document
odin-xigt.rnc allows just if every block has an identifier the schema allows, no header of it is kept,
and its lines have `line` and `tag` and, besides the content, only a judgment and one reference. -/
theorem C104_odin (dateTime : Str → Prop) (title : Str → Str) (o : Odin.Opts) (hn : ∀ s ∈ Odin.names, XmlLex.ncName s = true) {r : Char}
    (hr : Odin.Legal r) (hr' : r ≠ '\r') (ho : o.repl = [r]) (bs : List Odin.Block)
    (hb : ∀ b ∈ bs, ∃ doc first last types, Odin.Writable title o b doc first last types)
    (hd : (bs.filterMap fun b => b.igtId).Nodup) (ind : Option Int) :
    ∃ xs s doc, Odin.odinIgts title o bs = .ok xs ∧ dumpsXml ind (Odin.corpus xs) = .ok s ∧ docText s = .ok doc ∧
      (Valid (odin_rnc dateTime) doc ↔ ∀ b ∈ bs, BlockFitsO o b) := by
  obtain ⟨xs, h1, f1, f2, f3, -⟩ := Odin.corpus_fine title o hn hr hr' ho bs hb hd
  obtain ⟨s, doc, g1, g2, -, hwr⟩ := wrote_corpus (Odin.corpus xs) rfl f1 f2 f3 ind
  refine ⟨xs, s, doc, h1, g1, g2, ?_⟩
  have n := XNode.of (cls := .corpus) (x := Odin.corpus xs) rfl f1 f2 f3
  have he : (odin_rnc dateTime).defs ANY = AnyElement := by simp [odin_rnc, grammar]
  have hall := (Odin.C75_all title o bs xs).1 h1
  obtain ⟨t', ns, rfl, hnd, htx, hws, ha⟩ := hwr.inv (fun h => nomatch h)
  have eA : ElemLike (odin_rnc dateTime).defs (metadataFile (odinNames dateTime)) := elemLike_elem _ _
  have eB : ElemLike (odin_rnc dateTime).defs (igtFile (odinNames dateTime)) := elemLike_elem _ _
  have hk : ∀ x ∈ xs, x.cls = .igt := fun x hx => by
    have hc := n.kids_cls x hx
    injection hc
  have key : Content (odin_rnc dateTime).defs _ [] (textNode t' ++ ns) ↔ _ := (outer_same (A := metadataFile (odinNames dateTime)) (B := igtFile (odinNames dateTime))).content.trans
    (two_wrote (c := .igt) eA eB ha (wrote_ws rfl htx hws) (by simp) hk (by decide) (by decide) (fun _ h => elem_tag h) (fun _ h => elem_tag h)
      (P := fun _ => True) (Q := fun x => ∀ b ∈ bs, Odin.makeIgt title o b = .ok x → BlockFitsO o b) (by simp) (fun x hx nd hw => by
        have nx := XNode.of (x := x) (hk x hx) (n.kids_wf x hx) (n.kids_valid x hx) (n.kept_kids x hx)
        obtain ⟨b, hb', hbx⟩ := mem_all2 hall hx
        obtain ⟨_, _, _, _, hwb⟩ := hb b hb'
        constructor
        · intro hm b'' hb'' hbx''
          obtain ⟨_, _, _, _, hwb''⟩ := hb b'' hb''
          exact (igtO_iff he hwb'' hbx'' nx hw).1 hm
        · intro hm
          exact (igtO_iff he hwb hbx nx hw).2 (hm b hb' hbx)))
  show Matches _ (.elem (.name (lit! "xigt-corpus")) _) [] [.elem (lit! "xigt-corpus") _ _] ↔ _
  rw [elem_wrote]
  refine meta_same.content.trans ?_
  refine (attsPat_content (outer_noAttr eA eB) nodup_base hnd).trans ?_
  rw [key]
  refine (and_congr_left' (opt_atts (d := { cls := .corpus, nsmap := some Odin.nsmap }) n.kept)).trans ?_
  constructor
  · rintro ⟨-, -, h⟩ b hb'
    obtain ⟨x, hx, hbx⟩ := hall.mem_left _ hb'
    exact h x hx b hb' hbx
  · intro h
    exact ⟨⟨(by rintro i ⟨⟩), (by rintro i ⟨⟩), (by intro k v h; cases h)⟩, by simp, fun x hx b hb' _ => h b hb'⟩

end
end Xigt.Rng

namespace Xigt.Rng

/-! ### Examples -/

section
attribute [local instance] asciiUni asciiXml asciiXsd

/-- a block with a header and a tagged line -/
def odinBlock : Odin.Block :=
  { Odin.exBlock with
    headerLines := some [lit! "French"]
    lines := some [[(lit! "line", lit! "959"), (lit! "tag", lit! "L"), (lit! "content", lit! "chiens")]] }

theorem odinBlock_writable (o : Odin.Opts) : Odin.Writable id o odinBlock (lit! "397") (lit! "959") (lit! "961") (lit! "L G T") := by
  have h := Odin.exBlock_writable
  have hl : ∀ l ∈ odinBlock.lines.getD [], l = [(lit! "line", lit! "959"), (lit! "tag", lit! "L"), (lit! "content", lit! "chiens")] := by
    intro l hl; exact List.mem_singleton.1 hl
  refine ⟨⟨rfl, rfl, h.block.range, ?_, h.block.id⟩, h.id, h.doc, h.first, h.last, h.types, fun _ _ => ?_, h.iso, h.language, fun l h => ?_⟩
  · intro l h; rw [hl l h]; decide
  · exact ⟨⟨chars_of (by decide), by decide⟩, 'F', by decide, by decide⟩
  · rw [hl l h]
    refine ⟨by unfold Dict.WF; decide, ?_, ?_⟩
    · intro t ht
      have : some (lit! "chiens") = some t := ht
      cases this; decide
    · intro k v hkv hk
      have hm := Dict.get?_mem hkv
      simp only [List.mem_cons, List.not_mem_nil, or_false, Prod.mk.injEq] at hm
      rcases hm with ⟨rfl, rfl⟩ | ⟨rfl, rfl⟩ | ⟨rfl, rfl⟩
      · exact ⟨chars_of (by decide), by decide, by decide, by decide, by decide⟩
      · exact ⟨chars_of (by decide), by decide, by decide, by decide, by decide⟩
      · exact absurd rfl hk

/-- **C104** refuted: with `keep_headers`, the importer writes a `meta` of type `odin-header`, which
odin-xigt.rnc does not know. -/
theorem C104_refuted (dateTime : Str → Prop) (ind : Option Int) :
    ∃ xs s doc, Odin.odinIgts id { keepHeaders := true } [odinBlock] = .ok xs ∧ dumpsXml ind (Odin.corpus xs) = .ok s ∧ docText s = .ok doc ∧
      ¬ Valid (odin_rnc dateTime) doc := by
  obtain ⟨xs, s, doc, h1, h2, h3, h4⟩ := C104_odin dateTime id { keepHeaders := true } (by decide) (r := '�') ((Odin.legal_iff _).2 (by decide)) (by decide) rfl
    [odinBlock] (fun b hb => by cases List.mem_singleton.1 hb; exact ⟨_, _, _, _, odinBlock_writable _⟩) (by decide) ind
  exact ⟨xs, s, doc, h1, h2, h3, fun hv => (h4.1 hv odinBlock (by simp)).2.1 ⟨rfl, by decide⟩⟩

/-- without it, the block is written as a valid document: C104 is not empty -/
example (dateTime : Str → Prop) (ind : Option Int) :
    ∃ xs s doc, Odin.odinIgts id {} [odinBlock] = .ok xs ∧ dumpsXml ind (Odin.corpus xs) = .ok s ∧ docText s = .ok doc ∧
      Valid (odin_rnc dateTime) doc := by
  obtain ⟨xs, s, doc, h1, h2, h3, h4⟩ := C104_odin dateTime id {} (by decide) (r := '�') ((Odin.legal_iff _).2 (by decide)) (by decide) rfl
    [odinBlock] (fun b hb => by cases List.mem_singleton.1 hb; exact ⟨_, _, _, _, odinBlock_writable _⟩) (by decide) ind
  refine ⟨xs, s, doc, h1, h2, h3, h4.2 fun b hb => ?_⟩
  cases List.mem_singleton.1 hb
  refine ⟨⟨_, rfl, 'i', lit! "gt1", rfl, by decide, by decide +kernel⟩, by rintro ⟨⟨⟩, _⟩, fun l hl => ?_⟩
  cases List.mem_singleton.1 hl
  refine ⟨⟨lit! "959", by simp⟩, ⟨lit! "L", by simp⟩, ?_, ?_⟩
  · intro k v hkv
    simp only [List.mem_cons, List.not_mem_nil, or_false, Prod.mk.injEq] at hkv
    rcases hkv with ⟨rfl, _⟩ | ⟨rfl, _⟩ | ⟨rfl, _⟩
    · exact .inr (.inl rfl)
    · exact .inr (.inr (.inl rfl))
    · exact .inl rfl
  · refine .inl fun v hv => ?_
    simp only [List.mem_cons, List.not_mem_nil, or_false, Prod.mk.injEq] at hv
    rcases hv with ⟨h, _⟩ | ⟨h, _⟩ | ⟨h, _⟩ <;> exact absurd h (by decide)

end
end Xigt.Rng
