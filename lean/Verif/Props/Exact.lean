import Verif.Props.Equality
import Verif.Props.Queries
import Verif.Props.Irep
/-
Exact statements, without side conditions, for properties that hold only up to a corner case:
C01, C02, C04 (repeated labels), C08, C32 (conditions that print alike), C09 (repeated conditions), C18 (universal
ruleset, empty subset), C23 (pure rules), C45 (overlapping rules).
-/
namespace Witt
open Spec

/-! ### C01, C02: any index labels -/

/-- C01, any labels. If the tested columns are present, `predict` succeeds and answers True for a row iff some row
with the same index label (itself, or a namesake) is one some rule fires on. If the ruleset has an empty rule it
succeeds anyway; if not and a tested column is missing, KeyError. -/
theorem C01_predict_any_labels (rs : Ruleset) (df : Frame) :
    (((∃ r ∈ rs.rules, r.conds = []) ∨ HasFeatures df rs.rules) →
      ∃ ps, rs.predict df = .ok ps ∧ ps.length = df.rows.length ∧
        ∀ (i : Nat) (h : i < df.rows.length), ps[i]? = some true ↔
          ∃ row ∈ df.rows, row.label = df.rows[i].label ∧ FiresAny row rs.rules) ∧
    (¬ ((∃ r ∈ rs.rules, r.conds = []) ∨ HasFeatures df rs.rules) → rs.predict df = .error .keyError) := by
  refine ⟨fun h => ⟨_, Ruleset.predict_ok h, by simp, fun i hi => ?_⟩, fun h => Ruleset.predict_err h⟩
  rw [List.getElem?_map, List.getElem?_eq_getElem hi, Option.map_some, Option.some.injEq, List.any_eq_true]
  constructor
  · rintro ⟨row, hr, h⟩
    rw [Bool.and_eq_true, beq_iff_eq, rulesMet_iff] at h
    exact ⟨row, hr, h⟩
  · rintro ⟨row, hr, h⟩
    refine ⟨row, hr, ?_⟩
    rw [Bool.and_eq_true, beq_iff_eq, rulesMet_iff]
    exact h

/-- C02, any labels. The answer for a row depends only on the rows carrying the same label: two batches in which
the namesakes of the row (itself included) have the same cells give it the same answer. -/
theorem C02_depends_on_namesakes_only (rs : Ruleset) (df df' : Frame)
    (hf : HasFeatures df rs.rules) (hf' : HasFeatures df' rs.rules) (i j : Nat)
    (hi : i < df.rows.length) (hj : j < df'.rows.length)
    (h1 : ∀ row ∈ df.rows, row.label = df.rows[i].label → ∃ row' ∈ df'.rows, row'.label = df'.rows[j].label ∧ row'.cell = row.cell)
    (h2 : ∀ row ∈ df'.rows, row.label = df'.rows[j].label → ∃ row' ∈ df.rows, row'.label = df.rows[i].label ∧ row'.cell = row.cell) :
    ∃ ps ps', rs.predict df = .ok ps ∧ rs.predict df' = .ok ps' ∧ ps[i]? = ps'[j]? ∧ ps[i]?.isSome := by
  obtain ⟨ps, hp, hl, ha⟩ := (C01_predict_any_labels rs df).1 (.inr hf)
  obtain ⟨ps', hp', hl', ha'⟩ := (C01_predict_any_labels rs df').1 (.inr hf')
  have hsome : ps[i]? = some (ps[i]'(by omega)) := List.getElem?_eq_getElem _
  have hsome' : ps'[j]? = some (ps'[j]'(by omega)) := List.getElem?_eq_getElem _
  refine ⟨ps, ps', hp, hp', ?_, by rw [hsome]; rfl⟩
  have key : ps[i]? = some true ↔ ps'[j]? = some true := by
    rw [ha i hi, ha' j hj]
    have move : ∀ {a b : Row}, a.cell = b.cell → FiresAny b rs.rules → FiresAny a rs.rules := by
      rintro a b hc ⟨r, hr, hf⟩
      exact ⟨r, hr, fun c hcm => by unfold Meets; rw [hc]; exact hf c hcm⟩
    constructor
    · rintro ⟨row, hr, hlab, hfire⟩
      obtain ⟨row', hr', hlab', hc⟩ := h1 row hr hlab
      exact ⟨row', hr', hlab', move hc hfire⟩
    · rintro ⟨row, hr, hlab, hfire⟩
      obtain ⟨row', hr', hlab', hc⟩ := h2 row hr hlab
      exact ⟨row', hr', hlab', move hc hfire⟩
  rw [hsome, hsome'] at key ⊢
  simp only [Option.some.injEq] at key ⊢
  exact Bool.eq_iff_iff.mpr key

/-- C04, any labels. The reasons of a row are the rules that fire on exactly one of the rows carrying its label
(itself and its namesakes), in ruleset order; the predictions are those of `predict`. -/
theorem C04_reasons_any_labels (rs : Ruleset) (df : Frame) (hf : HasFeatures df rs.rules) :
    ∃ ps reasons, rs.predictReasons df = .ok (ps, reasons) ∧ rs.predict df = .ok ps ∧
      reasons.length = df.rows.length ∧
      ∀ (i : Nat) (h : i < df.rows.length), reasons[i]? = some (rs.rules.filter (fun r =>
        decide ((df.rows.filter (fun row => decide (row.label = df.rows[i].label ∧ Fires row r))).length = 1))) := by
  have hp := Ruleset.predict_ok (rs := rs) (df := df) (.inr hf)
  let reason : Row → List Rule := fun row => rs.rules.filter (fun r =>
    decide ((df.rows.filter (fun row' => decide (row'.label = row.label ∧ Fires row' r))).length = 1))
  have hkeep : ∀ (row : Row) (r : Rule), (df.rows.filter (fun a => a.label == row.label)).filter (condsMet r.conds)
      = df.rows.filter (fun row' => decide (row'.label = row.label ∧ Fires row' r)) := by
    intro row r
    rw [List.filter_filter]
    apply List.filter_congr
    intro a _
    rw [Bool.eq_iff_iff, Bool.and_eq_true, decide_eq_true_iff, beq_iff_eq, condsMet_iff, and_comm]
    rfl
  have hat : ∀ row : Row, reasonsAt rs.rules df row.label = .ok (reason row) := by
    intro row
    unfold reasonsAt
    apply filterM_ok
    intro r hr
    rw [Rule.numCovered_ok (by simpa using hf r hr)]
    show Except.ok _ = _
    rw [Except.ok.injEq, Frame.keep_rows, hkeep, Bool.eq_iff_iff, beq_iff_eq, decide_eq_true_iff]
  refine ⟨_, df.rows.map reason, ?_, hp, by simp, fun i hi => ?_⟩
  · unfold Ruleset.predictReasons
    rw [hp, ok_bind]
    have hz : ∀ g : Row → Bool, df.index.zip (df.rows.map g) = df.rows.map (fun row => (row.label, g row)) := by
      intro g; simp [Frame.index, List.zip_map']
    rw [hz, List.mapM_map]
    have hm : df.rows.mapM ((fun ip : Label × Bool => if ip.2 then reasonsAt rs.rules df ip.1 else .ok []) ∘
        fun row => (row.label, df.rows.any (fun row' => row'.label == row.label && rulesMet rs.rules row')))
        = .ok (df.rows.map reason) := by
      apply mapM_ok
      intro row hrow
      simp only [Function.comp]
      cases hq : df.rows.any (fun row' => row'.label == row.label && rulesMet rs.rules row')
      · simp only [Bool.false_eq_true, if_false]
        congr 1
        symm
        rw [List.filter_eq_nil_iff]
        intro r hr hc
        rw [decide_eq_true_iff] at hc
        obtain ⟨a, ha⟩ : ∃ a, a ∈ df.rows.filter (fun row' => decide (row'.label = row.label ∧ Fires row' r)) := by
          cases hl : df.rows.filter (fun row' => decide (row'.label = row.label ∧ Fires row' r)) with
          | nil => rw [hl] at hc; simp at hc
          | cons a l => exact ⟨a, by simp⟩
        rw [List.mem_filter, decide_eq_true_iff] at ha
        rw [List.any_eq_false] at hq
        apply hq a ha.1
        rw [Bool.and_eq_true, beq_iff_eq, rulesMet_iff]
        exact ⟨ha.2.1, r, hr, ha.2.2⟩
      · simpa using hat row
    rw [hm]; rfl
  · rw [List.getElem?_map, List.getElem?_eq_getElem hi, Option.map_some]

/-! ### C08, C32, C09: equality and hashing by printed text -/

namespace Spec
/-- Every rule of one list has in the other a rule with as many conditions and the same printed conditions, and
conversely. -/
def PrintAlike (a b : List Rule) : Prop :=
  (∀ r ∈ a, ∃ s ∈ b, r.conds.length = s.conds.length ∧ ∀ t, (∃ c ∈ r.conds, c.text = t) ↔ ∃ c ∈ s.conds, c.text = t) ∧
  (∀ s ∈ b, ∃ r ∈ a, r.conds.length = s.conds.length ∧ ∀ t, (∃ c ∈ r.conds, c.text = t) ↔ ∃ c ∈ s.conds, c.text = t)
/-- Among the listed conditions, those that print alike test the same column for the same value. -/
def TextTells (cs : List Cond) : Prop :=
  ∀ c ∈ cs, ∀ d ∈ cs, c.text = d.text → c.feature = d.feature ∧ ∀ v, Same v c.val ↔ Same v d.val
end Spec

theorem mem_condTexts {t : PStr} {l : List Cond} : t ∈ condTexts l ↔ ∃ c ∈ l, c.text = t := List.mem_map

/-- C08, exactly: two rulesets compare equal iff their rules print alike. -/
theorem C08_equal_iff_print_alike (a b : Ruleset) : a.pyEq b = true ↔ PrintAlike a.rules b.rules := by
  rw [Ruleset.pyEq_iff]
  simp only [condsEq_iff, mem_condTexts, PrintAlike]
  constructor
  · rintro ⟨h1, h2⟩
    refine ⟨h1, fun s hs => ?_⟩
    obtain ⟨r, hr, hl, ht⟩ := h2 s hs
    exact ⟨r, hr, hl.symm, fun t => (ht t).symm⟩
  · rintro ⟨h1, h2⟩
    refine ⟨h1, fun s hs => ?_⟩
    obtain ⟨r, hr, hl, ht⟩ := h2 s hs
    exact ⟨r, hr, hl.symm, fun t => (ht t).symm⟩

/-- Rulesets whose rules have the same printed conditions predict alike if the printed text tells conditions apart. -/
theorem predict_of_texts (a b : Ruleset) (df : Frame)
    (ht : TextTells ((a.rules ++ b.rules).flatMap Rule.conds))
    (h1 : ∀ r ∈ a.rules, ∃ s ∈ b.rules, ∀ t, (∃ c ∈ r.conds, c.text = t) ↔ ∃ c ∈ s.conds, c.text = t)
    (h2 : ∀ s ∈ b.rules, ∃ r ∈ a.rules, ∀ t, (∃ c ∈ r.conds, c.text = t) ↔ ∃ c ∈ s.conds, c.text = t) :
    a.predict df = b.predict df := by
  have hmem : ∀ r ∈ a.rules ++ b.rules, ∀ c ∈ r.conds, c ∈ (a.rules ++ b.rules).flatMap Rule.conds :=
    fun r hr c hc => List.mem_flatMap.mpr ⟨r, hr, hc⟩
  -- one direction, for two rules with the same texts
  have one : ∀ r ∈ a.rules ++ b.rules, ∀ s ∈ a.rules ++ b.rules,
      (∀ t, (∃ c ∈ r.conds, c.text = t) ↔ ∃ c ∈ s.conds, c.text = t) →
      (r.conds = [] → s.conds = []) ∧ ((∀ c ∈ r.conds, c.feature ∈ df.cols) → ∀ c ∈ s.conds, c.feature ∈ df.cols) ∧
      ∀ row, Fires row r → Fires row s := by
    intro r hr s hs h
    refine ⟨fun h0 => ?_, fun hc c hcs => ?_, fun row hrow c hcs => ?_⟩
    · rw [List.eq_nil_iff_forall_not_mem]
      intro c hc
      obtain ⟨d, hd, _⟩ := (h c.text).mpr ⟨c, hc, rfl⟩
      rw [h0] at hd; cases hd
    · obtain ⟨d, hd, he⟩ := (h c.text).mpr ⟨c, hcs, rfl⟩
      rw [← (ht d (hmem r hr d hd) c (hmem s hs c hcs) he).1]
      exact hc d hd
    · obtain ⟨d, hd, he⟩ := (h c.text).mpr ⟨c, hcs, rfl⟩
      obtain ⟨hf, hv⟩ := ht d (hmem r hr d hd) c (hmem s hs c hcs) he
      have := hrow d hd
      unfold Meets at this ⊢
      rw [← hf]
      exact (hv _).mp this
  have ina : ∀ r ∈ a.rules, r ∈ a.rules ++ b.rules := fun r h => List.mem_append_left _ h
  have inb : ∀ r ∈ b.rules, r ∈ a.rules ++ b.rules := fun r h => List.mem_append_right _ h
  have hmet : rulesMet a.rules = rulesMet b.rules := by
    funext row
    rw [Bool.eq_iff_iff, rulesMet_iff, rulesMet_iff]
    constructor
    · rintro ⟨r, hr, hf⟩
      obtain ⟨s, hs, h⟩ := h1 r hr
      exact ⟨s, hs, (one r (ina r hr) s (inb s hs) h).2.2 row hf⟩
    · rintro ⟨s, hs, hf⟩
      obtain ⟨r, hr, h⟩ := h2 s hs
      exact ⟨r, hr, (one s (inb s hs) r (ina r hr) (fun t => (h t).symm)).2.2 row hf⟩
  have hcond : ((∃ r ∈ a.rules, r.conds = []) ∨ HasFeatures df a.rules) ↔
      ((∃ r ∈ b.rules, r.conds = []) ∨ HasFeatures df b.rules) := by
    constructor
    · rintro (⟨r, hr, h0⟩ | hf)
      · obtain ⟨s, hs, h⟩ := h1 r hr
        exact .inl ⟨s, hs, (one r (ina r hr) s (inb s hs) h).1 h0⟩
      · refine .inr fun s hs => ?_
        obtain ⟨r, hr, h⟩ := h2 s hs
        exact (one r (ina r hr) s (inb s hs) h).2.1 (hf r hr)
    · rintro (⟨s, hs, h0⟩ | hf)
      · obtain ⟨r, hr, h⟩ := h2 s hs
        exact .inl ⟨r, hr, (one s (inb s hs) r (ina r hr) (fun t => (h t).symm)).1 h0⟩
      · refine .inr fun r hr => ?_
        obtain ⟨s, hs, h⟩ := h1 r hr
        exact (one s (inb s hs) r (ina r hr) (fun t => (h t).symm)).2.1 (hf s hs)
  by_cases hc : (∃ r ∈ a.rules, r.conds = []) ∨ HasFeatures df a.rules
  · rw [Ruleset.predict_ok hc, Ruleset.predict_ok (hcond.1 hc), hmet]
  · rw [Ruleset.predict_err hc, Ruleset.predict_err (fun h' => hc (hcond.2 h'))]

/-- C08. Rulesets that compare equal predict alike on every frame, provided that among their conditions printing
alike implies testing the same column for the same value. -/
theorem C08_equal_rulesets_predict_alike (a b : Ruleset) (h : a.pyEq b = true)
    (ht : TextTells ((a.rules ++ b.rules).flatMap Rule.conds)) (df : Frame) : a.predict df = b.predict df := by
  obtain ⟨h1, h2⟩ := (C08_equal_iff_print_alike a b).mp h
  refine predict_of_texts a b df ht (fun r hr => ?_) (fun s hs => ?_)
  · obtain ⟨s, hs, _, h⟩ := h1 r hr; exact ⟨s, hs, h⟩
  · obtain ⟨r, hr, _, h⟩ := h2 s hs; exact ⟨r, hr, h⟩

/-- Text conditions without `=` are told apart by their text. -/
theorem textTells_of_plain {cs : List Cond} (h : ∀ c ∈ cs, PlainCond c) : TextTells cs := by
  intro c hc d hd he
  rw [Cond.text_inj (h c hc) (h d hd) he]
  exact ⟨rfl, fun _ => .rfl⟩

/-- C32, predictions: de-duplicating changes no prediction, under the same proviso. -/
theorem C32_remove_duplicates_predictions (rs : Ruleset) (ht : TextTells (rs.rules.flatMap Rule.conds)) (df : Frame) :
    ({ rs with rules := removeDups Rule.sameKey rs.rules } : Ruleset).predict df = rs.predict df := by
  have hsub := removeDups_sublist (same := Rule.sameKey) rs.rules
  apply predict_of_texts
  · intro c hc d hd
    have : ∀ x, x ∈ (removeDups Rule.sameKey rs.rules ++ rs.rules).flatMap Rule.conds → x ∈ rs.rules.flatMap Rule.conds := by
      intro x hx
      obtain ⟨r, hr, hxr⟩ := List.mem_flatMap.mp hx
      refine List.mem_flatMap.mpr ⟨r, ?_, hxr⟩
      rcases List.mem_append.mp hr with h | h
      · exact hsub.subset h
      · exact h
    exact ht c (this c hc) d (this d hd)
  · exact fun r hr => ⟨r, hsub.subset hr, fun _ => .rfl⟩
  · intro r hr
    rcases removeDups_rep (same := Rule.sameKey) rs.rules hr with h | ⟨s, hs, hsr⟩
    · exact ⟨r, h, fun _ => .rfl⟩
    · refine ⟨s, hs, fun t => ?_⟩
      have := (condsEq_iff.mp (condsEq_of_sameKey hsr)).2 t
      rw [mem_condTexts, mem_condTexts] at this
      exact this

/-- C09, exactly. Rules compare equal iff they have as many conditions and the same set of printed conditions; they
have the same hash key iff they have the same printed conditions up to order. So the same key implies equality, and
equality implies the same key for rules without repeated conditions. -/
theorem C09_equality_and_hash (a b : Rule) :
    (a.pyEq b = true ↔ a.conds.length = b.conds.length ∧ ∀ t, (∃ c ∈ a.conds, c.text = t) ↔ ∃ c ∈ b.conds, c.text = t) ∧
    (a.sameKey b = true ↔ (a.conds.map Cond.text).Perm (b.conds.map Cond.text)) ∧
    (a.sameKey b = true → a.pyEq b = true) ∧
    (a.pyEq b = true → (a.conds.map Cond.text).Nodup ∨ (b.conds.map Cond.text).Nodup → a.sameKey b = true) := by
  refine ⟨?_, ?_, C09_same_key_equal a b, ?_⟩
  · unfold Rule.pyEq; rw [condsEq_iff]; simp only [mem_condTexts]
  · unfold Rule.sameKey; rw [condsSameKey_iff]; rfl
  · rintro h (hn | hn)
    · exact C09_equal_rules_hash_equal a b h hn
    · have := C09_equal_rules_hash_equal b a (condsEq_symm h) hn
      exact condsSameKey_symm this

/-! ### C18 -/

/-- C18, exactly. `ruleset_covers(ruleset, subset)` is the labels of `subset` covered by some rule, except that a
ruleset with an empty rule and an empty subset give all labels. -/
theorem C18_ruleset_covers (df : Frame) (cf : Feat) (cn : CatNap)
    (hb : CatNap.build df cf = .ok cn) (hu : df.UniqueIndex) (rs : List (List Cond))
    (hr : ∀ r ∈ rs, OverCols df cf r) (s : List Label) (hs : ∀ l ∈ s, l ∈ df.index) (l : Label) :
    l ∈ cn.rulesetCovers rs (some s) ↔
      (l ∈ s ∧ ∃ r ∈ rs, Covered df r l) ∨ (s = [] ∧ [] ∈ rs ∧ l ∈ df.index) := by
  by_cases hne : [] ∉ rs ∨ s ≠ []
  · rw [(C18_ruleset_covers_usual df cf cn hb hu rs hr s hs hne).1 l]
    constructor
    · exact Or.inl
    · rintro (h | ⟨h1, h2, _⟩)
      · exact h
      · rcases hne with h | h
        · exact absurd h2 h
        · exact absurd h1 h
  · push Not at hne
    obtain ⟨hmem, rfl⟩ := hne
    have hun : rs.any List.isEmpty = true := List.any_eq_true.mpr ⟨[], hmem, rfl⟩
    rw [CatNap.rulesetCovers_univ hun, if_pos rfl, CatNap.mem_all hb]
    simp [hmem]

/-! ### C23 -/

/-- C23, exactly as far as it goes: a rule grown from the empty rule under `min_rule_samples = m` has no condition,
or covers no growing negative at all, or covers at least `m` growing examples. -/
theorem C23_min_rule_samples [Arith] [Arith.Lawful] (df : Frame) (cf : Feat) (cn : CatNap) (hb : CatNap.build df cf = .ok cn)
    (hu : df.UniqueIndex) (lim : Limits) (m : Int) (hm : lim.minRuleSamples = some m) (pos neg : List Label)
    (fuel : Nat) (r : List Cond) (h : growRuleCn fuel cn lim pos neg [] = .ok r) :
    r = [] ∨ (∀ l ∈ neg, ¬ Covered df r l) ∨ m ≤ nCovered df r neg + nCovered df r pos := by
  obtain ⟨r0, hc, hr⟩ := (growRuleCn_post (CatNap.build_WF hb) h).chain
  have h0 : OverCols df cf [] := by intro c hc; simp at hc
  have hsub : r <+: r0 := by
    rcases hr with rfl | ⟨_, _, rfl⟩
    · exact List.prefix_rfl
    · exact List.dropLast_prefix _
  have hov : OverCols df cf r := fun c hx => hc.overCols hb h0 c (hsub.subset hx)
  rw [nCovered_eq hb hu hov, nCovered_eq hb hu hov]
  rcases (growRuleCn_post (CatNap.build_WF hb) h).samples m hm rfl with h0 | h0 | h0
  · exact .inl h0
  · refine .inr (.inl fun l hl hc => ?_)
    have := (C17_rule_covers df cf cn hb hu r hov neg).1 l
    rw [h0] at this
    exact absurd (this.mpr ⟨hl, hc⟩) (by simp)
  · exact .inr (.inr h0)

/-! ### C45 -/

/-- C45, exactly. If no rule is empty, `num_covered` counts each row once per rule that fires on it; with an empty
rule it is the number of rows. -/
theorem C45_num_covered_counts_firings (rs : Ruleset) (df : Frame) (hf : HasFeatures df rs.rules) :
    ((∃ r ∈ rs.rules, r.conds = []) → rs.numCovered df = .ok df.rows.length) ∧
    ((¬ ∃ r ∈ rs.rules, r.conds = []) → rs.numCovered df =
      .ok (df.rows.map (fun row => (rs.rules.filter (fun r => decide (Fires row r))).length)).sum) := by
  constructor
  · intro h
    unfold Ruleset.numCovered Ruleset.covers
    rw [if_pos (Ruleset.isUniversal_iff.mpr h)]
    rfl
  · intro h
    have hu : ¬ rs.isUniversal = true := fun h' => h (Ruleset.isUniversal_iff.mp h')
    have he : ∀ row, (fun r : Rule => decide (Fires row r)) = (fun r => condsMet r.conds row) := by
      intro row; funext r; rw [Bool.eq_iff_iff, decide_eq_true_iff]; exact condsMet_iff.symm
    simp only [he]
    unfold Ruleset.numCovered Ruleset.covers
    rw [if_neg hu]
    by_cases hn : rs.isNull = true
    · rw [if_pos hn, Ruleset.isNull_iff.1 hn]
      simp
    · rw [if_neg hn]
      have hm : rs.rules.mapM (fun r => r.covers df)
          = .ok (rs.rules.map (fun r => df.keep (condsMet r.conds))) :=
        mapM_ok (fun r hr => condsCover_ok (hf r hr))
      simp only [hm, ok_bind, pure_eq_ok]
      congr 1
      simp only [List.length_flatten, List.map_map]
      show (rs.rules.map (fun r => (df.rows.filter (condsMet r.conds)).length)).sum = _
      generalize rs.rules = rules
      generalize df.rows = rows
      induction rows with
      | nil =>
        simp only [List.filter_nil, List.length_nil, List.map_nil, List.sum_nil]
        induction rules with
        | nil => rfl
        | cons a l ih => simp
      | cons row rows ih =>
        rw [List.map_cons, List.sum_cons, ← ih]
        clear ih
        induction rules with
        | nil => rfl
        | cons r l ihl =>
          simp only [List.map_cons, List.sum_cons, ihl]
          cases hr : condsMet r.conds row <;> simp [hr] <;> omega

/-- C45: so it is the number of covered rows iff no covered row is covered twice. -/
theorem C45_num_covered (rs : Ruleset) (df : Frame) (hf : HasFeatures df rs.rules)
    (hne : ¬ ∃ r ∈ rs.rules, r.conds = []) :
    rs.numCovered df = .ok (df.rows.filter (fun row => decide (FiresAny row rs.rules))).length ↔
      ∀ row ∈ df.rows, (rs.rules.filter (fun r => decide (Fires row r))).length ≤ 1 := by
  rw [(C45_num_covered_counts_firings rs df hf).2 hne, Except.ok.injEq]
  have hpos : ∀ row, (decide (FiresAny row rs.rules) = true) ↔
      1 ≤ (rs.rules.filter (fun r => decide (Fires row r))).length := by
    intro row
    rw [decide_eq_true_iff, Nat.succ_le_iff, List.length_pos_iff_exists_mem]
    simp [FiresAny, List.mem_filter]
  generalize df.rows = rows
  have hle : ∀ rows : List Row, (rows.filter (fun row => decide (FiresAny row rs.rules))).length ≤
      (rows.map (fun row => (rs.rules.filter (fun r => decide (Fires row r))).length)).sum := by
    intro rows
    induction rows with
    | nil => simp
    | cons row rows ih =>
      rw [List.map_cons, List.sum_cons, List.filter_cons]
      split
      · rename_i h
        have := (hpos row).mp h
        rw [List.length_cons]; omega
      · omega
  induction rows with
  | nil => simp
  | cons row rows ih =>
    rw [List.map_cons, List.sum_cons, List.filter_cons, List.forall_mem_cons]
    have hle' := hle rows
    split
    · rename_i h
      have h1 := (hpos row).mp h
      rw [List.length_cons]
      constructor
      · intro h; exact ⟨by omega, ih.mp (by omega)⟩
      · rintro ⟨h2, h3⟩; have := ih.mpr h3; omega
    · rename_i h
      rw [hpos row] at h
      constructor
      · intro h; exact ⟨by omega, ih.mp (by omega)⟩
      · rintro ⟨h2, h3⟩; have := ih.mpr h3; omega

/-- The side conditions have instances: rules over text, and overlapping rules. -/
example : TextTells ((Demo.rs.rules ++ Demo.rs.rules).flatMap Rule.conds) ∧ HasFeatures Demo.df Demo.rs.rules ∧
    (¬ ∃ r ∈ Demo.rs.rules, r.conds = []) ∧ Demo.rs.numCovered Demo.df = .ok 3 ∧ Demo.rs.predict Demo.df = .ok [true, true, false] := by
  refine ⟨textTells_of_plain ?_, by unfold HasFeatures; decide +kernel, by decide +kernel, by decide +kernel, by decide +kernel⟩
  simp [Demo.rs, Demo.rx, Demo.rb, PlainCond, Demo.fa, Demo.fb, Demo.vx]

/-- Numbers are allowed too, as long as equal texts come with equal values. -/
example : TextTells [⟨Demo.fa, .num 1 p!"1"⟩, ⟨Demo.fa, .num 2 p!"2"⟩] := by
  intro c hc d hd he
  have : ∀ c ∈ [(⟨Demo.fa, .num 1 p!"1"⟩ : Cond), ⟨Demo.fa, .num 2 p!"2"⟩],
    ∀ d ∈ [(⟨Demo.fa, .num 1 p!"1"⟩ : Cond), ⟨Demo.fa, .num 2 p!"2"⟩], c.text = d.text → c = d := by decide +kernel
  rw [this c hc d hd he]
  exact ⟨rfl, fun _ => .rfl⟩

end Witt
