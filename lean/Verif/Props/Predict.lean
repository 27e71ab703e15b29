import Verif.Lemmas.Cover
import Verif.Edit
/-
Properties of prediction: C01-C07, C12, C45.
-/
namespace Witt
open Spec

/-! Small concrete frames used by the non-vacuity examples and the counter-examples. -/
namespace Demo

def fa : Feat := .name p!"a"
def fb : Feat := .name p!"b"
def vx : Val := .str p!"x"
def vy : Val := .str p!"y"
/-- Two rows, labels 0 and 1. -/
def df : Frame := Frame.ofTable [fa, fb] [(0, [vx, vx]), (1, [vy, vx]), (2, [vy, vy])]
/-- Two rows sharing the label 7. -/
def dup : Frame := Frame.ofTable [fa, fb] [(7, [vx, vx]), (7, [vy, vx])]
def rx : Rule := { conds := [⟨fa, vx⟩] }
def rb : Rule := { conds := [⟨fb, vx⟩] }
def rs : Ruleset := { rules := [rx, rb] }

end Demo

/-- C01. With distinct index labels and the tested columns present, `predict` succeeds, gives one answer
per row, and answers True exactly on the rows some rule fires on. -/
theorem C01_predict_is_dnf (rs : Ruleset) (df : Frame) (hu : df.UniqueIndex)
    (hf : HasFeatures df rs.rules) :
    ∃ ps, rs.predict df = .ok ps ∧ ps.length = df.rows.length ∧
      ∀ (i : Nat) (h : i < df.rows.length), ps[i]? = some true ↔ FiresAny df.rows[i] rs.rules := by
  refine ⟨_, Ruleset.predict_unique hu (.inr hf), by simp, ?_⟩
  intro i h
  rw [← rulesMet_iff]
  simp [h]

example : Demo.df.UniqueIndex ∧ HasFeatures Demo.df Demo.rs.rules ∧
    Demo.rs.predict Demo.df = .ok [true, true, false] := by
  refine ⟨by unfold Frame.UniqueIndex; decide +kernel, ?_, by decide +kernel⟩
  unfold HasFeatures; decide +kernel

/-- C02 (distinct labels). Two batches that share a row (the same cells, possibly under different labels)
give that row the same answer, whatever the other rows, their number and their order. -/
theorem C02_row_independent (rs : Ruleset) (df df' : Frame)
    (hu : df.UniqueIndex) (hu' : df'.UniqueIndex)
    (hf : HasFeatures df rs.rules) (hf' : HasFeatures df' rs.rules) (i j : Nat)
    (hi : i < df.rows.length) (hj : j < df'.rows.length) (hrow : df.rows[i].cell = df'.rows[j].cell) :
    ∃ ps ps', rs.predict df = .ok ps ∧ rs.predict df' = .ok ps' ∧ ps[i]? = ps'[j]? ∧
      ps[i]?.isSome := by
  refine ⟨_, _, Ruleset.predict_unique hu (.inr hf), Ruleset.predict_unique hu' (.inr hf'), ?_, ?_⟩
  · have : rulesMet rs.rules df.rows[i] = rulesMet rs.rules df'.rows[j] := by
      simp only [rulesMet, condsMet, Cond.met, hrow]
    simp [hi, hj, this]
  · simp [hi]

/-- C02 is false for repeated labels: the same row is answered False alone and True next to a row with
the same label. -/
theorem C02_refuted_duplicate_labels :
    ∃ (rs : Ruleset) (df df' : Frame) (ps ps' : List Bool) (row : Row),
      HasFeatures df rs.rules ∧ HasFeatures df' rs.rules ∧
      df.rows[0]? = some row ∧ df'.rows[1]? = some row ∧ ¬ FiresAny row rs.rules ∧
      rs.predict df = .ok ps ∧ ps[0]? = some false ∧
      rs.predict df' = .ok ps' ∧ ps'[1]? = some true := by
  refine ⟨{ rules := [Demo.rx] }, { Demo.dup with rows := Demo.dup.rows.drop 1 }, Demo.dup,
    [false], [true, true], Demo.dup.rows[1]'(by decide), ?_, ?_, rfl, rfl, ?_, ?_, rfl, ?_, rfl⟩
  · unfold HasFeatures; decide +kernel
  · unfold HasFeatures; decide +kernel
  · decide +kernel
  · decide +kernel
  · decide +kernel

/-- C03. One answer per row in row order, whatever the labels: reordering the rows of a batch reorders
the answers in the same way (or both calls fail alike). -/
theorem C03_predict_follows_rows (rs : Ruleset) (df df' : Frame) (hc : df'.cols = df.cols)
    (hp : df'.rows.Perm df.rows) :
    (∃ answer : Row → Bool, rs.predict df = .ok (df.rows.map answer) ∧
      rs.predict df' = .ok (df'.rows.map answer)) ∨
    (rs.predict df = .error .keyError ∧ rs.predict df' = .error .keyError) := by
  have heq : HasFeatures df' rs.rules ↔ HasFeatures df rs.rules := by simp [HasFeatures, hc]
  by_cases h : (∃ r ∈ rs.rules, r.conds = []) ∨ HasFeatures df rs.rules
  · refine .inl ⟨fun row =>
      df.rows.any (fun row' => row'.label == row.label && rulesMet rs.rules row'),
      Ruleset.predict_ok h, ?_⟩
    rw [Ruleset.predict_ok (by rwa [heq])]
    congr 1
    apply List.map_congr_left
    intro row _
    rw [Bool.eq_iff_iff, List.any_eq_true, List.any_eq_true]
    simp [hp.mem_iff]
  · exact .inr ⟨Ruleset.predict_err h, Ruleset.predict_err (by rwa [heq])⟩

example : ({ Demo.df with rows := Demo.df.rows.reverse } : Frame).rows.Perm Demo.df.rows :=
  List.reverse_perm _

/-- C04. With `give_reasons=True` and distinct labels, the predictions are those of `predict`, and the
reasons of each row are exactly the rules that fire on it, in ruleset order; they are empty exactly when
the prediction is False. -/
theorem C04_reasons_are_covering_rules (rs : Ruleset) (df : Frame) (hu : df.UniqueIndex)
    (hf : HasFeatures df rs.rules) :
    ∃ ps reasons, rs.predictReasons df = .ok (ps, reasons) ∧ rs.predict df = .ok ps ∧
      reasons.length = df.rows.length ∧
      ∀ (i : Nat) (h : i < df.rows.length),
        reasons[i]? = some (rs.rules.filter (fun r => decide (Fires df.rows[i] r))) ∧
        (reasons[i]? = some [] ↔ ps[i]? = some false) := by
  refine ⟨_, _, Ruleset.predictReasons_unique hu hf, Ruleset.predict_unique hu (.inr hf), by simp, ?_⟩
  intro i h
  constructor
  · simp only [h, List.getElem?_map, List.getElem?_eq_getElem, Option.map_some, Option.some.injEq]
    apply List.filter_congr
    intro r _
    rw [Bool.eq_iff_iff, decide_eq_true_iff]
    exact condsMet_iff
  · simp [h, rulesMet]

/-- C04 is false for repeated labels: a row predicted True gets no reason. -/
theorem C04_refuted_duplicate_labels :
    ∃ (rs : Ruleset) (df : Frame), HasFeatures df rs.rules ∧
      rs.predictReasons df = .ok ([true, true], [[], []]) := by
  refine ⟨{ rules := [Demo.rb] }, Demo.dup, by unfold HasFeatures; decide +kernel, by decide +kernel⟩

/-- C05. A ruleset containing an empty rule answers True on every row of every frame, whatever columns the
frame has or lacks; a ruleset without rules answers False on every row. -/
theorem C05_universal_and_null (rs : Ruleset) (df : Frame) :
    ((∃ r ∈ rs.rules, r.conds = []) → rs.predict df = .ok (List.replicate df.rows.length true)) ∧
    (rs.rules = [] → rs.predict df = .ok (List.replicate df.rows.length false)) := by
  constructor
  · intro h
    rw [Ruleset.predict_ok (.inl h), Except.ok.injEq, List.eq_replicate_iff]
    refine ⟨by simp, ?_⟩
    intro b hb
    simp only [List.mem_map] at hb
    obtain ⟨row, hrow, rfl⟩ := hb
    rw [List.any_eq_true]
    obtain ⟨r, hr, hr'⟩ := h
    refine ⟨row, hrow, ?_⟩
    simp only [beq_self_eq_true, Bool.true_and, rulesMet, List.any_eq_true]
    exact ⟨r, hr, by simp [hr']⟩
  · intro h
    rw [Ruleset.predict_ok (.inr (by simp [HasFeatures, h])), Except.ok.injEq, List.eq_replicate_iff]
    refine ⟨by simp, ?_⟩
    intro b hb
    simp only [List.mem_map] at hb
    obtain ⟨row, _, rfl⟩ := hb
    simp [h, rulesMet]

example : ({ rules := [Demo.rx, { conds := [] }] } : Ruleset).predict (Demo.df.dropCol Demo.fa)
    = .ok [true, true, true] := by decide +kernel

/-- The answer of `predict` at row `i` (`none` if the call fails or there is no such row). -/
def answerAt (rs : Ruleset) (df : Frame) (i : Nat) : Option Bool :=
  match rs.predict df with
  | .ok ps => ps[i]?
  | .error _ => none

theorem answerAt_mono {rs rs' : Ruleset} {df : Frame} (hf : HasFeatures df rs.rules)
    (hf' : HasFeatures df rs'.rules)
    (h : ∀ row, FiresAny row rs.rules → FiresAny row rs'.rules) (i : Nat)
    (ha : answerAt rs df i = some true) : answerAt rs' df i = some true := by
  unfold answerAt at *
  rw [Ruleset.predict_ok (.inr hf)] at ha
  rw [Ruleset.predict_ok (.inr hf')]
  simp only [List.getElem?_map, Option.map_eq_some_iff, List.any_eq_true, Bool.and_eq_true,
    rulesMet_iff] at *
  obtain ⟨row, h1, row', h2, h3, h4⟩ := ha
  exact ⟨row, h1, row', h2, h3, h row' h4⟩

/-- C06, rules. A successful `add` or `insert` never turns a True answer into False, and a successful
`remove` never turns a False answer into True (any labels; the tested columns are present). -/
theorem C06_edit_monotone (rs : Ruleset) (df : Frame) (k i : Nat) (new : Rule)
    (hf : HasFeatures df rs.rules) (hnew : ∀ c ∈ new.conds, c.feature ∈ df.cols) :
    (answerAt rs df i = some true →
      answerAt (EditOp.run rs (.add (.rule new))).1 df i = some true) ∧
    (answerAt rs df i = some true →
      answerAt (EditOp.run rs (.insertAt k (.rule new))).1 df i = some true) ∧
    (answerAt rs df i = some false →
      answerAt (EditOp.run rs (.removeAt k)).1 df i = some false) := by
  have hadd : HasFeatures df (rs.rules ++ [new]) := by
    intro r hr; rcases List.mem_append.1 hr with h | h
    · exact hf r h
    · simp at h; subst h; exact hnew
  refine ⟨?_, ?_, ?_⟩
  · intro h
    refine answerAt_mono (rs' := { rs with rules := rs.rules ++ [new] }) hf hadd ?_ i h
    rintro row ⟨r, hr, hr'⟩
    exact ⟨r, by simp [hr], hr'⟩
  · intro h
    by_cases hk : k < rs.rules.length
    · have hrun : (EditOp.run rs (.insertAt k (.rule new))).1
          = { rs with rules := rs.rules.insertIdx k new } := by
        have : ¬ (((k : Nat) : Int) < 0 ∨ ((k : Nat) : Int) ≥ rs.rules.length) := by omega
        simp only [EditOp.run, EditOp.call, rsInsert, checkIndex, bind, EStateM.bind, get, getThe,
          MonadStateOf.get, EStateM.get, this, if_false]
        rfl
      rw [hrun]
      have hmem : ∀ r, r ∈ rs.rules.insertIdx k new ↔ r = new ∨ r ∈ rs.rules := by
        intro r; rw [List.mem_insertIdx (by omega)]
      refine answerAt_mono hf ?_ ?_ i h
      · intro r hr; rcases (hmem r).1 hr with rfl | h
        · exact hnew
        · exact hf r h
      · rintro row ⟨r, hr, hr'⟩; exact ⟨r, (hmem r).2 (.inr hr), hr'⟩
    · have hrun : (EditOp.run rs (.insertAt k (.rule new))).1 = rs := by
        have : (((k : Nat) : Int) < 0 ∨ ((k : Nat) : Int) ≥ rs.rules.length) := by omega
        simp only [EditOp.run, EditOp.call, rsInsert, checkIndex, bind, EStateM.bind, get, getThe,
          MonadStateOf.get, EStateM.get, this, if_true]
        rfl
      rw [hrun]; exact h
  · intro h
    by_cases hk : k < rs.rules.length
    · have hrun : (EditOp.run rs (.removeAt k)).1 = { rs with rules := rs.rules.eraseIdx k } := by
        have : ¬ (((k : Nat) : Int) < 0 ∨ ((k : Nat) : Int) ≥ rs.rules.length) := by omega
        simp only [EditOp.run, EditOp.call, rsRemove, checkIndex, bind, EStateM.bind, get, getThe,
          MonadStateOf.get, EStateM.get, this, if_false]
        rfl
      rw [hrun]
      have hsub : ∀ r ∈ rs.rules.eraseIdx k, r ∈ rs.rules := fun r hr => List.mem_of_mem_eraseIdx hr
      have hf' : HasFeatures df (rs.rules.eraseIdx k) := fun r hr => hf r (hsub r hr)
      have hmono := answerAt_mono (rs := { rs with rules := rs.rules.eraseIdx k }) hf' hf
        (by rintro row ⟨r, hr, hr'⟩; exact ⟨r, hsub r hr, hr'⟩) i
      have hlen : ∃ b, answerAt { rs with rules := rs.rules.eraseIdx k } df i = some b := by
        unfold answerAt at h ⊢
        rw [Ruleset.predict_ok (.inr hf)] at h
        rw [Ruleset.predict_ok (.inr hf')]
        simp only [List.getElem?_map, Option.map_eq_some_iff] at h ⊢
        obtain ⟨row, h1, _⟩ := h
        exact ⟨_, row, h1, rfl⟩
      obtain ⟨b, hb⟩ := hlen
      cases b
      · exact hb
      · rw [hmono hb] at h; cases h
    · have hrun : (EditOp.run rs (.removeAt k)).1 = rs := by
        have : (((k : Nat) : Int) < 0 ∨ ((k : Nat) : Int) ≥ rs.rules.length) := by omega
        simp only [EditOp.run, EditOp.call, rsRemove, checkIndex, bind, EStateM.bind, get, getThe,
          MonadStateOf.get, EStateM.get, this, if_true]
        rfl
      rw [hrun]; exact h

example : answerAt Demo.rs Demo.df 0 = some true ∧ answerAt Demo.rs Demo.df 2 = some false ∧
    answerAt (EditOp.run Demo.rs (.removeAt 0)).1 Demo.df 0 = some true := by decide +kernel

/-- C06, conditions. Adding conditions to a rule (anywhere) never enlarges the set of rows it covers: if
every condition of `r` is a condition of `r'`, then the rows covered by `r'` are covered by `r`. -/
theorem C06_conditions_refine (r r' : Rule) (df : Frame) (hsub : ∀ c ∈ r.conds, c ∈ r'.conds)
    (d' : Frame) (h' : r'.covers df = .ok d') :
    ∃ d, r.covers df = .ok d ∧ (∀ row ∈ d'.rows, row ∈ d.rows) ∧ d'.rows.length ≤ d.rows.length := by
  unfold Rule.covers at *
  rcases condsCover_cases r'.conds df with ⟨h1, h2⟩ | ⟨h1, _⟩
  · rw [h1] at h'; cases h'
    have himp : ∀ row, condsMet r'.conds row = true → condsMet r.conds row = true := by
      intro row; rw [condsMet_iff, condsMet_iff]; intro h c hc; exact h c (hsub c hc)
    refine ⟨_, condsCover_ok (fun c hc => h2 c (hsub c hc)), ?_, ?_⟩
    · intro row hrow
      simp only [Frame.keep_rows, List.mem_filter] at *
      exact ⟨hrow.1, himp row hrow.2⟩
    · simp only [Frame.keep_rows, ← List.countP_eq_length_filter]
      exact List.countP_mono_left (fun row _ => himp row)
  · rw [h1] at h'; cases h'

/-- Two rules have the same conditions, up to order and repetition. -/
def SameConds (r r' : Rule) : Prop := ∀ c, c ∈ r.conds ↔ c ∈ r'.conds

/-- Every rule of one list has, in the other, a rule with the same conditions, and conversely. -/
def SameRules (a b : List Rule) : Prop :=
  (∀ r ∈ a, ∃ r' ∈ b, SameConds r r') ∧ (∀ r ∈ b, ∃ r' ∈ a, SameConds r r')

/-- C07. Order and repetition of rules, and of conditions inside rules, do not affect `predict` (answers and
failures alike), on any frame. -/
theorem C07_order_and_repetition (a b : Ruleset) (h : SameRules a.rules b.rules) (df : Frame) :
    a.predict df = b.predict df := by
  have hempty : ∀ (x y : List Rule), (∀ r ∈ x, ∃ r' ∈ y, SameConds r r') →
      (∃ r ∈ x, r.conds = []) → ∃ r ∈ y, r.conds = [] := by
    rintro x y hxy ⟨r, hr, hr0⟩
    obtain ⟨r', hr', hs⟩ := hxy r hr
    refine ⟨r', hr', ?_⟩
    rw [List.eq_nil_iff_forall_not_mem]
    intro c hc
    have := (hs c).2 hc
    rw [hr0] at this; cases this
  have hfeat : ∀ (x y : List Rule), (∀ r ∈ y, ∃ r' ∈ x, SameConds r r') →
      HasFeatures df x → HasFeatures df y := by
    intro x y hyx hx r hr c hc
    obtain ⟨r', hr', hs⟩ := hyx r hr
    exact hx r' hr' c ((hs c).1 hc)
  have hfire : ∀ (x y : List Rule), (∀ r ∈ x, ∃ r' ∈ y, SameConds r r') → ∀ row,
      FiresAny row x → FiresAny row y := by
    rintro x y hxy row ⟨r, hr, hf⟩
    obtain ⟨r', hr', hs⟩ := hxy r hr
    exact ⟨r', hr', fun c hc => hf c ((hs c).2 hc)⟩
  have hmet : rulesMet a.rules = rulesMet b.rules := by
    funext row
    rw [Bool.eq_iff_iff, rulesMet_iff, rulesMet_iff]
    exact ⟨hfire _ _ h.1 row, hfire _ _ h.2 row⟩
  have hcond : ((∃ r ∈ a.rules, r.conds = []) ∨ HasFeatures df a.rules) ↔
      ((∃ r ∈ b.rules, r.conds = []) ∨ HasFeatures df b.rules) :=
    ⟨fun h' => h'.imp (hempty _ _ h.1) (hfeat _ _ h.2), fun h' => h'.imp (hempty _ _ h.2) (hfeat _ _ h.1)⟩
  by_cases hc : (∃ r ∈ a.rules, r.conds = []) ∨ HasFeatures df a.rules
  · rw [Ruleset.predict_ok hc, Ruleset.predict_ok (hcond.1 hc), hmet]
  · rw [Ruleset.predict_err hc, Ruleset.predict_err (fun h' => hc (hcond.2 h'))]

example : SameRules [Demo.rx, Demo.rb]
    [Demo.rb, { conds := Demo.rx.conds ++ Demo.rx.conds }, Demo.rb] := by
  simp [SameRules, SameConds, Demo.rx, Demo.rb]

/-- C12. Columns no rule tests do not matter: two frames with the same labels, that agree on every tested
column (present in both or absent from both), get the same predictions and the same failures. -/
theorem C12_unused_columns (rs : Ruleset) (df df' : Frame) (hlen : df.rows.length = df'.rows.length)
    (hcols : ∀ r ∈ rs.rules, ∀ c ∈ r.conds, (c.feature ∈ df.cols ↔ c.feature ∈ df'.cols))
    (hagree : ∀ (i : Nat) (h : i < df.rows.length) (h' : i < df'.rows.length),
      df.rows[i].label = df'.rows[i].label ∧
      ∀ r ∈ rs.rules, ∀ c ∈ r.conds, df.rows[i].cell c.feature = df'.rows[i].cell c.feature) :
    rs.predict df = rs.predict df' := by
  have hf : HasFeatures df rs.rules ↔ HasFeatures df' rs.rules := by
    constructor
    · intro h r hr c hc; exact (hcols r hr c hc).1 (h r hr c hc)
    · intro h r hr c hc; exact (hcols r hr c hc).2 (h r hr c hc)
  have hmet : ∀ (i : Nat) (h : i < df.rows.length) (h' : i < df'.rows.length),
      rulesMet rs.rules df.rows[i] = rulesMet rs.rules df'.rows[i] := by
    intro i h h'
    rw [Bool.eq_iff_iff, rulesMet_iff, rulesMet_iff]
    unfold FiresAny Fires FiresC Meets
    have := (hagree i h h').2
    constructor
    · rintro ⟨r, hr, hall⟩; exact ⟨r, hr, fun c hc => by rw [← this r hr c hc]; exact hall c hc⟩
    · rintro ⟨r, hr, hall⟩; exact ⟨r, hr, fun c hc => by rw [this r hr c hc]; exact hall c hc⟩
  by_cases hc : (∃ r ∈ rs.rules, r.conds = []) ∨ HasFeatures df rs.rules
  · rw [Ruleset.predict_ok hc, Ruleset.predict_ok (by rwa [← hf])]
    congr 1
    apply List.ext_getElem (by simp [hlen])
    intro i h1 h2
    simp only [List.length_map] at h1 h2
    simp only [List.getElem_map]
    rw [Bool.eq_iff_iff, List.any_eq_true, List.any_eq_true]
    rw [(hagree i h1 h2).1]
    constructor
    · rintro ⟨row, hrow, hr⟩
      obtain ⟨j, hj, rfl⟩ := List.getElem_of_mem hrow
      refine ⟨df'.rows[j]'(by omega), List.getElem_mem _, ?_⟩
      rw [← hmet j hj (by omega), ← (hagree j hj (by omega)).1]; exact hr
    · rintro ⟨row, hrow, hr⟩
      obtain ⟨j, hj, rfl⟩ := List.getElem_of_mem hrow
      refine ⟨df.rows[j]'(by omega), List.getElem_mem _, ?_⟩
      rw [hmet j (by omega) hj, (hagree j (by omega) hj).1]; exact hr
  · rw [Ruleset.predict_err hc, Ruleset.predict_err (by rwa [← hf])]

/-- Non-vacuity of C12: the same rows with an extra class column. -/
example : Demo.rs.predict Demo.df = Demo.rs.predict
    (Frame.ofTable [Demo.fb, Demo.fa, .name p!"Class"]
      [(0, [Demo.vx, Demo.vx, Demo.vy]), (1, [Demo.vx, Demo.vy, Demo.vx]), (2, [Demo.vy, Demo.vy, Demo.vx])]) := by
  decide +kernel

/-- C45 (no overlap). If no row is covered by two rules of the list, `num_covered` is the number of rows
some rule fires on. (Exact count: Props/Exact.) -/
theorem C45_num_covered_disjoint (rs : Ruleset) (df : Frame) (hf : HasFeatures df rs.rules)
    (hdisj : ∀ row ∈ df.rows, (rs.rules.filter (fun r => decide (Fires row r))).length ≤ 1) :
    rs.numCovered df = .ok (df.rows.filter (fun row => decide (FiresAny row rs.rules))).length := by
  have hspec : (fun row => decide (FiresAny row rs.rules)) = rulesMet rs.rules := by
    funext row; rw [Bool.eq_iff_iff, decide_eq_true_iff, rulesMet_iff]
  rw [hspec]
  unfold Ruleset.numCovered Ruleset.covers
  by_cases hu : rs.isUniversal = true
  · simp only [hu, if_true]
    obtain ⟨r, hr, hr'⟩ := Ruleset.isUniversal_iff.1 hu
    have : ∀ row, rulesMet rs.rules row = true := fun row => List.any_eq_true.2 ⟨r, hr, by simp [hr']⟩
    simp only [ok_bind, pure_eq_ok]
    congr 2
    rw [List.filter_eq_self.2 (fun a _ => this a)]
  · by_cases hn : rs.isNull = true
    · have hn' := Ruleset.isNull_iff.1 hn
      have h0 : rulesMet [] = fun _ => false := rfl
      have h1 : (df.rows.filter fun _ => false) = [] := List.filter_eq_nil_iff.2 (by simp)
      simp [hu, hn, hn', h0, h1]
    · have hm : rs.rules.mapM (fun r => r.covers df)
          = .ok (rs.rules.map (fun r => df.keep (condsMet r.conds))) :=
        mapM_ok (fun r hr => condsCover_ok (hf r hr))
      simp only [hu, hn, Bool.false_eq_true, if_false, hm, ok_bind, pure_eq_ok]
      congr 1
      simp only [List.length_flatten, List.map_map]
      -- exchange the two sums
      have key : ∀ (rules : List Rule) (rows : List Row),
          (∀ row ∈ rows, (rules.filter (fun r => condsMet r.conds row)).length ≤ 1) →
          (rules.map (fun r => (rows.filter (condsMet r.conds)).length)).sum
            = (rows.filter (rulesMet rules)).length := by
        intro rules rows
        induction rows with
        | nil =>
          intro _
          simp only [List.filter_nil, List.length_nil]
          induction rules with
          | nil => rfl
          | cons a l ih => simpa using ih
        | cons row rows ih =>
          intro h
          have hsum : ∀ (l : List Rule),
              (l.map (fun r => ((row :: rows).filter (condsMet r.conds)).length)).sum
              = (l.filter (fun r => condsMet r.conds row)).length
                + (l.map (fun r => (rows.filter (condsMet r.conds)).length)).sum := by
            intro l
            induction l with
            | nil => rfl
            | cons r l ihl =>
              simp only [List.map_cons, List.sum_cons, ihl]
              cases hr : condsMet r.conds row <;> simp [hr] <;> omega
          rw [hsum, ih (fun x hx => h x (by simp [hx]))]
          have h1 := h row (by simp)
          cases hr : rulesMet rules row
          · have : rules.filter (fun r => condsMet r.conds row) = [] := by
              rw [List.filter_eq_nil_iff]; intro r hr' hc
              have : rulesMet rules row = true := List.any_eq_true.2 ⟨r, hr', hc⟩
              rw [hr] at this; cases this
            simp [hr, this]
          · have : 0 < (rules.filter (fun r => condsMet r.conds row)).length := by
              rw [List.length_pos_iff_exists_mem]
              obtain ⟨r, hr', hc⟩ := List.any_eq_true.1 hr
              exact ⟨r, List.mem_filter.2 ⟨hr', hc⟩⟩
            simp [hr]; omega
      have hd : ∀ row ∈ df.rows, (rs.rules.filter (fun r => condsMet r.conds row)).length ≤ 1 := by
        intro row hrow
        have := hdisj row hrow
        have he : (fun r : Rule => decide (Fires row r)) = (fun r => condsMet r.conds row) := by
          funext r; rw [Bool.eq_iff_iff, decide_eq_true_iff]; exact condsMet_iff.symm
        rwa [he] at this
      exact key rs.rules df.rows hd

/-- C45 is false in general: two rules covering the same single row give `num_covered = 2`. -/
theorem C45_refuted_overlap :
    ∃ (rs : Ruleset) (df : Frame), df.UniqueIndex ∧ HasFeatures df rs.rules ∧
      df.rows.length = 1 ∧ rs.numCovered df = .ok 2 := by
  refine ⟨Demo.rs, Frame.ofTable [Demo.fa, Demo.fb] [(0, [Demo.vx, Demo.vx])], ?_, ?_, rfl, ?_⟩
  · unfold Frame.UniqueIndex; decide +kernel
  · unfold HasFeatures; decide +kernel
  · decide +kernel

example : ∀ row ∈ Demo.df.rows,
    (([Demo.rx, { conds := [⟨Demo.fa, Demo.vy⟩] }] : List Rule).filter
      (fun r => decide (Fires row r))).length ≤ 1 := by decide +kernel

end Witt
