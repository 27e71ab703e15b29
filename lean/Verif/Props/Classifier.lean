import Verif.Lemmas.Classifier
import Verif.Props.Bins
import Verif.Props.Queries
/-
Properties of the classifier objects, queries: C63 (queries are read-only and repeatable), C11 (missing
features are reported), C41 (predict_proba works whenever predict works).
-/
namespace Witt
open Spec

/-- The query methods of a classifier. -/
inductive Call
  | predict (X : TFrame) (names : Option (List Feat))
  | predictReasons (X : TFrame) (names : Option (List Feat))
  | predictProba (X : TFrame) (names : Option (List Feat))
  | predictProbaReasons (X : TFrame) (names : Option (List Feat))
  | score (X : TFrame) (y : List Val) (scoreFn : List Bool → List Bool → Except PyErr (Option Rat))
  | ruleStats (X : TFrame) (y : Option (List Val)) (names : Option (List Feat))

/-- Their answers. -/
inductive Answer
  | predictions (ps : List Bool)
  | reasons (ps : List Bool) (rs : List (List Rule))
  | probas (ps : List (Rat × Rat))
  | probaReasons (ps : List (Rat × Rat)) (rs : List (List Rule))
  | score (s : Option Rat)
  | stats (t : List RuleStat)

/-- abstract_ruleset_classifier.py 92-210, 267-355: perform a query. -/
def Call.run (F : PyFloat) : Call → OnClf Answer
  | .predict X names => do return .predictions (← Clf.predict F X names)
  | .predictReasons X names => do let (ps, rs) ← Clf.predictReasons F X names; return .reasons ps rs
  | .predictProba X names => do return .probas (← Clf.predictProba F X names)
  | .predictProbaReasons X names => do let (ps, rs) ← Clf.predictProbaReasons F X names; return .probaReasons ps rs
  | .score X y scoreFn => do return .score (← Clf.score F X y scoreFn)
  | .ruleStats X y names => do return .stats (← Clf.ruleStats F X y names)

namespace Spec
/-- The value returned by a method call, or the exception it raises. -/
def returned {α : Type} : EStateM.Result PyErr Clf α → Except PyErr α
  | .ok a _ => .ok a
  | .error e _ => .error e
/-- The object after a method call. -/
def after {α : Type} : EStateM.Result PyErr Clf α → Clf
  | .ok _ c => c
  | .error _ c => c
/-- The object after a series of queries. -/
def afterAll (F : PyFloat) : List Call → Clf → Clf
  | [], c => c
  | q :: qs, c => afterAll F qs (after (q.run F c))
/-- The query asks for probabilities. -/
def Probabilities : Call → Prop
  | .predictProba _ _ => True
  | .predictProbaReasons _ _ => True
  | _ => False
/-- All that queries may do to a classifier `c` on the way to `c'`: create an empty bin transformer if there is none, and
name the classes ("not p", "p") in `classes_`. -/
structure OnlyQueried (c c' : Clf) : Prop where
  rest : c' = { c with binner := c'.binner, classes := c'.classes }
  bins : c'.binner = c.binner ∨ (c.binner = none ∧ c'.binner = some {})
  classes : c'.classes = c.classes ∨ ∃ pc, c.posClass = some pc ∧ c'.classes = some (.named pc)
end Spec

theorem returned_outcome {α : Type} (x : Except PyErr α) (c : Clf) : returned (outcome x c) = x := by
  cases x <;> rfl

theorem after_outcome {α : Type} (x : Except PyErr α) (c : Clf) : after (outcome x c) = c := by
  cases x <;> rfl

/-- Wrapping an answer. -/
theorem wrap_run {α β : Type} (m : OnClf α) (f : α → β) (c : Clf) :
    returned ((m >>= fun a => (pure (f a) : OnClf β)) c) = (returned (m c)).map f ∧
      after ((m >>= fun a => (pure (f a) : OnClf β)) c) = after (m c) := by
  rw [bind_run]
  cases m c <;> exact ⟨rfl, rfl⟩

/-- The object with a bin transformer, an empty one if it had none. -/
def Clf.filled (c : Clf) : Clf := { c with binner := some (c.binner.getD {}) }

theorem Clf.filled_some {c : Clf} {b : Binner} (h : c.binner = some b) : c.filled = c := by
  cases c; simp only at h; subst h; rfl

theorem Clf.filled_none {c : Clf} (h : c.binner = none) : c.filled = c.withEmptyBinner := by
  cases c; simp only at h; subst h; rfl

theorem query_facts {α : Type} (F : PyFloat) (act : Ruleset → Frame → Except PyErr α) (X : TFrame)
    (names : Option (List Feat)) (c : Clf) :
    (after (query F act X names c) = c ∨
      (c.binner = none ∧ after (query F act X names c) = c.withEmptyBinner)) ∧
    ∀ a, returned (query F act X names c) = .ok a →
      returned (query F act X names c.filled) = .ok a := by
  cases hr : c.ruleset with
  | none =>
    rw [query_unfit hr]
    exact ⟨Or.inl rfl, fun a h => by cases h⟩
  | some rs =>
    cases hb : c.binner with
    | some b =>
      rw [Clf.filled_some hb, query_some hr hb]
      exact ⟨Or.inl (after_outcome _ _), fun a h => h⟩
    | none =>
      rw [query_none hr hb]
      rw [Clf.filled_none hb, query_some (c := c.withEmptyBinner) (rs := rs) hr rfl, returned_outcome]
      cases constructFromRuleset F rs with
      | error e => exact ⟨Or.inr ⟨rfl, rfl⟩, fun a h => by cases h⟩
      | ok u =>
        simp only [returned_outcome, after_outcome]
        exact ⟨Or.inr (by simp), fun a h => h⟩

theorem Spec.OnlyQueried.refl (c : Clf) : OnlyQueried c c := ⟨rfl, Or.inl rfl, Or.inl rfl⟩

theorem Spec.OnlyQueried.trans {a b c : Clf} (h1 : OnlyQueried a b) (h2 : OnlyQueried b c) : OnlyQueried a c := by
  obtain ⟨r1, b1, k1⟩ := h1
  obtain ⟨r2, b2, k2⟩ := h2
  have hp : b.posClass = a.posClass := by rw [r1]
  refine ⟨by rw [r2, r1], ?_, ?_⟩
  · rcases b2 with h | ⟨h, h'⟩
    · rw [h]; exact b1
    · rcases b1 with g | ⟨g, g'⟩
      · exact Or.inr ⟨g ▸ h, h'⟩
      · rw [h] at g'; cases g'
  · rcases k2 with h | h
    · rw [h]; exact k1
    · exact Or.inr (hp ▸ h)

/-- What there is to know about one query. -/
structure CallFacts {α : Type} (m : OnClf α) (asks : Prop) (c : Clf) : Prop where
  effect : OnlyQueried c (after (m c))
  classes : ¬ asks → (after (m c)).classes = c.classes
  filled : ∀ a, returned (m c) = .ok a → returned (m c.filled) = .ok a
  blind : ∀ k, returned (m { c with classes := k }) = returned (m c)

theorem query_callFacts {α : Type} (F : PyFloat) (act : Ruleset → Frame → Except PyErr α) (X : TFrame)
    (names : Option (List Feat)) (asks : Prop) (c : Clf) : CallFacts (query F act X names) asks c := by
  obtain ⟨h1, h2⟩ := query_facts F act X names c
  refine ⟨?_, ?_, h2, fun k => ?_⟩
  · rcases h1 with h | ⟨hn, h⟩
    · rw [h]; exact .refl c
    · rw [h]; exact ⟨rfl, Or.inr ⟨hn, rfl⟩, Or.inl rfl⟩
  · rcases h1 with h | ⟨hn, h⟩ <;> intro _ <;> rw [h]
    rfl
  · obtain ⟨c2, hc2⟩ : ∃ c2 : Clf, c2 = { c with classes := k } := ⟨_, rfl⟩
    have e1 : c2.ruleset = c.ruleset := by rw [hc2]
    have e2 : c2.binner = c.binner := by rw [hc2]
    have e3 : answer F act X names c2 = answer F act X names c := by rw [hc2]; rfl
    have e4 : answer F act X names c2.withEmptyBinner = answer F act X names c.withEmptyBinner := by rw [hc2]; rfl
    rw [← hc2]
    cases hr : c.ruleset with
    | none => rw [query_unfit hr, query_unfit (e1.trans hr)]; rfl
    | some rs =>
      cases hb : c.binner with
      | some b =>
        rw [query_some hr hb, query_some (e1.trans hr) (e2.trans hb), returned_outcome, returned_outcome, e3]
      | none =>
        rw [query_none hr hb, query_none (e1.trans hr) (e2.trans hb), e4]
        cases constructFromRuleset F rs with
        | error e => rfl
        | ok u => simp only [returned_outcome]

theorem proba_callFacts {α : Type} (F : PyFloat) (act : Ruleset → Frame → Except PyErr α) (X : TFrame)
    (names : Option (List Feat)) (c : Clf) : CallFacts (probaQuery F act X names) True c := by
  have hprep : ∀ k, prepOf F X names { c with classes := k } = prepOf F X names c := fun k => rfl
  refine ⟨?_, fun h => absurd trivial h, ?_, ?_⟩
  · rw [probaQuery_run]
    cases c.ruleset with
    | none => exact .refl c
    | some rs =>
      cases c.binner with
      | none => exact .refl c
      | some b =>
        cases h : prepOf F X names c with
        | error e => exact .refl c
        | ok df =>
          obtain ⟨pc, hpc⟩ := prepOf_posClass h
          simp only [after_outcome]
          exact ⟨rfl, Or.inl rfl, Or.inr ⟨pc, hpc, by simp [Clf.asked, hpc]⟩⟩
  · cases hb : c.binner with
    | none =>
      intro a h
      rw [probaQuery_run, hb] at h
      cases hr : c.ruleset <;> rw [hr] at h <;> simp [returned] at h
    | some b => rw [Clf.filled_some hb]; exact fun a h => h
  · intro k
    rw [probaQuery_run, probaQuery_run, hprep k]
    simp only
    cases c.ruleset with
    | none => rfl
    | some rs =>
      cases c.binner with
      | none => rfl
      | some b =>
        cases prepOf F X names c <;> simp only [returned_outcome]
        rfl

theorem CallFacts.wrap {α β : Type} {m : OnClf α} {asks : Prop} {c : Clf} (f : α → β) (h : CallFacts m asks c) :
    CallFacts (m >>= fun a => (pure (f a) : OnClf β)) asks c := by
  obtain ⟨h1, h2, h3, h4⟩ := h
  refine ⟨?_, ?_, ?_, fun k => ?_⟩
  · rw [(wrap_run m f c).2]; exact h1
  · rw [(wrap_run m f c).2]; exact h2
  · intro a ha
    rw [(wrap_run m f c).1] at ha
    rw [(wrap_run m f _).1]
    cases hm : returned (m c) with
    | error e => rw [hm] at ha; cases ha
    | ok b => rw [hm] at ha; rw [h3 b hm]; exact ha
  · rw [(wrap_run m f _).1, (wrap_run m f _).1, h4 k]

theorem call_facts (F : PyFloat) (q : Call) (c : Clf) : CallFacts (q.run F) (Probabilities q) c := by
  cases q with
  | predict X names => exact CallFacts.wrap Answer.predictions (query_callFacts F _ X names _ c)
  | predictReasons X names =>
    exact CallFacts.wrap (fun p : List Bool × List (List Rule) => Answer.reasons p.1 p.2) (query_callFacts F _ X names _ c)
  | predictProba X names => exact CallFacts.wrap Answer.probas (proba_callFacts F _ X names c)
  | predictProbaReasons X names =>
    exact CallFacts.wrap (fun p : List (Rat × Rat) × List (List Rule) => Answer.probaReasons p.1 p.2)
      (proba_callFacts F _ X names c)
  | score X y scoreFn =>
    refine CallFacts.wrap Answer.score ?_
    obtain ⟨h1, h2, h3, h4⟩ := query_callFacts F (fun rs df => do
      let preds ← rs.predict df
      let pc ← attr c.posClass
      scoreFn (y.map (fun yi => yi.pyEq pc)) preds) X none (Probabilities (.score X y scoreFn)) c
    refine ⟨?_, ?_, ?_, fun k => ?_⟩
    · rw [score_eq_query]; exact h1
    · rw [score_eq_query]; exact h2
    · rw [score_eq_query, score_eq_query]; exact h3
    · rw [score_eq_query, score_eq_query]; exact h4 k
  | ruleStats X y names =>
    refine CallFacts.wrap Answer.stats ?_
    obtain ⟨h1, h2, h3, h4⟩ := query_callFacts F (fun rs df => do ruleTable (← attr c.posClass) y rs df) X names
      (Probabilities (.ruleStats X y names)) c
    refine ⟨?_, ?_, ?_, fun k => ?_⟩
    · rw [ruleStats_eq_query]; exact h1
    · rw [ruleStats_eq_query]; exact h2
    · rw [ruleStats_eq_query, ruleStats_eq_query]; exact h3
    · rw [ruleStats_eq_query, ruleStats_eq_query]; exact h4 k

/-- C63. Any series of queries (predict, predict_proba, each with or without reasons, score, rule_stats), on any
data, answered or raising, leaves rules, bins, classes and hyperparameters of a fitted classifier as they were. All it can do
is to create an empty bin transformer where there is none, and to set `classes_` to the names of the two classes. -/
theorem C63_queries_are_read_only (F : PyFloat) (qs : List Call) (c : Clf) :
    OnlyQueried c (afterAll F qs c) ∧ (c.binner ≠ none → (afterAll F qs c).binner = c.binner) ∧
      ((∀ q ∈ qs, ¬ Probabilities q) → (afterAll F qs c).classes = c.classes) := by
  have key : OnlyQueried c (afterAll F qs c) ∧
      ((∀ q ∈ qs, ¬ Probabilities q) → (afterAll F qs c).classes = c.classes) := by
    induction qs generalizing c with
    | nil => exact ⟨.refl c, fun _ => rfl⟩
    | cons q qs ih =>
      rw [afterAll]
      obtain ⟨h1, h2⟩ := ih (after (q.run F c))
      have h := call_facts F q c
      exact ⟨h.effect.trans h1, fun hq => (h2 (fun q' hq' => hq q' (List.mem_cons_of_mem _ hq'))).trans
        (h.classes (hq q (List.mem_cons_self ..)))⟩
  refine ⟨key.1, fun hb => ?_, key.2⟩
  rcases key.1.bins with h | ⟨h, _⟩
  · exact h
  · exact absurd h hb

/-- C63. An answer is repeatable: a query that is answered is answered the same after any series of other
queries, and on a fitted classifier a query that raises raises the same. -/
theorem C63_answers_are_repeatable (F : PyFloat) (qs : List Call) (q : Call) (c : Clf) :
    (∀ a, returned (q.run F c) = .ok a → returned (q.run F (afterAll F qs c)) = .ok a) ∧
      (c.binner ≠ none → returned (q.run F (afterAll F qs c)) = returned (q.run F c)) := by
  obtain ⟨⟨h1, h2, _⟩, h3, _⟩ := C63_queries_are_read_only F qs c
  have hq := call_facts F q c
  refine ⟨fun a ha => ?_, fun hb => ?_⟩
  · rw [h1]
    rcases h2 with h | ⟨hn, h⟩
    · rw [h]; exact (hq.blind _).trans ha
    · rw [h]
      have h' := hq.filled a ha
      rw [Clf.filled_none hn] at h'
      exact ((call_facts F q c.withEmptyBinner).blind _).trans h'
  · rw [h1, h3 hb]; exact hq.blind _

/-- C63. On a fitted classifier `predict_proba` changes `classes_`, from `[0, 1]` to the names of the classes. -/
theorem C63_refuted_classes (F : PyFloat) (c : Clf) (pc : Val) (hpc : c.posClass = some pc)
    (X : TFrame) (names : Option (List Feat)) (ps : List (Rat × Rat))
    (h : returned (Clf.predictProba F X names c) = .ok ps) :
    (after (Clf.predictProba F X names c)).classes = some (.named pc) := by
  unfold Clf.predictProba at h ⊢
  rw [probaQuery_run] at h ⊢
  cases hr : c.ruleset with
  | none => rw [hr] at h; cases h
  | some rs =>
    cases hb : c.binner with
    | none => rw [hr, hb] at h; cases h
    | some b =>
      rw [hr, hb] at h
      cases hp : prepOf F X names c with
      | error e => rw [hp] at h; cases h
      | ok df => simp [after_outcome, Clf.asked, hpc]

namespace Demo
/-- A model from `init_ruleset("[[a=1-2-3]]", ...)`: no bin transformer yet. -/
def dashes : Clf :=
  after (Clf.initRuleset (.text p!"[[a=1-2-3]]") (.name p!"c") (.str p!"p") {})
/-- Text columns a and b. -/
def tdf : TFrame := { df with kind := fun _ => .text }
/-- Does a result carry an answer? -/
def answers {α : Type} : EStateM.Result PyErr Clf α → Except PyErr Unit
  | .ok _ _ => .ok ()
  | .error e _ => .error e
end Demo

/-- C63: a query that raises may succeed when it is simply repeated. On a model given by init_ruleset with the
value `1-2-3`, the first predict raises UnboundLocalError, the second one answers. -/
theorem C63_refuted_first_query_raises :
    (match Clf.predict Demo.F Demo.tdf none Demo.dashes with
      | .error e c => some (e, (Demo.answers (Clf.predict Demo.F Demo.tdf none c)).toOption.isSome)
      | .ok _ _ => none) = some (.unboundLocal, true) := by decide +kernel

/-! ### C11 -/

namespace Spec
/-- A classifier that has been fitted or initialised, with rules `rs`, class column `cf`, bins `b` and the
stored list of features to look for. -/
structure Ready (c : Clf) (rs : Ruleset) (cf : Feat) (b : Binner) (sel : List Feat) : Prop where
  rules : c.ruleset = some rs
  classFeat : c.classFeat = some cf
  posClass : ∃ pc, c.posClass = some pc
  bins : c.binner = some b
  selected : c.selected = some sel
  trainFeats : ∃ tf, c.trainFeats = some tf
/-- The column is tested by some rule. -/
def Tested (rs : Ruleset) (f : Feat) : Prop := ∃ r ∈ rs.rules, ∃ c ∈ r.conds, c.feature = f
/-- A bin transformer as `fit` makes them (or an unfitted one): the labels of each column can be read as ranges. -/
def Usable (F : PyFloat) (b : Binner) : Prop :=
  (b.bins.map Prod.fst).Nodup ∧
    (b.bins = [] ∨ (b.thresholds = some [] ∧ ∀ f labels, (f, labels) ∈ b.bins → ∃ ivs, Ranges F labels ivs))
end Spec

theorem mem_selected (rs : Ruleset) (f : Feat) : f ∈ rs.selectedFeatures ↔ Tested rs f :=
  (C56_selected_features rs).2.1 f

theorem tested_iff {rs : Ruleset} {df : Frame} :
    HasFeatures df rs.rules ↔ ∀ f, Tested rs f → f ∈ df.cols :=
  ⟨fun h _ ⟨r, hr, c, hc, hf⟩ => hf ▸ h r hr c hc, fun h r hr c hc => h _ ⟨r, hr, c, hc, rfl⟩⟩

theorem usable_empty (F : PyFloat) : Usable F {} := ⟨by simp, Or.inl rfl⟩

theorem usable_fit {F : PyFloat} (hF : F.Lawful) {P : PandasCut} (hP : P.Lawful F) {n : Option Nat} {df : TFrame}
    {ignore : List Feat} (hc : df.cols.Nodup) : Usable F (Binner.fit F P n df ignore) :=
  ⟨fit_keys_nodup hc, Or.inr ⟨rfl, fun _ _ h => ⟨_, fit_ranges hF hP h⟩⟩⟩

theorem applyBins_total {F : PyFloat} {b : Binner} (hb : Usable F b) {X : TFrame} (hX : ¬ BadText b X) :
    ∃ X', applyBins F b X = .ok X' := by
  unfold applyBins
  split
  · exact ⟨_, rfl⟩
  · rename_i hne
    rcases hb.2 with h | ⟨h1, h2⟩
    · exact absurd h hne
    · unfold Binner.transform
      rw [findTransformed_eq, if_neg hX, ok_bind]
      apply transformLoop_total
      intro f labels hf
      obtain ⟨ivs, hr⟩ := h2 f labels hf
      refine ⟨cutCell (ivs.zip labels), ?_⟩
      simp only [featTransform, h1, List.lookup_nil, hr.1, ok_bind, pure_eq_ok]

theorem applyBins_bad {F : PyFloat} {b : Binner} {X : TFrame} (hX : BadText b X) :
    applyBins F b X = .error .valueError := by
  unfold applyBins
  rw [if_neg]
  · unfold Binner.transform
    rw [findTransformed_eq, if_pos hX, error_bind]
  · intro h
    obtain ⟨f, labels, hm, _⟩ := hX
    rw [h] at hm; simp at hm

/-- What the bins do to a frame. -/
theorem applyBins_ok {F : PyFloat} {b : Binner} (hb : (b.bins.map Prod.fst).Nodup) {X X' : TFrame}
    (h : applyBins F b X = .ok X') :
    ∃ G K, X' = X.mapAll G K ∧
      (∀ f, (f ∉ b.bins.map Prod.fst ∨ f ∉ X.cols ∨ X.kind f = .text) → (∀ v, G f v = v) ∧ K f = X.kind f) ∧
      ∀ f labels, (f, labels) ∈ b.bins → f ∈ X.cols → X.kind f ≠ .text →
        featTransform F b f labels = .ok (G f) ∧ K f = .text := by
  unfold applyBins at h
  split at h
  · rename_i he
    simp only [Except.ok.injEq] at h
    subst h
    exact ⟨fun _ v => v, X.kind, (TFrame.mapAll_id X).symm, fun f _ => ⟨fun _ => rfl, rfl⟩, by simp [he]⟩
  · exact (transform_ok hb h).2

theorem answer_ready {α : Type} {c : Clf} {rs : Ruleset} {cf : Feat} {b : Binner} {sel : List Feat}
    (hr : Ready c rs cf b sel) (F : PyFloat) (act : Ruleset → Frame → Except PyErr α) (X : TFrame)
    (names : Option (List Feat)) :
    answer F act X names c = (do
      let df ← preprocessPrediction F X cf b names sel
      act rs df.toFrame) := by
  obtain ⟨h1, h2, ⟨pc, h3⟩, h4, h5, ⟨tf, h6⟩⟩ := hr
  unfold answer
  simp only [h1, h2, h3, h4, h5, h6, attr, ok_bind]

theorem query_ready {α : Type} {c : Clf} {rs : Ruleset} {cf : Feat} {b : Binner} {sel : List Feat}
    (hr : Ready c rs cf b sel) (F : PyFloat) (act : Ruleset → Frame → Except PyErr α) (X : TFrame)
    (names : Option (List Feat)) :
    query F act X names c = outcome (do
      let df ← preprocessPrediction F X cf b names sel
      act rs df.toFrame) c := by
  rw [query_some hr.rules hr.bins, answer_ready hr]

theorem dropCol_cols {X : TFrame} {cf f : Feat} : f ∈ (X.dropCol cf).cols ↔ f ∈ X.cols ∧ f ≠ cf := by
  simp [TFrame.dropCol, Frame.dropCol, List.mem_filter]

theorem TFrame.dropCol_of_not_mem {X : TFrame} {cf : Feat} (h : cf ∉ X.cols) : X.dropCol cf = X := by
  obtain ⟨⟨cols, rows⟩, kind⟩ := X
  simp only [TFrame.dropCol, Frame.dropCol, TFrame.mk.injEq, Frame.mk.injEq, and_true]
  rw [List.filter_eq_self]
  intro f hf
  simp only [decide_eq_true_eq]
  rintro rfl
  exact h hf

theorem toPrediction_none (X : TFrame) (cf : Feat) : toPrediction X cf none = .ok (X.dropCol cf) := by
  unfold toPrediction
  by_cases h : X.cols.contains cf = true
  · simp only [h, if_true]
  · simp only [h]
    rw [TFrame.dropCol_of_not_mem]
    · rfl
    · simpa using h

theorem preprocessPrediction_none {F : PyFloat} {X : TFrame} {cf : Feat} {b : Binner} {sel : List Feat}
    (hX : X.rows ≠ []) (hs : ∀ f ∈ sel, f ∈ X.cols ∧ f ≠ cf) :
    preprocessPrediction F X cf b none sel = applyBins F b (X.dropCol cf) := by
  unfold preprocessPrediction
  rw [if_neg hX, toPrediction_none, ok_bind, if_neg]
  simp only [List.any_eq_true, not_exists, not_and, Bool.not_eq_true', Bool.not_eq_false,
    List.contains_iff_mem]
  intro f hf
  exact dropCol_cols.mpr (hs f hf)

theorem preprocessPrediction_missing {F : PyFloat} {X : TFrame} {cf : Feat} {b : Binner} {sel : List Feat}
    (hX : X.rows ≠ []) (hs : ∃ f ∈ sel, ¬ (f ∈ X.cols ∧ f ≠ cf)) :
    preprocessPrediction F X cf b none sel = .error .indexError := by
  unfold preprocessPrediction
  rw [if_neg hX, toPrediction_none, ok_bind, if_pos]
  obtain ⟨f, hf, hn⟩ := hs
  rw [List.any_eq_true]
  refine ⟨f, hf, ?_⟩
  rw [Bool.not_eq_true', ← Bool.not_eq_true, List.contains_iff_mem, dropCol_cols]
  exact hn

/-- C11. On non-empty data, predict on a fitted or initialised model: (1) raises IndexError exactly when a
stored feature is not a column of X apart from the class column; (2) otherwise raises ValueError exactly
when a binned column already holds text that is not one of its labels; (3) otherwise, provided the tested
features are among the stored ones, answers with one prediction per row. The object is unchanged. -/
theorem C11_predict_outcome (F : PyFloat) (c : Clf) (rs : Ruleset) (cf : Feat) (b : Binner) (sel : List Feat)
    (hc : Ready c rs cf b sel) (hb : Usable F b) (hsel : ∀ f, Tested rs f → f ∈ sel)
    (X : TFrame) (hX : X.rows ≠ []) :
    (Clf.predict F X none c = .error .indexError c ↔ ∃ f ∈ sel, ¬ (f ∈ X.cols ∧ f ≠ cf)) ∧
    (Clf.predict F X none c = .error .valueError c ↔
      (∀ f ∈ sel, f ∈ X.cols ∧ f ≠ cf) ∧ BadText b (X.dropCol cf)) ∧
    ((∃ ps, Clf.predict F X none c = .ok ps c ∧ ps.length = X.rows.length) ↔
      (∀ f ∈ sel, f ∈ X.cols ∧ f ≠ cf) ∧ ¬ BadText b (X.dropCol cf)) := by
  rw [predict_eq_query, query_ready hc]
  by_cases hs : ∃ f ∈ sel, ¬ (f ∈ X.cols ∧ f ≠ cf)
  · have hs' : ¬ ∀ f ∈ sel, f ∈ X.cols ∧ f ≠ cf := by
      obtain ⟨f, hf, hn⟩ := hs
      exact fun h => hn (h f hf)
    rw [preprocessPrediction_missing hX hs, error_bind]
    refine ⟨⟨fun _ => hs, fun _ => rfl⟩, ⟨fun h => ?_, fun h => absurd h.1 hs'⟩, ⟨fun h => ?_, fun h => absurd h.1 hs'⟩⟩
    · cases h
    · obtain ⟨ps, h, _⟩ := h; cases h
  · have hs' : ∀ f ∈ sel, f ∈ X.cols ∧ f ≠ cf := by
      intro f hf; by_contra hn; exact hs ⟨f, hf, hn⟩
    rw [preprocessPrediction_none hX hs']
    by_cases hbad : BadText b (X.dropCol cf)
    · rw [applyBins_bad hbad, error_bind]
      refine ⟨⟨fun h => (by cases h), fun h => absurd h hs⟩, ⟨fun _ => ⟨hs', hbad⟩, fun _ => rfl⟩,
        ⟨fun h => ?_, fun h => absurd hbad h.2⟩⟩
      obtain ⟨ps, h, _⟩ := h; cases h
    · obtain ⟨X', hX'⟩ := applyBins_total hb hbad
      obtain ⟨G, K, hG, _⟩ := applyBins_ok hb.1 hX'
      have hfeat : HasFeatures X'.toFrame rs.rules := by
        rw [tested_iff]
        intro f hf
        rw [hG]
        exact dropCol_cols.mpr (hs' f (hsel f hf))
      rw [hX', ok_bind, Ruleset.predict_ok (Or.inr hfeat), outcome_ok]
      refine ⟨⟨fun h => (by cases h), fun h => absurd h hs⟩, ⟨fun h => (by cases h), fun h => absurd h.2 hbad⟩,
        ⟨fun _ => ⟨hs', hbad⟩, fun _ => ⟨_, rfl, ?_⟩⟩⟩
      rw [List.length_map, hG]
      simp [TFrame.mapAll, TFrame.dropCol, Frame.dropCol]

namespace Demo
/-- A model with the rules `a=x` and `b=x`, as `init_ruleset` leaves it, with an empty bin transformer. -/
def clf : Clf := { after (Clf.initRuleset (.ruleset rs) (.name p!"c") (.str p!"p") {}) with binner := some {} }
/-- Only column a. -/
def onlyA : TFrame := { Frame.ofTable [fa] [(0, [vx]), (1, [vy])] with kind := fun _ => .text }
theorem clf_ready : Ready clf rs (.name p!"c") {} [fa, fb] where
  rules := rfl
  classFeat := rfl
  posClass := ⟨_, rfl⟩
  bins := rfl
  selected := rfl
  trainFeats := ⟨_, rfl⟩
end Demo

/-- The hypotheses of C11 are met, and all three cases occur or can occur. -/
example : Ready Demo.clf Demo.rs (.name p!"c") {} [Demo.fa, Demo.fb] ∧ Usable Demo.F {} ∧
    (∀ f, Tested Demo.rs f → f ∈ [Demo.fa, Demo.fb]) ∧ Demo.tdf.rows ≠ [] := by
  refine ⟨Demo.clf_ready, usable_empty _, ?_, by decide⟩
  rintro f ⟨r, hr, c, hc, rfl⟩
  simp only [Demo.rs, List.mem_cons, List.not_mem_nil, or_false] at hr
  rcases hr with rfl | rfl <;> simp only [Demo.rx, Demo.rb, List.mem_cons, List.not_mem_nil, or_false] at hc <;> subst hc <;> decide

/-- C11, edits: the editing methods change the rules but not the stored list of features. -/
theorem C11_edit_keeps_stored_features (op : EditOp) (c : Clf) (rs : Ruleset) (cf : Feat) (b : Binner)
    (sel : List Feat) (hc : Ready c rs cf b sel) :
    after (Clf.edit op c) = { c with ruleset := some (op.run rs).1 } ∧
      Ready (after (Clf.edit op c)) (op.run rs).1 cf b sel := by
  have h : after (Clf.edit op c) = { c with ruleset := some (op.run rs).1 } := by
    unfold Clf.edit
    rw [bind_ok (a := rs) (c' := c) (by rw [self_run]; simp [hc.rules, attr])]
    cases hrun : op.run rs with
    | mk rs' e => cases e <;> rfl
  refine ⟨h, ?_⟩
  rw [h]
  exact ⟨rfl, hc.classFeat, hc.posClass, hc.bins, hc.selected, hc.trainFeats⟩

/-- C11 fails once the stored features are stale. If the stored features are all present but some rule (say,
one added by add_rule) tests a column that is not, predict raises KeyError instead of IndexError, unless some
rule is empty. -/
theorem C11_refuted_stale_features (F : PyFloat) (c : Clf) (rs : Ruleset) (cf : Feat) (b : Binner) (sel : List Feat)
    (hc : Ready c rs cf b sel) (hb : Usable F b) (X : TFrame) (hX : X.rows ≠ [])
    (hs : ∀ f ∈ sel, f ∈ X.cols ∧ f ≠ cf) (hbad : ¬ BadText b (X.dropCol cf))
    (hmiss : ∃ f, Tested rs f ∧ ¬ (f ∈ X.cols ∧ f ≠ cf)) (hne : ∀ r ∈ rs.rules, r.conds ≠ []) :
    Clf.predict F X none c = .error .keyError c := by
  rw [predict_eq_query, query_ready hc, preprocessPrediction_none hX hs]
  obtain ⟨X', hX'⟩ := applyBins_total hb hbad
  obtain ⟨G, K, hG, _⟩ := applyBins_ok hb.1 hX'
  rw [hX', ok_bind, Ruleset.predict_err]
  · rfl
  · rintro (⟨r, hr, he⟩ | h)
    · exact hne r hr he
    · rw [tested_iff] at h
      obtain ⟨f, hf, hn⟩ := hmiss
      have := h f hf
      rw [hG] at this
      exact hn (dropCol_cols.mp this)

/-- C11 fails after add_rule (KeyError for a feature the added rule needs) and after remove_rule (IndexError
for a feature no rule needs any more). -/
theorem C11_refuted_after_edit :
    (∃ e, Demo.answers (Clf.predict Demo.F Demo.tdf none (after (Clf.edit (.add (.text p!"z=1")) Demo.clf))) = .error e ∧
      e = .keyError) ∧
    Demo.answers (Clf.predict Demo.F Demo.onlyA none (after (Clf.edit (.removeAt 1) Demo.clf))) = .error .indexError ∧
    (after (Clf.edit (.removeAt 1) Demo.clf)).ruleset.map Ruleset.selectedFeatures = some [Demo.fa] := by
  refine ⟨⟨.keyError, ?_, rfl⟩, ?_, ?_⟩ <;> decide +kernel

/-! ### C66: feature_names -/

theorem rename_ok {X : TFrame} {ns : List Feat} (h : ns.length = X.cols.length) :
    ∃ X', X.rename ns = .ok X' ∧ X'.cols = ns ∧ X'.rows.length = X.rows.length := by
  unfold TFrame.rename
  rw [if_neg (by simp [h])]
  exact ⟨_, rfl, rfl, by simp⟩

/-- C66. Passing names to predict is the same as renaming the columns and passing none, if neither the data
nor the names contain the class column. -/
theorem C66_names_rename (F : PyFloat) (c : Clf) (cf : Feat) (hcf : c.classFeat = some cf) (X X' : TFrame) (ns : List Feat)
    (h : X.rename ns = .ok X') (hX : cf ∉ X.cols) (hn : cf ∉ ns) :
    returned (Clf.predict F X (some ns) c) = returned (Clf.predict F X' none c) := by
  have hlen : ns.length = X.cols.length := by
    unfold TFrame.rename at h
    split at h
    · cases h
    · rename_i hl; simpa using hl
  have hcols : X'.cols = ns := by
    obtain ⟨X2, h2, h3, _⟩ := rename_ok hlen
    rw [h] at h2; injection h2 with h2; rw [h2, h3]
  have hrows : X'.rows = [] ↔ X.rows = [] := by
    obtain ⟨X2, h2, _, h3⟩ := rename_ok hlen
    rw [h] at h2; injection h2 with h2
    rw [← h2] at h3
    rw [← List.length_eq_zero_iff, ← List.length_eq_zero_iff, h3]
  have key : ∀ b sel, preprocessPrediction F X cf b (some ns) sel = preprocessPrediction F X' cf b none sel := by
    intro b sel
    unfold preprocessPrediction
    by_cases hr : X.rows = []
    · rw [if_pos hr, if_pos (hrows.mpr hr)]
    · rw [if_neg hr, if_neg (fun h => hr (hrows.mp h)), toPrediction_none,
        TFrame.dropCol_of_not_mem (by rw [hcols]; exact hn)]
      have : toPrediction X cf (some ns) = .ok X' := by
        unfold toPrediction
        have h1 : ¬ X.cols.contains cf = true := by simpa using hX
        have h2 : ns.filter (fun f => f ≠ cf) = ns := by
          rw [List.filter_eq_self]
          intro f hf
          simp only [ne_eq, decide_not, Bool.not_eq_true', decide_eq_false_iff_not]
          rintro rfl; exact hn hf
        simp only [h1, h2, Bool.false_eq_true, if_false, h]
      rw [this]
  have hans : ∀ c' : Clf, c'.classFeat = some cf →
      answer F (fun rs df => rs.predict df) X (some ns) c' = answer F (fun rs df => rs.predict df) X' none c' := by
    intro c' hc'
    unfold answer
    simp only [hc', attr, ok_bind, key]
  rw [predict_eq_query, predict_eq_query]
  cases hr : c.ruleset with
  | none => rw [query_unfit hr, query_unfit hr]
  | some rs =>
    cases hb : c.binner with
    | some b => rw [query_some hr hb, query_some hr hb, hans c hcf]
    | none => rw [query_none hr hb, query_none hr hb, hans c.withEmptyBinner hcf]

/-- C66 fails for data that includes the class values and is given as an array: if the names (one per column)
include the class column, as they do for the data the model was fitted on, predict raises ValueError, because
the class name is dropped from the names but not the column from the data. -/
theorem C66_refuted_names_with_class (F : PyFloat) (c : Clf) (rs : Ruleset) (cf : Feat) (b : Binner) (sel : List Feat)
    (hc : Ready c rs cf b sel) (X : TFrame) (ns : List Feat) (hX : X.rows ≠ []) (hlen : ns.length = X.cols.length)
    (hcf : cf ∉ X.cols) (hn : cf ∈ ns) :
    Clf.predict F X (some ns) c = .error .valueError c := by
  rw [predict_eq_query, query_ready hc]
  have : toPrediction X cf (some ns) = .error .valueError := by
    unfold toPrediction
    have h1 : ¬ X.cols.contains cf = true := by simpa using hcf
    simp only [h1, Bool.false_eq_true, if_false]
    unfold TFrame.rename
    rw [if_pos]
    have : (ns.filter (fun f => f ≠ cf)).length < ns.length :=
      List.length_filter_lt_length_iff_exists.mpr ⟨cf, hn, by simp⟩
    omega
  unfold preprocessPrediction
  rw [if_neg hX, this, error_bind, error_bind]
  rfl

example : Demo.tdf.rows ≠ [] ∧ [Demo.fa, .name p!"c"].length = Demo.tdf.cols.length ∧
    (.name p!"c") ∉ Demo.tdf.cols := by decide

/-! ### C41 -/

namespace Spec
/-- The model carries class probabilities: the ruleset for uncovered examples, and each of its rules. -/
def Calibrated (rs : Ruleset) : Prop := rs.uncov.smoothed ≠ none ∧ ∀ r ∈ rs.rules, r.cal.smoothed ≠ none
end Spec

theorem filterM_sub {α : Type} {f : α → Except PyErr Bool} {l out : List α} (h : l.filterM f = .ok out) :
    ∀ a ∈ out, a ∈ l := by
  have : ∀ (l : List α) (acc out : List α), l.filterAuxM f acc = .ok out → ∀ a ∈ out, a ∈ l ∨ a ∈ acc := by
    intro l
    induction l with
    | nil =>
      intro acc out h a ha
      simp only [List.filterAuxM, pure_eq_ok, Except.ok.injEq] at h
      subst h; exact Or.inr ha
    | cons x l ih =>
      intro acc out h a ha
      rw [List.filterAuxM] at h
      obtain ⟨b, _, h⟩ := bind_ok_iff.mp h
      rcases ih _ _ h a ha with h' | h'
      · exact Or.inl (List.mem_cons_of_mem _ h')
      · cases b
        · exact Or.inr h'
        · rcases List.mem_cons.mp h' with rfl | h'
          · exact Or.inl List.mem_cons_self
          · exact Or.inr h'
  intro a ha
  unfold List.filterM at h
  obtain ⟨as, has, h⟩ := bind_ok_iff.mp h
  simp only [pure_eq_ok, Except.ok.injEq] at h
  subst h
  rcases this l [] as has a (by simpa using ha) with h | h
  · exact h
  · simp at h

theorem mapM_total {α β : Type} {f : α → Except PyErr β} : ∀ {l : List α}, (∀ a ∈ l, ∃ b, f a = .ok b) →
    ∃ bs, l.mapM f = .ok bs ∧ ∀ b ∈ bs, ∃ a ∈ l, f a = .ok b := by
  intro l
  induction l with
  | nil => intro _; exact ⟨[], rfl, by simp⟩
  | cons a l ih =>
    intro h
    obtain ⟨b, hb⟩ := h a List.mem_cons_self
    obtain ⟨bs, hbs, h2⟩ := ih (fun a' ha' => h a' (List.mem_cons_of_mem _ ha'))
    refine ⟨b :: bs, by rw [List.mapM_cons, hb, hbs]; rfl, ?_⟩
    intro b' hb'
    rcases List.mem_cons.mp hb' with rfl | hb'
    · exact ⟨a, List.mem_cons_self, hb⟩
    · obtain ⟨a', ha', hf⟩ := h2 b' hb'
      exact ⟨a', List.mem_cons_of_mem _ ha', hf⟩

/-- With all tested columns present, reasons are found, whatever the row labels. -/
theorem predictReasons_total {rs : Ruleset} {df : Frame} (hf : HasFeatures df rs.rules) :
    ∃ ps reasons, rs.predictReasons df = .ok (ps, reasons) ∧ ∀ l ∈ reasons, ∀ r ∈ l, r ∈ rs.rules := by
  unfold Ruleset.predictReasons
  rw [Ruleset.predict_ok (Or.inr hf), ok_bind]
  have hat : ∀ i, ∃ l, reasonsAt rs.rules df i = .ok l ∧ ∀ r ∈ l, r ∈ rs.rules := by
    intro i
    have h := filterM_ok (f := fun r : Rule => do return (← r.numCovered (df.keep (fun row => row.label == i))) == 1)
      (g := fun r => ((df.keep (fun row => row.label == i)).rows.filter (condsMet r.conds)).length == 1)
      (l := rs.rules) (by
        intro r hr
        rw [Rule.numCovered_ok (df := df.keep (fun row => row.label == i)) (fun c hc => hf r hr c hc)]
        rfl)
    exact ⟨_, h, filterM_sub h⟩
  obtain ⟨reasons, hre, hmem⟩ := mapM_total (f := fun ip : Label × Bool => if ip.2 then reasonsAt rs.rules df ip.1 else .ok [])
    (l := df.index.zip (df.rows.map (fun row =>
      df.rows.any (fun row' => row'.label == row.label && rulesMet rs.rules row')))) (by
      intro ip _
      split
      · obtain ⟨l, hl, _⟩ := hat ip.1; exact ⟨l, hl⟩
      · exact ⟨[], rfl⟩)
  rw [hre, ok_bind]
  refine ⟨_, reasons, rfl, ?_⟩
  intro l hl r hr
  obtain ⟨ip, _, hip⟩ := hmem l hl
  split at hip
  · obtain ⟨l', hl', h'⟩ := hat ip.1
    rw [hl'] at hip
    injection hip with hip
    subst hip
    exact h' r hr
  · injection hip with hip
    subst hip
    simp at hr

theorem predictProba_total {rs : Ruleset} {df : Frame} (hf : HasFeatures df rs.rules) (hc : Calibrated rs) :
    ∃ ps, rs.predictProba df = .ok ps := by
  obtain ⟨u, hu⟩ := Option.ne_none_iff_exists'.mp hc.1
  obtain ⟨ps, reasons, hre, hmem⟩ := predictReasons_total hf
  unfold Ruleset.predictProba Ruleset.predictProbaReasons
  rw [hu, hre]
  simp only [attr, ok_bind]
  obtain ⟨qs, hq, _⟩ := mapM_total (f := fun pr : Bool × List Rule =>
      if !pr.1 then .ok (weightedAvg [u]) else do return weightedAvg (← pr.2.mapM (fun r => attr r.cal.smoothed)))
    (l := ps.zip reasons) (by
      rintro ⟨p, l⟩ hpl
      dsimp only
      split
      · exact ⟨_, rfl⟩
      · obtain ⟨as, has, _⟩ := mapM_total (f := fun r : Rule => attr r.cal.smoothed) (l := l) (by
          intro r hr
          obtain ⟨a, ha⟩ := Option.ne_none_iff_exists'.mp (hc.2 r (hmem l (List.of_mem_zip hpl).2 r hr))
          exact ⟨a, by rw [ha]; rfl⟩)
        rw [has]; exact ⟨_, rfl⟩)
  simp only [attr] at hq
  rw [hq]
  exact ⟨_, rfl⟩

theorem preprocessPrediction_cols {F : PyFloat} {X : TFrame} {cf : Feat} {b : Binner} (hb : (b.bins.map Prod.fst).Nodup)
    {names : Option (List Feat)} {sel : List Feat} {X' : TFrame} (h : preprocessPrediction F X cf b names sel = .ok X') :
    ∀ f ∈ sel, f ∈ X'.cols := by
  unfold preprocessPrediction at h
  split at h
  · cases h
  · obtain ⟨df, hdf, h⟩ := bind_ok_iff.mp h
    split at h
    · cases h
    · rename_i hany
      obtain ⟨G, K, hG, _⟩ := applyBins_ok hb h
      intro f hf
      rw [hG]
      by_contra hn
      exact hany (List.any_eq_true.mpr ⟨f, hf, by
        have : f ∉ df.cols := hn
        simpa using this⟩)

theorem probaQuery_ready {α : Type} {c : Clf} {rs : Ruleset} {cf : Feat} {b : Binner} {sel : List Feat}
    (hr : Ready c rs cf b sel) (F : PyFloat) (act : Ruleset → Frame → Except PyErr α) (X : TFrame)
    (names : Option (List Feat)) :
    returned (probaQuery F act X names c) = (do
      let df ← preprocessPrediction F X cf b names sel
      act rs df.toFrame) := by
  have h := prepOf_answer (F := F) (act := act) (X := X) (names := names) (c := c)
  rw [answer_ready hr] at h
  rw [h, probaQuery_run, hr.rules, hr.bins]
  simp only [attr]
  cases prepOf F X names c with
  | error e => rfl
  | ok df => simp only [returned_outcome, ok_bind]

/-- C41. On a model whose rules and ruleset carry probabilities and whose tested features are the stored ones
(as after fit), predict_proba answers exactly when predict does, on any data; when they raise, they raise the
same. -/
theorem C41_proba_iff_predict (F : PyFloat) (c : Clf) (rs : Ruleset) (cf : Feat) (b : Binner) (sel : List Feat)
    (hc : Ready c rs cf b sel) (hb : (b.bins.map Prod.fst).Nodup) (hsel : ∀ f, Tested rs f → f ∈ sel)
    (hcal : Calibrated rs) (X : TFrame) (names : Option (List Feat)) :
    ((∃ ps, returned (Clf.predict F X names c) = .ok ps) ↔ ∃ qs, returned (Clf.predictProba F X names c) = .ok qs) ∧
    ∀ e, returned (Clf.predict F X names c) = .error e ↔ returned (Clf.predictProba F X names c) = .error e := by
  rw [predict_eq_query, query_ready hc, returned_outcome, Clf.predictProba, probaQuery_ready hc]
  cases hp : preprocessPrediction F X cf b names sel with
  | error e =>
    simp only [error_bind]
    refine ⟨⟨?_, ?_⟩, fun e' => by simp⟩
    · rintro ⟨_, h⟩; cases h
    · rintro ⟨_, h⟩; cases h
  | ok X' =>
    have hf : HasFeatures X'.toFrame rs.rules := by
      rw [tested_iff]; exact fun f hf => preprocessPrediction_cols hb hp f (hsel f hf)
    obtain ⟨qs, hqs⟩ := predictProba_total hf hcal
    simp only [ok_bind]
    rw [Ruleset.predict_ok (Or.inr hf), hqs]
    refine ⟨⟨fun _ => ⟨_, rfl⟩, fun _ => ⟨_, rfl⟩⟩, fun e => ⟨fun h => (by cases h), fun h => (by cases h)⟩⟩

/-- C38, reasons. On every classifier with a bin transformer, predict_proba(give_reasons=True) gives the probabilities of
predict_proba together with the reasons of predict(give_reasons=True), and raises whatever predict_proba raises. -/
theorem C38_reasons (F : PyFloat) (c : Clf) (hb : c.binner ≠ none) (X : TFrame) (names : Option (List Feat)) :
    (∀ ps rs, returned (Clf.predictProbaReasons F X names c) = .ok (ps, rs) →
      returned (Clf.predictProba F X names c) = .ok ps ∧ ∃ bs, returned (Clf.predictReasons F X names c) = .ok (bs, rs)) ∧
    (∀ e, returned (Clf.predictProbaReasons F X names c) = .error e ↔ returned (Clf.predictProba F X names c) = .error e) := by
  obtain ⟨b, hb⟩ := Option.ne_none_iff_exists'.mp hb
  rw [Clf.predictProbaReasons, Clf.predictProba, probaQuery_run, probaQuery_run, predictReasons_eq_query]
  cases hr : c.ruleset with
  | none => exact ⟨fun _ _ h => (by simp [returned] at h), fun e => by simp [returned]⟩
  | some rs =>
    rw [query_some hr hb, hb, prepOf_answer, hr]
    cases prepOf F X names c with
    | error e => exact ⟨fun _ _ h => (by simp [returned] at h), fun e => by simp [returned]⟩
    | ok df =>
      simp only [returned_outcome, ok_bind, attr]
      unfold Ruleset.predictProba
      cases hp : rs.predictProbaReasons df with
      | error e => exact ⟨fun _ _ h => (by cases h), fun e => by simp [error_bind]⟩
      | ok q =>
        refine ⟨fun ps rs' h => ?_, fun e => by simp [pure_eq_ok]⟩
        simp only [Except.ok.injEq] at h
        subst h
        refine ⟨rfl, ?_⟩
        unfold Ruleset.predictProbaReasons at hp
        obtain ⟨u, _, hp⟩ := bind_ok_iff.mp hp
        obtain ⟨⟨bs, rr⟩, hre, hp⟩ := bind_ok_iff.mp hp
        obtain ⟨pp, _, hp⟩ := bind_ok_iff.mp hp
        simp only [pure_eq_ok, Except.ok.injEq, Prod.mk.injEq] at hp
        obtain ⟨_, rfl⟩ := hp
        exact ⟨bs, hre⟩

/-- C41 fails for every model given by init_ruleset: predict_proba raises AttributeError on it, on any data
(non-empty and with the features the model needs), also after any series of queries. -/
theorem C41_refuted_init_ruleset (F : PyFloat) (rs : Ruleset) (hne : rs.rules ≠ []) (hu : rs.uncov.smoothed = none)
    (cf : Feat) (pc : Val) (qs : List Call) (X : TFrame) (hX : X.rows ≠ [])
    (hfeat : ∀ f, Tested rs f → f ∈ X.cols ∧ f ≠ cf) :
    returned (Clf.predictProba F X none (afterAll F qs (after (Clf.initRuleset (.ruleset rs) cf pc {})))) =
      .error .attributeError := by
  have h0 : after (Clf.initRuleset (.ruleset rs) cf pc {}) = { ruleset := some rs, classFeat := some cf, posClass := some pc, selected := some rs.selectedFeatures, trainFeats := some rs.selectedFeatures } := by
    unfold Clf.initRuleset
    rw [bind_ok (a := rs) (c' := {}) (by simp [ModelArg.toRuleset, hne])]
    rfl
  rw [h0]
  obtain ⟨h1, h2, _⟩ := (C63_queries_are_read_only F qs { ruleset := some rs, classFeat := some cf, posClass := some pc, selected := some rs.selectedFeatures, trainFeats := some rs.selectedFeatures }).1
  generalize (afterAll F qs _).classes = k at h1
  rcases h2 with h | ⟨_, h⟩
  · rw [h1, h, Clf.predictProba, probaQuery_run]; rfl
  · rw [h1, h]
    have hr : Ready { binner := some {}, ruleset := some rs, classFeat := some cf, posClass := some pc, selected := some rs.selectedFeatures, trainFeats := some rs.selectedFeatures, classes := k } rs cf {} rs.selectedFeatures :=
      ⟨rfl, rfl, ⟨_, rfl⟩, rfl, rfl, ⟨_, rfl⟩⟩
    have hq := probaQuery_ready hr F (fun rs df => rs.predictProba df) X none
    rw [preprocessPrediction_none hX] at hq
    · refine Eq.trans hq ?_
      have : applyBins F {} (X.dropCol cf) = .ok (X.dropCol cf) := rfl
      rw [this, ok_bind]
      unfold Ruleset.predictProba Ruleset.predictProbaReasons
      rw [hu]
      rfl
    · intro f hf
      exact hfeat f ((mem_selected rs f).mp hf)

example : Demo.rs.rules ≠ [] ∧ Demo.rs.uncov.smoothed = none ∧ Demo.tdf.rows ≠ [] ∧
    (∀ f ∈ Demo.rs.selectedFeatures, f ∈ Demo.tdf.cols ∧ f ≠ .name p!"c") := by decide

namespace Demo
/-- The demo model with probabilities. -/
def calRules : Ruleset :=
  { rules := rs.rules.map (fun r => { r with cal := { smoothed := some (1/4, 3/4) } }), uncov := { smoothed := some (2/3, 1/3) } }
def calClf : Clf := { clf with ruleset := some calRules }
end Demo

example : Ready Demo.calClf Demo.calRules (.name p!"c") {} [Demo.fa, Demo.fb] ∧ Calibrated Demo.calRules ∧
    (∀ f, Tested Demo.calRules f → f ∈ [Demo.fa, Demo.fb]) := by
  refine ⟨⟨rfl, rfl, ⟨_, rfl⟩, rfl, rfl, ⟨_, rfl⟩⟩, ⟨by decide, by decide⟩, fun f hf => ?_⟩
  rw [← mem_selected] at hf
  have h : Demo.calRules.selectedFeatures = [Demo.fa, Demo.fb] := by decide
  rwa [h] at hf

/-- C41 fails after add_rule: the added rule has no probabilities, so predict_proba raises AttributeError on
data it covers, while predict answers. -/
theorem C41_refuted_add_rule :
    Demo.answers (Clf.predictProba Demo.F Demo.tdf none Demo.calClf) = .ok () ∧
    Demo.answers (Clf.predict Demo.F Demo.tdf none (after (Clf.edit (.add (.text p!"b=y")) Demo.calClf))) = .ok () ∧
    Demo.answers (Clf.predictProba Demo.F Demo.tdf none (after (Clf.edit (.add (.text p!"b=y")) Demo.calClf))) =
      .error .attributeError := by
  refine ⟨?_, ?_, ?_⟩ <;> decide +kernel

end Witt
