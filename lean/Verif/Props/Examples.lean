import Verif.Examples
import Verif.Props.Api
/-
C88: `rule_stats` with `n_examples`: the example rows shown for each rule.
-/
namespace Witt
open Spec

namespace Spec
/-- The table with the class column filled in: the `i`-th row gets the `i`-th label. -/
def labelledRows (df : Frame) (cf : Feat) : Option (List Val) → List Row
  | none => df.rows
  | some ys => (df.rows.zip ys).map (fun p => { p.1 with cell := fun f => if f = cf then p.2 else p.1.cell f })
open Classical in
/-- Its rows on which the rule fires, in order. -/
noncomputable def matchingRows (df : Frame) (cf : Feat) (y : Option (List Val)) (r : Rule) : List Row :=
  (labelledRows df cf y).filter (fun row => decide (Fires row r))
/-- What `n_examples=n` may show of these rows: all of them for -1, `n` different ones otherwise (all, if there are fewer). -/
def ShownOf (n : Int) (shown rows : List Row) : Prop :=
  (n = -1 → shown = rows) ∧ (n ≠ -1 → shown.Subperm rows ∧ shown.length = min n.toNat rows.length)
end Spec

theorem lookup_zip_labels : ∀ (rows : List Row) (ys : List Val), (rows.map Row.label).Nodup → ys.length = rows.length →
    rows.map (fun r => (((rows.map Row.label).zip ys).lookup r.label).getD .nan) = ys := by
  intro rows
  induction rows with
  | nil => intro ys _ h; simpa using h
  | cons r rows ih =>
    intro ys hn hl
    cases ys with
    | nil => simp at hl
    | cons y ys =>
      have hn' : (rows.map Row.label).Nodup := (List.nodup_cons.mp (by simpa using hn)).2
      have hni : r.label ∉ rows.map Row.label := (List.nodup_cons.mp (by simpa using hn)).1
      simp only [List.map_cons, List.zip_cons_cons, List.lookup_cons, beq_self_eq_true, Option.getD_some, List.cons.injEq, true_and]
      refine Eq.trans ?_ (ih ys hn' (by simpa using hl))
      apply List.map_congr_left
      intro r' hr'
      have : (r'.label == r.label) = false := by
        rw [beq_eq_false_iff_ne]
        exact fun e => hni (e ▸ List.mem_map.mpr ⟨r', hr', rfl⟩)
      rw [this]

theorem labelledRows_eq {df : Frame} (hu : df.UniqueIndex) (cf : Feat) (ys : List Val) (hl : ys.length = df.rows.length) :
    labelledRows df cf (some ys) = df.rows.map (fun r => { r with cell := fun f =>
      (if f = cf then ((df.index.zip ys).lookup r.label).getD .nan else r.cell f) }) := by
  have h := lookup_zip_labels df.rows ys hu hl
  unfold labelledRows
  conv_lhs => rw [← h]
  dsimp only
  rw [List.zip_map_right, List.map_map]
  have hz : df.rows.zip df.rows = df.rows.map (fun r => (r, r)) := by
    generalize df.rows = l
    induction l with
    | nil => rfl
    | cons a l ih => simp [ih]
  rw [hz, List.map_map]
  rfl

theorem withLabels_ok {df : Frame} (hu : df.UniqueIndex) {cf : Feat} {y : Option (List Val)}
    (hl : ∀ ys, y = some ys → ys.length = df.rows.length) {r : Rule} (hcf : ∀ c ∈ r.conds, c.feature ≠ cf)
    (hcol : cf ∉ df.cols) :
    ∃ ex, withLabels df cf y (df.keep (condsMet r.conds)) = .ok ex ∧ ex.rows = matchingRows df cf y r ∧
      ex.cols = df.cols ++ (if y.isSome then [cf] else []) := by
  cases y with
  | none =>
    refine ⟨_, rfl, ?_, by simp [Frame.keep]⟩
    simp only [matchingRows, labelledRows, Frame.keep]
    apply List.filter_congr
    intro row _
    rw [Bool.eq_iff_iff, decide_eq_true_eq]
    exact condsMet_iff
  | some ys =>
    simp only [withLabels]
    rw [if_neg]
    · refine ⟨_, rfl, ?_, ?_⟩
      · simp only [matchingRows]
        rw [labelledRows_eq hu cf ys (hl ys rfl), List.filter_map]
        simp only [Frame.keep]
        congr 1
        apply List.filter_congr
        intro row _
        rw [Bool.eq_iff_iff]
        simp only [Function.comp, decide_eq_true_eq]
        rw [condsMet_iff]
        constructor
        · intro h c hc
          have := h c hc
          simpa [Meets, if_neg (hcf c hc)] using this
        · intro h c hc
          have := h c hc
          simpa [Meets, if_neg (hcf c hc)] using this
      · simp only [Frame.keep]
        simp [hcol]
    · simp only [List.any_eq_true, decide_eq_true_eq, not_exists, not_and]
      intro l _ h
      have := List.nodup_iff_count_le_one.mp hu l
      omega

theorem filterMap_range_get {α : Type} (l : List α) : (List.range l.length).filterMap (fun i => l[i]?) = l := by
  induction l with
  | nil => rfl
  | cons a l ih =>
    rw [List.length_cons, List.range_succ_eq_map, List.filterMap_cons]
    simp only [List.getElem?_cons_zero, List.filterMap_map, Function.comp_def, Nat.succ_eq_add_one, List.getElem?_cons_succ]
    rw [ih]

theorem filterMap_get_length {α : Type} (l : List α) : ∀ ps : List Nat, (∀ i ∈ ps, i < l.length) →
    (ps.filterMap (fun i => l[i]?)).length = ps.length
  | [], _ => rfl
  | p :: ps, h => by
    have hp : p < l.length := h p (by simp)
    rw [List.filterMap_cons]
    simp only [List.getElem?_eq_getElem hp, List.length_cons]
    rw [filterMap_get_length l ps (fun i hi => h i (by simp [hi]))]

theorem pickExamples_ok {S : PySample} (hS : S.Lawful) {n : Int} (hn : n = -1 ∨ 0 < n) (seed : Option Int) (ex : Frame) (g : S.G) :
    ∃ ex' g', pickExamples S n seed ex g = .ok (ex', g') ∧ ex'.cols = ex.cols ∧ ShownOf n ex'.rows ex.rows := by
  unfold pickExamples
  by_cases h1 : n = -1
  · rw [if_pos h1]
    exact ⟨ex, g, rfl, rfl, fun _ => rfl, fun h => absurd h1 h⟩
  · have h2 : 0 < n := hn.resolve_left h1
    rw [if_neg h1, if_pos h2]
    have hk : min n.toNat ex.rows.length ≤ ex.rows.length := Nat.min_le_right _ _
    refine ⟨_, _, rfl, rfl, fun h => absurd h h1, fun _ => ⟨?_, ?_⟩⟩
    · dsimp only
      obtain ⟨l, hl1, hl2⟩ := List.Nodup.subperm (l₂ := List.range ex.rows.length) (hS.distinct seed g _ _ hk)
        (fun i hi => List.mem_range.mpr (hS.range seed g _ _ hk i hi))
      have h := hl2.filterMap (fun i => ex.rows[i]?)
      rw [filterMap_range_get] at h
      exact ⟨_, hl1.filterMap _, h⟩
    · dsimp only
      rw [filterMap_get_length _ _ (hS.range seed g _ _ hk), hS.size seed g _ _ hk]

theorem examplesLoop_ok {S : PySample} (hS : S.Lawful) {df : Frame} (hu : df.UniqueIndex) {cf : Feat} (hcol : cf ∉ df.cols)
    {actuals : Option (List Bool)} {y : Option (List Val)} (hl : ∀ ys, y = some ys → ys.length = df.rows.length) {n : Int}
    (hn : n = -1 ∨ 0 < n) (seed : Option Int) :
    ∀ (l : List (Rule × Nat)) (table : List RuleStat) (g : S.G), (∀ ri ∈ l, ∀ c ∈ ri.1.conds, c.feature ∈ df.cols) →
    l.mapM (fun ri => ruleStat df actuals ri.2 ri.1) = .ok table →
    ∃ t g', examplesLoop S df cf actuals y n seed l g = .ok (t, g') ∧ t.map Prod.fst = table ∧ t.length = l.length ∧
      ∀ (k : Nat) (ri : Rule × Nat), l[k]? = some ri → ∃ p, t[k]? = some p ∧
        p.2.cols = df.cols ++ (if y.isSome then [cf] else []) ∧ ShownOf n p.2.rows (matchingRows df cf y ri.1) := by
  intro l
  induction l with
  | nil =>
    intro table g _ h
    simp only [List.mapM_nil, pure_eq_ok, Except.ok.injEq] at h
    subst h
    exact ⟨[], g, rfl, rfl, rfl, fun k ri h => by simp at h⟩
  | cons ri l ih =>
    intro table g hf h
    obtain ⟨r, i⟩ := ri
    rw [List.mapM_cons] at h
    obtain ⟨st, hst, h⟩ := bind_ok_iff.mp h
    obtain ⟨table', ht', h⟩ := bind_ok_iff.mp h
    simp only [pure_eq_ok, Except.ok.injEq] at h
    subst h
    have hr : ∀ c ∈ r.conds, c.feature ∈ df.cols := hf (r, i) (by simp)
    obtain ⟨ex, hex, hrows, hcols⟩ := withLabels_ok hu (y := y) hl (r := r) (fun c hc (e : c.feature = cf) => hcol (e ▸ hr c hc)) hcol
    obtain ⟨ex', g1, hp, hpc, hps⟩ := pickExamples_ok hS hn seed ex g
    obtain ⟨t, g', hloop, h1, h2, h3⟩ := ih table' g1 (fun ri hri => hf ri (List.mem_cons_of_mem _ hri)) ht'
    refine ⟨(st, ex') :: t, g', ?_, by simp [h1], by simp [h2], ?_⟩
    · unfold examplesLoop
      dsimp only at hst
      rw [hst, ok_bind]
      unfold Rule.covers
      rw [condsCover_ok hr, ok_bind, hex, ok_bind, hp, ok_bind]
      dsimp only
      rw [hloop, ok_bind]
      rfl
    · intro k ri' hk
      cases k with
      | zero =>
        simp only [List.getElem?_cons_zero, Option.some.injEq] at hk
        subst hk
        exact ⟨(st, ex'), rfl, by rw [hpc, hcols], by rw [← hrows]; exact hps⟩
      | succ k => exact h3 k ri' (by simpa using hk)

theorem examplesLoop_bad {S : PySample} {df : Frame} (hu : df.UniqueIndex) {cf : Feat} (hcol : cf ∉ df.cols)
    {actuals : Option (List Bool)} {y : Option (List Val)} (hl : ∀ ys, y = some ys → ys.length = df.rows.length) {n : Int}
    (hn : ¬ (n = -1 ∨ 0 < n)) (seed : Option Int) {ri : Rule × Nat} {l : List (Rule × Nat)} (g : S.G)
    (hf : ∀ c ∈ ri.1.conds, c.feature ∈ df.cols) {st : RuleStat} (hst : ruleStat df actuals ri.2 ri.1 = .ok st) :
    examplesLoop S df cf actuals y n seed (ri :: l) g = .error .valueError := by
  obtain ⟨r, i⟩ := ri
  obtain ⟨ex, hex, hrows, hcols⟩ := withLabels_ok hu (y := y) hl (r := r) (fun c hc (e : c.feature = cf) => hcol (e ▸ hf c hc)) hcol
  unfold examplesLoop
  dsimp only at hst
  rw [hst, ok_bind]
  unfold Rule.covers
  rw [condsCover_ok hf, ok_bind, hex, ok_bind]
  unfold pickExamples
  rw [if_neg (fun h => hn (Or.inl h)), if_neg (fun h => hn (Or.inr h))]
  rfl

theorem ruleStatsExamples_ready {c : Clf} {rs : Ruleset} {cf : Feat} {b : Binner} {sel : List Feat} (hr : Ready c rs cf b sel)
    {pc : Val} (hpc : c.posClass = some pc) (F : PyFloat) (S : PySample) (X : TFrame) (y : Option (List Val)) (n : Int)
    (names : Option (List Feat)) (seed : Option Int) (g : S.G) :
    Clf.ruleStatsExamples F S X y n names seed g c = outcome (do
      let df ← preprocessPrediction F X cf b names sel
      examplesTable S cf pc y n seed g rs df.toFrame) c := by
  obtain ⟨h1, h2, _, h4, h5, ⟨tf, h6⟩⟩ := hr
  unfold Clf.ruleStatsExamples
  rw [bind_ok (a := rs) (c' := c) (by rw [self_run]; simp [h1, attr]), bind_ok (ensureBinner_some h4), bind_run, prepared_run,
    outcome_bind]
  simp only [h2, hpc, h4, h5, h6, attr, ok_bind]
  cases preprocessPrediction F X cf b names sel with
  | error e => rfl
  | ok df =>
    simp only [ok_bind, pure_eq_ok]
    rw [bind_ok (a := pc) (c' := c) (by rw [self_run]; simp [hpc, attr]), bind_ok (a := cf) (c' := c) (by rw [self_run]; simp [h2, attr]),
      bind_ok (a := rs) (c' := c) (by rw [self_run]; simp [h1, attr]), pureCode_run]

/-- C88. `rule_stats(X, y, n_examples=n)` answers with the table of `rule_stats(X, y)` and, for each rule in order, example rows of
the (discretised) data on which it fires: all of them for `n=-1`, `n` different ones for a positive `n` (all, if there are fewer).
Given labels, each example carries its own row's label in the class column. Any other `n` is a ValueError, unless the model has no
rules. The object is unchanged. -/
theorem C88_rule_stats_examples (F : PyFloat) (S : PySample) (hS : S.Lawful) (c : Clf) (rs : Ruleset) (cf : Feat) (pc : Val)
    (b : Binner) (sel : List Feat) (hc : Ready c rs cf b sel) (hpc : c.posClass = some pc) (hb : Usable F b)
    (hsel : ∀ f, Tested rs f → f ∈ sel) (X : TFrame) (hX : X.rows ≠ []) (hu : X.UniqueIndex)
    (hs : ∀ f ∈ sel, f ∈ X.cols ∧ f ≠ cf) (hbad : ¬ BadText b (X.dropCol cf)) (y : Option (List Val))
    (hy : ∀ ys, y = some ys → ys.length = X.rows.length) (n : Int) (seed : Option Int) (g : S.G) :
    (¬ (n = -1 ∨ 0 < n) → rs.rules ≠ [] → Clf.ruleStatsExamples F S X y n none seed g c = .error .valueError c) ∧
    (n = -1 ∨ 0 < n ∨ rs.rules = [] →
      ∃ X' table exs g', applyBins F b (X.dropCol cf) = .ok X' ∧
        Clf.ruleStatsExamples F S X y n none seed g c = .ok (table, exs, g') c ∧
        Clf.ruleStats F X y none c = .ok table c ∧
        exs.length = rs.rules.length ∧ ∀ (i : Nat) (r : Rule), rs.rules[i]? = some r → ∃ ex, exs[i]? = some ex ∧
          ex.cols = X'.cols ++ (if y.isSome then [cf] else []) ∧
          ShownOf n ex.rows (matchingRows X'.toFrame cf y r)) := by
  obtain ⟨X', table, hX', hst, hlen, _⟩ := (C57_rule_stats F c rs cf pc b sel hc hpc hb hsel X hX hu hs hbad y).2 hy
  obtain ⟨G, K, hG, _⟩ := applyBins_ok hb.1 hX'
  have hrows : X'.rows.length = X.rows.length := by rw [hG]; simp [TFrame.mapAll, TFrame.dropCol, Frame.dropCol]
  have hidx : X'.index = X.index := by rw [hG]; simp [TFrame.mapAll, TFrame.dropCol, Frame.dropCol, Frame.index]
  have hu' : X'.UniqueIndex := by rw [Frame.UniqueIndex, hidx]; exact hu
  have hcols : X'.cols = (X.dropCol cf).cols := by rw [hG]; rfl
  have hcol : cf ∉ X'.cols := by rw [hcols, dropCol_cols]; exact fun h => h.2 rfl
  have hfeat : HasFeatures X'.toFrame rs.rules := by
    rw [tested_iff]
    intro f hf
    rw [hcols]
    exact dropCol_cols.mpr (hs f (hsel f hf))
  have hcond : ¬ y.any (fun ys => ys.length != X'.rows.length) = true := by
    cases y with
    | none => simp
    | some ys => simp [hrows, hy ys rfl]
  have hl : ∀ ys, y = some ys → ys.length = X'.rows.length := fun ys h => by rw [hrows]; exact hy ys h
  have hzip : ∀ ri ∈ rs.rules.zipIdx, ri.1 ∈ rs.rules := by
    rintro ⟨r, i⟩ hri
    have := List.mem_zipIdx hri
    simp only [Nat.zero_le, Nat.sub_zero, true_and] at this
    rw [this.2]
    exact List.getElem_mem _
  have htable : rs.rules.zipIdx.mapM (fun ri : Rule × Nat => ruleStat X'.toFrame (y.map (fun ys => ys.map (fun yi => yi.pyEq pc))) ri.2 ri.1) =
      .ok table := by
    rw [ruleStats_eq_query, query_ready hc, preprocessPrediction_none hX hs, hX', ok_bind, hpc] at hst
    simp only [attr, ok_bind] at hst
    unfold ruleTable at hst
    rw [if_neg hcond] at hst
    revert hst
    generalize List.mapM (m := Except PyErr) _ rs.rules.zipIdx = o
    intro hst
    cases o with
    | error e => cases hst
    | ok t => injection hst with h; rw [h]
  rw [ruleStatsExamples_ready hc hpc, preprocessPrediction_none hX hs, hX', ok_bind]
  unfold examplesTable
  rw [if_neg hcond]
  constructor
  · intro hn hr
    cases hz : rs.rules.zipIdx with
    | nil => exact absurd (List.zipIdx_eq_nil_iff.mp hz) hr
    | cons ri l =>
      have hri : ri ∈ rs.rules.zipIdx := by rw [hz]; simp
      rw [hz, List.mapM_cons] at htable
      obtain ⟨st, hst', _⟩ := bind_ok_iff.mp htable
      rw [examplesLoop_bad hu' hcol hl hn seed g (hfeat ri.1 (hzip ri hri)) hst']
      rfl
  · intro hn
    by_cases hr : rs.rules = []
    · rw [hr, List.zipIdx_nil] at htable ⊢
      simp only [List.mapM_nil, pure_eq_ok, Except.ok.injEq] at htable
      subst htable
      refine ⟨X', [], [], g, rfl, rfl, hst, rfl, fun i r h => by simp at h⟩
    · have hn' : n = -1 ∨ 0 < n := by
        rcases hn with h | h | h
        · exact Or.inl h
        · exact Or.inr h
        · exact absurd h hr
      obtain ⟨t, g', h0, h1, h2, h3⟩ := examplesLoop_ok (S := S) hS hu' hcol hl hn' seed rs.rules.zipIdx table g
        (fun ri hri => hfeat ri.1 (hzip ri hri)) htable
      rw [h0, ok_bind]
      refine ⟨X', t.map Prod.fst, t.map Prod.snd, g', rfl, rfl, by rw [h1]; exact hst, by simp [h2], ?_⟩
      intro i r hi
      obtain ⟨p, hp, h4, h5⟩ := h3 i (r, i) (by simp [List.getElem?_zipIdx, hi])
      exact ⟨p.2, by simp [hp], h4, h5⟩

theorem pickExamples_seeded {S : PySample} (hS : S.Seeded) (n : Int) (s : Int) (ex : Frame) (g g' : S.G) :
    (pickExamples S n (some s) ex g).map Prod.fst = (pickExamples S n (some s) ex g').map Prod.fst := by
  unfold pickExamples
  split
  · rfl
  · split
    · simp only [Except.map, hS s g g']
    · rfl

theorem examplesLoop_seeded {S : PySample} (hS : S.Seeded) (df : Frame) (cf : Feat) (actuals : Option (List Bool))
    (y : Option (List Val)) (n s : Int) : ∀ (l : List (Rule × Nat)) (g g' : S.G),
    (examplesLoop S df cf actuals y n (some s) l g).map Prod.fst = (examplesLoop S df cf actuals y n (some s) l g').map Prod.fst
  | [], _, _ => rfl
  | (r, i) :: l, g, g' => by
    unfold examplesLoop
    cases ruleStat df actuals i r with
    | error e => rfl
    | ok st =>
      simp only [ok_bind]
      cases r.covers df with
      | error e => rfl
      | ok cov =>
        simp only [ok_bind]
        cases withLabels df cf y cov with
        | error e => rfl
        | ok ex =>
          simp only [ok_bind]
          have h := pickExamples_seeded hS n s ex g g'
          cases h1 : pickExamples S n (some s) ex g with
          | error e =>
            cases h2 : pickExamples S n (some s) ex g' with
            | error e' => rw [h1, h2] at h; simpa [Except.map] using h
            | ok q => rw [h1, h2] at h; cases h
          | ok p =>
            cases h2 : pickExamples S n (some s) ex g' with
            | error e' => rw [h1, h2] at h; cases h
            | ok q =>
              rw [h1, h2] at h
              simp only [Except.map, Except.ok.injEq] at h
              simp only [ok_bind]
              have h' := examplesLoop_seeded hS df cf actuals y n s l p.2 q.2
              cases h3 : examplesLoop S df cf actuals y n (some s) l p.2 with
              | error e =>
                cases h4 : examplesLoop S df cf actuals y n (some s) l q.2 with
                | error e' => rw [h3, h4] at h'; simpa [Except.map] using h'
                | ok q => rw [h3, h4] at h'; cases h'
              | ok p2 =>
                cases h4 : examplesLoop S df cf actuals y n (some s) l q.2 with
                | error e' => rw [h3, h4] at h'; cases h'
                | ok q2 =>
                  rw [h3, h4] at h'
                  simp only [Except.map, Except.ok.injEq] at h'
                  simp only [ok_bind, pure_eq_ok, Except.map, h, h']

/-- C88, reproducibility: with a `random_state` the table and the examples (or the exception) do not depend on the state of the
global generator. -/
theorem C88_examples_seeded (F : PyFloat) (S : PySample) (hS : S.Seeded) (c : Clf) (X : TFrame) (y : Option (List Val)) (n : Int)
    (names : Option (List Feat)) (s : Int) (g g' : S.G) :
    (returned (Clf.ruleStatsExamples F S X y n names (some s) g c)).map (fun a => (a.1, a.2.1)) =
      (returned (Clf.ruleStatsExamples F S X y n names (some s) g' c)).map (fun a => (a.1, a.2.1)) ∧
    after (Clf.ruleStatsExamples F S X y n names (some s) g c) = after (Clf.ruleStatsExamples F S X y n names (some s) g' c) := by
  have key : ∀ cf pc rs df,
      (examplesTable S cf pc y n (some s) g rs df).map (fun a => (a.1, a.2.1)) =
      (examplesTable S cf pc y n (some s) g' rs df).map (fun a => (a.1, a.2.1)) := by
    intro cf pc rs df
    unfold examplesTable
    split
    · rfl
    · have h := examplesLoop_seeded hS df cf (y.map (fun ys => ys.map (fun yi => yi.pyEq pc))) y n s rs.rules.zipIdx g g'
      cases h1 : examplesLoop S df cf (y.map (fun ys => ys.map (fun yi => yi.pyEq pc))) y n (some s) rs.rules.zipIdx g with
      | error e =>
        cases h2 : examplesLoop S df cf (y.map (fun ys => ys.map (fun yi => yi.pyEq pc))) y n (some s) rs.rules.zipIdx g' with
        | error e' => rw [h1, h2] at h; simpa [Except.map] using h
        | ok q => rw [h1, h2] at h; cases h
      | ok p =>
        cases h2 : examplesLoop S df cf (y.map (fun ys => ys.map (fun yi => yi.pyEq pc))) y n (some s) rs.rules.zipIdx g' with
        | error e' => rw [h1, h2] at h; cases h
        | ok q =>
          rw [h1, h2] at h
          simp only [Except.map, Except.ok.injEq] at h
          simp only [ok_bind, pure_eq_ok, Except.map, h]
  have step : ∀ {α : Type} (m : OnClf α) (k k' : α → OnClf (List RuleStat × List Frame × S.G)) (c : Clf),
      (∀ a c', (returned (k a c')).map (fun a => (a.1, a.2.1)) = (returned (k' a c')).map (fun a => (a.1, a.2.1)) ∧
        after (k a c') = after (k' a c')) →
      (returned ((m >>= k) c)).map (fun a => (a.1, a.2.1)) = (returned ((m >>= k') c)).map (fun a => (a.1, a.2.1)) ∧
        after ((m >>= k) c) = after ((m >>= k') c) := by
    intro α m k k' c h
    rw [bind_run, bind_run]
    cases m c with
    | ok a c' => exact h a c'
    | error e c' => exact ⟨rfl, rfl⟩
  unfold Clf.ruleStatsExamples
  refine step _ _ _ _ fun _ c1 => step _ _ _ _ fun _ c2 => step _ _ _ _ fun df c3 => step _ _ _ _ fun pc c4 =>
    step _ _ _ _ fun cf c5 => step _ _ _ _ fun rs c6 => ?_
  rw [pureCode_run, pureCode_run]
  have h := key cf pc rs df
  cases h1 : examplesTable S cf pc y n (some s) g rs df with
  | error e =>
    cases h2 : examplesTable S cf pc y n (some s) g' rs df with
    | error e' => rw [h1, h2] at h; exact ⟨h, rfl⟩
    | ok q => rw [h1, h2] at h; cases h
  | ok p =>
    cases h2 : examplesTable S cf pc y n (some s) g' rs df with
    | error e' => rw [h1, h2] at h; cases h
    | ok q => rw [h1, h2] at h; exact ⟨h, rfl⟩

namespace Demo
/-- A generator that takes the first rows, the global one rotating. -/
def Sa : PySample where
  G := Nat
  choose s g k n := match s with
    | some _ => (List.range k, g)
    | none => ((List.range n).reverse.take k, g + 1)
theorem Sa_lawful : Sa.Lawful where
  size := by rintro (_ | s) g k n h <;> simp [Sa, h]
  distinct := by
    rintro (_ | s) g k n h
    · exact (List.nodup_reverse.mpr List.nodup_range).sublist (List.take_sublist _ _)
    · exact List.nodup_range
  range := by
    rintro (_ | s) g k n h i hi
    · have := List.mem_of_mem_take hi
      simpa using this
    · have : i < k := by simpa [Sa] using hi
      omega
theorem Sa_seeded : Sa.Seeded := fun _ _ _ _ _ => rfl
/-- What is shown, as data. -/
def shownOf (r : EStateM.Result PyErr Clf (List RuleStat × List Frame × Nat)) : Option (List (List (Label × List Val))) :=
  match r with
  | .ok (_, exs, _) _ => some (exs.map (fun e => e.rows.map (fun row => (row.label, e.cols.map row.cell))))
  | .error _ _ => none
end Demo

/-- The hypotheses (those of C57, and sampling) are met, and the examples are shown with their labels. -/
example : Demo.Sa.Lawful ∧ Demo.Sa.Seeded ∧ Demo.clf.posClass = some (.str p!"p") ∧
    Demo.shownOf (Clf.ruleStatsExamples Demo.F Demo.Sa Demo.tdf (some [.str p!"p", .str p!"n", .str p!"n"]) 1 none none (0 : Nat) Demo.clf) =
      some [[(0, [Demo.vx, Demo.vx, .str p!"p"])], [(1, [Demo.vy, Demo.vx, .str p!"n"])]] := by
  refine ⟨Demo.Sa_lawful, Demo.Sa_seeded, rfl, ?_⟩
  decide +kernel

/-- C88 needs distinct row labels: with repeated ones, `rule_stats` given labels shows its table but, asked for examples, raises
ValueError. -/
theorem C88_refuted_repeated_labels :
    let X : TFrame := { Demo.dup with kind := fun _ => .text }
    let y := some [Val.str p!"p", .str p!"n"]
    (Demo.answers (Clf.ruleStats Demo.F X y none Demo.clf) matches .ok ()) ∧
    (Demo.answers (Clf.ruleStatsExamples Demo.F Demo.Sa X y (-1) none none (0 : Nat) Demo.clf) matches .error .valueError) ∧
    (Demo.answers (Clf.ruleStatsExamples Demo.F Demo.Sa X none (-1) none none (0 : Nat) Demo.clf) matches .ok ()) := by
  decide +kernel

end Witt
