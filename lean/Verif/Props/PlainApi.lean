import Verif.Props.FitTrain
/-
`fit(..., cn_optimize=False)` on classifier objects: C62, C70, C71, C72, C73, C74 for the API.
-/
namespace Witt
open Spec

/-- C72 for the API. `IREP.fit(..., cn_optimize=False)` always comes back. -/
theorem C72_irep_plain_fit_returns [Arith] [Arith.Lawful] (R : PyRandom) (hR : R.Lawful) (S : SetOps) (F : PyFloat) (hF : F.Lawful) (P : PandasCut)
    (hP : P.Lawful F) (d : FitData) (init : ModelArg) (g : R.G) (c : Clf) :
    ∃ outcome, outcome ≠ .error .diverged ∧
      ∀ fuel, d.X.rows.length < fuel → completed (Clf.irepFitPlain fuel R S F P d init g c) = outcome :=
  fit_halts (.irepPlain S) R hR F hF P hP d init g c

/-- C72 for the API. `RIPPER.fit(..., cn_optimize=False)` always comes back. -/
theorem C72_ripper_plain_fit_returns [Arith] [Arith.Lawful] (R : PyRandom) (hR : R.Lawful) (S : SetOps) (F : PyFloat) (hF : F.Lawful) (P : PandasCut)
    (hP : P.Lawful F) (d : FitData) (init : ModelArg) (g : R.G) (c : Clf) :
    ∃ outcome, outcome ≠ .error .diverged ∧
      ∀ fuel, d.X.rows.length < fuel → completed (Clf.ripperFitPlain fuel R S F P d init g c) = outcome :=
  fit_halts (.ripperPlain S) R hR F hF P hP d init g c

/-- C70 for the API. Every condition of a model fitted with `cn_optimize=False` comes from the initial model (a rule of it, or
its list of possible conditions), or tests a column of the data other than the class column and is met both by a raw training
row of the positive class and by a raw training row of the negative class. -/
theorem C70_fit_conditions_shared [Arith] [Arith.Lawful] (a : Algo) (R : PyRandom) (S : SetOps) (hS : S.Lawful) (F : PyFloat) (hF : F.Lawful)
    (P : PandasCut) (hP : P.Lawful F) (d : FitData) (hd : (d.names.getD d.X.cols).Nodup) (init : ModelArg) (c c' : Clf)
    (h : FittedBy (a.plain S) R F P d init c c') :
    ∃ rs b df0 start pc, c'.ruleset = some rs ∧ c'.binner = some b ∧ init.toRuleset = .ok start ∧ c'.posClass = some pc ∧
      toTraining d.X d.y (classFeatName d.classFeat d.y) d.names = .ok df0 ∧
      ∀ r ∈ rs.rules, ∀ cond ∈ r.conds, (∃ r0 ∈ start.rules, cond ∈ r0.conds) ∨ cond ∈ start.possible.getD [] ∨
        (cond.feature ∈ d.names.getD d.X.cols ∧ cond.feature ≠ classFeatName d.classFeat d.y ∧
          (∃ row ∈ df0.rows, Positive (classFeatName d.classFeat d.y) pc row ∧ RawMeets F b df0 row cond) ∧
          ∃ row ∈ df0.rows, ¬ Positive (classFeatName d.classFeat d.y) pc row ∧ RawMeets F b df0 row cond) := by
  obtain ⟨fuel, g, g', h⟩ := h
  obtain ⟨df0, df, pc, b, start, m, G, K, ht, _, hst, htrain, rfl, hdf, _, _, hGcf, hm, _⟩ := Method.fit_frames hF hP hd h
  refine ⟨m.ruleset, b, df0, start, pc, rfl, rfl, hst, rfl, ht, ?_⟩
  have key : ∀ r ∈ m.ruleset.rules, ∀ cond ∈ r.conds, (∃ r0 ∈ start.rules.map Rule.conds, cond ∈ r0) ∨
      cond ∈ start.possible.getD [] ∨ SharedCond df.toFrame (classFeatName d.classFeat d.y) pc cond := by
    intro r hr cond hc
    cases a with
    | irep =>
      rcases C70_irep_conditions_shared R S hS c.hyper _ _ _ _ _ fuel g g' m htrain r hr with h | h
      · exact Or.inl ⟨_, h, hc⟩
      · exact Or.inr (h cond hc)
    | ripper => exact C70_ripper_conditions_shared R S hS c.hyper _ _ _ _ _ fuel g g' m htrain r hr cond hc
  intro r hr cond hc
  rcases key r hr cond hc with ⟨r0, hr0, hx⟩ | hx | ⟨⟨h1, h2, _⟩, ⟨row, r1, r2, r3⟩, ⟨row', s1, s2, s3⟩⟩
  · obtain ⟨r1, hr1, rfl⟩ := List.mem_map.mp hr0
    exact Or.inl ⟨r1, hr1, hx⟩
  · exact Or.inr (Or.inl hx)
  · right; right
    rw [hdf] at h1 r1 s1
    obtain ⟨x0, hx0, rfl⟩ := List.mem_map.mp r1
    obtain ⟨y0, hy0, rfl⟩ := List.mem_map.mp s1
    have hpos : ∀ row : Row, Positive (classFeatName d.classFeat d.y) pc { row with cell := fun f => G f (row.cell f) } ↔
        Positive (classFeatName d.classFeat d.y) pc row := by
      intro row; unfold Positive; simp only [hGcf]
    refine ⟨?_, h2, ⟨x0, hx0, (hpos x0).mp r2, (hm cond x0 h1).mp r3⟩, ⟨y0, hy0, fun h => s2 ((hpos y0).mpr h), (hm cond y0 h1).mp s3⟩⟩
    rcases ((toTraining_ok ht).2.1 _).mp h1 with h | ⟨h, _⟩
    · exact h
    · exact absurd h h2

/-- C74 for the API, IREP. On valid data `fit(..., cn_optimize=False)` raises nothing, if `prune_size` is None, 0 or leaves
something to prune on (C35_prune_sizes) and `alpha` is positive; the features of the initial model (and of its possible conditions) must be among the columns, those of
the latter not the class. -/
theorem C74_irep_plain_fit_on_valid_data [Arith] [Arith.Lawful] (R : PyRandom) (hR : R.Lawful) (S : SetOps) (F : PyFloat) (hF : F.Lawful) (P : PandasCut)
    (hP : P.Lawful F) (d : FitData) (hv : ValidInput d) (init : ModelArg) (start : Ruleset) (hinit : init.toRuleset = .ok start)
    (hfeat : ∀ f, Tested start f → f ∈ d.names.getD d.X.cols)
    (hold : ∀ cond ∈ start.possible.getD [], cond.feature ∈ d.names.getD d.X.cols ∧
      cond.feature ≠ classFeatName d.classFeat d.y)
    (c : Clf) (hl : c.hyper.irepPrune = 0 ∨ Arith.LeavesSome c.hyper.irepPrune) (ha : 0 < c.hyper.alpha) (fuel : Nat)
    (hfuel : d.X.rows.length < fuel) (g : R.G) :
    ∃ g' c', Clf.irepFitPlain fuel R S F P d init g c = .ok g' c' := by
  obtain ⟨df, pc, b, hpre, hidx⟩ := valid_preprocess hF hP c.nBins hv
  obtain ⟨hne, hcf⟩ := preprocessTraining_frame hpre
  obtain ⟨rs', he⟩ := early_of_toRuleset hinit
  have hlen := preprocessTraining_length hpre
  obtain ⟨_, _, df0, ht, _, _, _, _, _, hcols, _⟩ := preprocessTraining_ok hpre
  obtain ⟨_, hc2, _⟩ := toTraining_ok ht
  obtain ⟨m, g', hm⟩ := C74_irep_plain_never_raises R hR S c.hyper hl ha start.possible (start.rules.map Rule.conds) df.toFrame
    (classFeatName d.classFeat d.y) pc hne hcf (by
      intro r hr x hx
      obtain ⟨r0, hr0, rfl⟩ := List.mem_map.mp hr
      rw [hcols, hc2]
      exact Or.inl (hfeat _ ⟨r0, hr0, x, hx, rfl⟩)) (by
      intro x hx
      rw [hcols, hc2]
      exact ⟨Or.inl (hold x hx).1, (hold x hx).2⟩) fuel (by omega) g
  refine ⟨g', c.fitted m b (classFeatName d.classFeat d.y) pc, completed_ok ?_⟩
  have := Method.fit_completed (.irepPlain S) fuel R F P d init g c
  simp only [Method.early, he, hpre, hinit, ok_bind, Method.train, hm, pure_eq_ok] at this
  exact this

/-- C73 for the API. `IREP(prune_size=None)` (or 0), without `max_rules`, `max_total_conds`, `min_ruleset_samples` and an
initial model, fitted with `cn_optimize=False` on valid data with distinct row labels in which nothing prints like something
else: predict on that data answers True for every row of the positive class. -/
theorem C73_irep_plain_fit_covers_positives [Arith] [Arith.Lawful] (R : PyRandom) (S : SetOps) (hS : S.Lawful) (F : PyFloat) (hF : F.Lawful)
    (P : PandasCut) (hP : P.Lawful F)
    (d : FitData) (hv : ValidInput d) (hn : d.names = none) (hd : d.X.cols.Nodup) (hu : (rowLabels d).Nodup)
    (hX : d.X.UniqueIndex) (c c' : Clf) (h : FittedBy (.irepPlain S) R F P d .nothing c c')
    (hr : ∀ df0, toTraining d.X d.y (classFeatName d.classFeat d.y) d.names = .ok df0 →
      ReadsApart df0.toFrame (classFeatName d.classFeat d.y))
    (hprune : c.hyper.irepPrune = 0)
    (hl : c.hyper.lim.maxRules = none ∧ c.hyper.lim.maxTotalConds = none ∧ c.hyper.lim.minRulesetSamples = none) :
    ∃ ps, Clf.predict F d.X none c' = .ok ps c' ∧ ps.length = d.X.rows.length ∧
      ∀ (i : Nat) v pc, trueLabel d i = some v → c'.posClass = some pc → Same v pc → i < d.X.rows.length → ps[i]? = some true := by
  obtain ⟨fuel, g, g', h⟩ := h
  obtain ⟨df0, df, pc, b, start, m, G, K, ps, ht, hst, htrain, rfl, hdf, hidx, hGcf, hmeets, hshape, hps, hlen, hans⟩ :=
    fit_answers hF hP hv hn hd hX (init := .nothing)
      (by intro start hs f hf; cases hs; obtain ⟨r, hr, _⟩ := hf; simp at hr)
      (by intro _ start hs cond hc; cases hs; simp at hc) h
  cases hst
  have hu' : df.UniqueIndex := by unfold Frame.UniqueIndex; rw [hidx]; exact hu
  obtain ⟨p, hp, hall⟩ := C73_irep_plain_covers_positives R S hS c.hyper hprune hl df.toFrame (classFeatName d.classFeat d.y) pc
    hu' (by rw [hdf]; exact mapAll_readsApart (hr df0 ht) hshape) fuel g g' m htrain
  have hfeat : HasFeatures (df.toFrame.dropCol (classFeatName d.classFeat d.y)) m.ruleset.rules := by
    intro r hr' cond hc
    rcases C70_irep_conditions_shared R S hS c.hyper _ _ _ _ _ fuel g g' m htrain r hr' with h | h
    · simp at h
    · rcases h cond hc with h | h
      · simp at h
      · exact Frame.mem_dropCol.mpr ⟨h.1.1, h.1.2.1⟩
  have hpu := Ruleset.predict_unique (df := df.toFrame.dropCol (classFeatName d.classFeat d.y)) (rs := m.ruleset) hu' (Or.inr hfeat)
  rw [hp] at hpu
  injection hpu with hpu
  refine ⟨ps, hps, hlen, ?_⟩
  intro i v pc' hv1 hpc1 hsame hi
  obtain ⟨row0, hrow0, hlab, hiff⟩ := hans i hi
  rw [hiff]
  injection hpc1 with hpc1; subst hpc1
  rw [hv1] at hlab; injection hlab with hlab
  have hrow : df.rows[i]? = some { row0 with cell := fun f => G f (row0.cell f) } := by
    rw [hdf]; simp [TFrame.mapAll, hrow0]
  have := congrArg (fun l => l[i]?) hpu
  simp only [List.getElem?_map] at this
  have e : (df.toFrame.dropCol (classFeatName d.classFeat d.y)).rows[i]? = some { row0 with cell := fun f => G f (row0.cell f) } := hrow
  have e' : df.toFrame.rows[i]? = some { row0 with cell := fun f => G f (row0.cell f) } := hrow
  rw [e, e', Option.map_some, Option.map_some, Option.some.injEq] at this
  rw [← rulesMet_iff, ← this]
  refine hall _ (List.mem_of_getElem? hrow) ?_
  unfold Positive
  simp only [hGcf, hlab]
  exact hsame

/-- C71 for the API, IREP. If, after discretisation, the row labels are distinct and every value of every non-class column
occurs in both classes (and Python enumerates the shared values in order of appearance), then from an initial model that lists
no possible conditions, `cn_optimize` makes no difference: same object, same exceptions. -/
theorem C71_irep_fit_same_object [Arith] [Arith.Lawful] (R : PyRandom) (hR : R.Lawful) (S : SetOps) (F : PyFloat) (P : PandasCut) (d : FitData)
    (init : ModelArg) (hpos : ∀ start, init.toRuleset = .ok start → start.possible = none) (c : Clf)
    (hall : ∀ df cf pc b, preprocessTraining F P c.nBins d = .ok (df, cf, pc, b) → df.UniqueIndex ∧
      ∀ f ∈ df.cols, f ≠ cf → S.inter ((posExamples df.toFrame cf pc).unique f) ((negExamples df.toFrame cf pc).unique f)
        = df.unique f) (fuel : Nat) (g : R.G) :
    completed (Clf.irepFitPlain fuel R S F P d init g c) = completed (Clf.irepFit fuel R F P d init g c) := by
  have h1 := Method.fit_completed (.irepPlain S) fuel R F P d init g c
  have h2 := Method.fit_completed .irep fuel R F P d init g c
  simp only [Method.fit, Method.early, Method.train] at h1 h2
  rw [h1, h2]
  cases init.early with
  | error e => rfl
  | ok rs' =>
    simp only [ok_bind]
    cases hq : preprocessTraining F P c.nBins d with
    | error e => rfl
    | ok q =>
      obtain ⟨df, cf, pc, b⟩ := q
      simp only [ok_bind]
      cases hst : init.toRuleset with
      | error e => rfl
      | ok start =>
        simp only [ok_bind]
        obtain ⟨hu, ha⟩ := hall df cf pc b hq
        rw [hpos start hst, C71_irep_same_model R hR S c.hyper _ df.toFrame cf pc hu ha]

/-- C62, RIPPER with `cn_optimize=False`: rejected data leaves the object exactly as it was. -/
theorem C62_ripper_plain_rejected_data [Arith] (fuel : Nat) (R : PyRandom) (S : SetOps) (F : PyFloat) (P : PandasCut) (d : FitData)
    (init : ModelArg) (g : R.G) (c : Clf) (e : PyErr) (h : preprocessTraining F P c.nBins d = .error e) :
    Clf.ripperFitPlain fuel R S F P d init g c = .error e c := by
  unfold Clf.ripperFitPlain
  rw [bind_ok (get_run _), bind_pureCode, h]

/-- C62, RIPPER with `cn_optimize=False`: an unreadable initial model leaves the old rules with the new data's class column,
positive class and bins. -/
theorem C62_refuted_ripper_plain_bad_initial_model (fuel : Nat) (R : PyRandom) (S : SetOps) (F : PyFloat) (P : PandasCut)
    (d : FitData) (init : ModelArg) (g : R.G) (c : Clf) (e : PyErr) (df : TFrame) (cf : Feat) (pc : Val) (b : Binner)
    (h : preprocessTraining F P c.nBins d = .ok (df, cf, pc, b)) (hi : init.toRuleset = .error e) :
    Clf.ripperFitPlain fuel R S F P d init g c =
      .error e { c with classFeat := some cf, posClass := some pc, binner := some b } := by
  unfold Clf.ripperFitPlain
  rw [bind_ok (get_run _), bind_pureCode, h]
  simp only []
  rw [bind_ok (modify_run _ _), bind_ok (get_run _), bind_pureCode, hi]

/-- C62, IREP, any initial model and any `cn_optimize`: an unreadable initial model is noticed before the object is touched;
with a readable one, rejected data leaves the object with that model (the empty ruleset if none, or an unfitted classifier, is
given) instead of what it had learned, and with its old class, bins and stored features. -/
theorem C62_refuted_irep_rejected_data [Arith] (fuel : Nat) (R : PyRandom) (S : SetOps) (F : PyFloat) (P : PandasCut) (d : FitData)
    (init : ModelArg) (g : R.G) (c : Clf) :
    (∀ e, init.early = .error e → Clf.irepFit fuel R F P d init g c = .error e c ∧
      Clf.irepFitPlain fuel R S F P d init g c = .error e c) ∧
    (∀ start e, init.early = .ok start → preprocessTraining F P c.nBins d = .error e →
      Clf.irepFit fuel R F P d init g c = .error e { c with ruleset := some start } ∧
      Clf.irepFitPlain fuel R S F P d init g c = .error e { c with ruleset := some start }) ∧
    ModelArg.nothing.early = .ok { rules := [] } ∧
    (∀ rs : Ruleset, rs.rules ≠ [] → (ModelArg.ruleset rs).early = .ok rs) ∧
    (∀ c0 : Clf, (ModelArg.clf c0).early = .ok (c0.ruleset.getD { rules := [] })) := by
  refine ⟨fun e he => ⟨?_, ?_⟩, fun start e hs h => ⟨?_, ?_⟩, rfl, fun rs hrs => ?_, fun _ => rfl⟩
  · unfold Clf.irepFit
    rw [bind_pureCode, he]
  · unfold Clf.irepFitPlain
    rw [bind_pureCode, he]
  · unfold Clf.irepFit
    rw [bind_pureCode, hs]
    simp only []
    rw [bind_ok (modify_run _ _), bind_ok (get_run _), bind_pureCode, h]
  · unfold Clf.irepFitPlain
    rw [bind_pureCode, hs]
    simp only []
    rw [bind_ok (modify_run _ _), bind_ok (get_run _), bind_pureCode, h]
  · show (if rs.rules = [] then _ else _) = _
    rw [if_neg hrs]

/-- C75, the true part. With a seed, two fits with `cn_optimize=False` on the same data with the same parameters and initial model
leave the same object, or raise the same, if sets of values are enumerated alike (as they are within one process), whatever the
state of the global generator and whatever either object had learned before. -/
theorem C75_same_order_same_model [Arith] (a : Algo) (fuel : Nat) (R : PyRandom) (hR : R.SeedResets) (S S' : SetOps)
    (hS : ∀ x y, S.inter x y = S'.inter x y) (F : PyFloat) (P : PandasCut)
    (d : FitData) (init : ModelArg) (g g' : R.G) (c c' : Clf) (hh : c'.hyper = c.hyper) (hn : c'.nBins = c.nBins)
    (s : Int) (hs : c.hyper.randomState = some s) :
    (completed ((a.plain S).fit fuel R F P d init g c)).map Prod.snd =
      (completed ((a.plain S').fit fuel R F P d init g' c')).map Prod.snd := by
  have : S = S' := by cases S; cases S'; congr; funext x y; exact hS x y
  subst this
  exact C36_fit_reproducible (a.plain S) fuel R hR F P d init g g' c c' hh hn s hs

/-- C75, IREP: the order of a set matters only for the values that a column of the training data has in both classes. -/
theorem C75_irep_order_of_shared_values [Arith] (R : PyRandom) (S S' : SetOps) (hp : Hyper) (old : Option (List Cond))
    (init : List (List Cond)) (df : Frame) (cf : Feat) (pc : Val)
    (hS : ∀ f ∈ df.cols, f ≠ cf → S.inter ((posExamples df cf pc).unique f) ((negExamples df cf pc).unique f) =
      S'.inter ((posExamples df cf pc).unique f) ((negExamples df cf pc).unique f)) (fuel : Nat) (g : R.G) :
    irepFitPlain fuel R S hp old init df cf pc g = irepFitPlain fuel R S' hp old init df cf pc g := by
  have e : sharedConds S (posExamples df cf pc) (negExamples df cf pc) =
      sharedConds S' (posExamples df cf pc) (negExamples df cf pc) := by
    unfold sharedConds
    refine List.flatMap_congr fun f hf => ?_
    have hf := Frame.mem_dropCol.mp hf
    rw [hS f hf.1 hf.2]
  unfold irepFitPlain updatedConds
  rw [e]

/-! ### a concrete case: the data of `Demo.mixedData` -/

namespace Demo
theorem mixed_fit_irep_plain : ∃ c', FittedBy (.irepPlain S0) R0 F P mixedData .nothing newIrep c' := by
  obtain ⟨g', c', h⟩ := C74_irep_plain_fit_on_valid_data R0 R0_lawful S0 F F_lawful P P_lawful mixedData mixed_valid .nothing
    { rules := [] } rfl (by rintro f ⟨r, hr, _⟩; simp at hr) (by simp) newIrep (Or.inl (by decide +kernel))
    (by decide +kernel) 7 (by decide +kernel) ()
  exact ⟨c', 7, (), g', h⟩
end Demo

/-- Without the index only values found in both classes are tested (numbers below 9, and `x`), and the model answers. -/
example : Demo.seen (Method.fit (.irepPlain Demo.S0) 7 Demo.R0 Demo.F Demo.P Demo.mixedData .nothing () Demo.newIrep) =
    (some [[⟨Demo.fn, .str p!"<9.0"⟩, ⟨Demo.fa, Demo.vx⟩]], [(Demo.fn, [p!"<9.0", p!"9.0 - 17.0", p!">17.0"])],
      .ok [true, true, false, false, false, false]) := by decide +kernel

/-- A second fit from the first model: its list of possible conditions is inherited. -/
example : let c := after (Method.fit (.irepPlain Demo.S0) 7 Demo.R0 Demo.F Demo.P Demo.mixedData .nothing () Demo.newIrep)
    (after (Method.fit (.irepPlain Demo.S0) 7 Demo.R0 Demo.F Demo.P Demo.mixedData (.clf c) () Demo.newIrep)).ruleset.map
      (fun rs => (rs.possible.getD []).length) = some 4 := by decide +kernel

end Witt
