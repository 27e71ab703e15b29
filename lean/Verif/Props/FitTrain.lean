import Verif.Props.FitApi
import Verif.Props.Separate
/-
What a fitted object answers on the data it was fitted on (C12, C69, C73 for the API), and `fit(..., cn_optimize=False)`
for the API (C62, C70, C71, C72, C74).
-/
namespace Witt
open Spec

/-- The answers of a fitted object on its training data, in terms of the discretised training rows. -/
theorem fit_answers [Arith] [Arith.Lawful] {a : Method} {fuel : Nat} {R : PyRandom} {F : PyFloat} (hF : F.Lawful) {P : PandasCut} (hP : P.Lawful F)
    {d : FitData} (hv : ValidInput d) (hn : d.names = none) (hd : d.X.cols.Nodup) (hX : d.X.UniqueIndex) {init : ModelArg}
    (hinit : ∀ start, init.toRuleset = .ok start → ∀ f, Tested start f → f ∈ d.X.cols ∧ f ≠ classFeatName d.classFeat d.y)
    (hold : a.sets ≠ none → ∀ start, init.toRuleset = .ok start → ∀ cond ∈ start.possible.getD [],
      cond.feature ∈ d.X.cols ∧ cond.feature ≠ classFeatName d.classFeat d.y)
    {g g' : R.G} {c c' : Clf} (h : a.fit fuel R F P d init g c = .ok g' c') :
    ∃ df0 df pc b start m G K ps, toTraining d.X d.y (classFeatName d.classFeat d.y) d.names = .ok df0 ∧
      init.toRuleset = .ok start ∧
      a.train fuel R c.hyper start.possible (start.rules.map Rule.conds) df.toFrame (classFeatName d.classFeat d.y) pc g
        = .ok (m, g') ∧
      c' = c.fitted m b (classFeatName d.classFeat d.y) pc ∧
      df = df0.mapAll G K ∧ df.index = rowLabels d ∧
      (∀ v, G (classFeatName d.classFeat d.y) v = v) ∧
      (∀ (cond : Cond) (row : Row), cond.feature ∈ df0.cols →
        (Same (G cond.feature (row.cell cond.feature)) cond.val ↔ RawMeets F b df0 row cond)) ∧
      (∀ f ∈ df0.cols, (∀ v, G f v = v) ∨ ∀ v, (∃ s, G f v = .str s) ∨ G f v = .nan) ∧
      Clf.predict F d.X none c' = .ok ps c' ∧ ps.length = d.X.rows.length ∧
      ∀ i, i < d.X.rows.length → ∃ row0, df0.rows[i]? = some row0 ∧
        some (row0.cell (classFeatName d.classFeat d.y)) = trueLabel d i ∧
        (ps[i]? = some true ↔ FiresAny { row0 with cell := fun f => G f (row0.cell f) } m.ruleset.rules) := by
  have hd' : (d.names.getD d.X.cols).Nodup := by rw [hn]; exact hd
  have hby : FittedBy a R F P d init c c' := ⟨fuel, g, g', h⟩
  obtain ⟨ps, hps, hlen⟩ := C11_predict_training_data a R F hF P hP d hv hn hd init hinit hold c c' hby
  obtain ⟨rs, b', hrs, hb', _, hraw⟩ := C64_conditions_on_raw_data a R F hF P hP d hd' init c c' hby d.X hX ps hps
  obtain ⟨df0, df, pc, b, start, m, G, K, ht, hpc, hst, htrain, rfl, hdf, _, hcf, hGcf, hm, hshape⟩ := Method.fit_frames hF hP hd' h
  cases hrs
  cases hb'
  have hidx : df.index = rowLabels d := by
    obtain ⟨_, df1, h2, h3⟩ := valid_toTraining hv
    rw [ht] at h2; injection h2 with h2
    rw [← h3, ← h2, hdf]
    simp [Frame.index, TFrame.mapAll, Function.comp_def]
  refine ⟨df0, df, pc, b', start, m, G, K, ps, ht, hst, htrain, rfl, hdf, hidx, hGcf, hm, hshape, hps, hlen, ?_⟩
  obtain ⟨_, f2, _⟩ := Method.train_facts htrain
  have hfeat : ∀ r ∈ m.ruleset.rules, ∀ cond ∈ r.conds, cond.feature ∈ df0.cols ∧ cond.feature ≠ classFeatName d.classFeat d.y := by
    intro r hr cond hc
    have hX1 : ∀ f, f ∈ d.X.cols → f ∈ df0.cols := by
      intro f hf
      have := ((toTraining_ok ht).2.1 f).mpr
      rw [hn] at this
      exact this (Or.inl hf)
    rcases Method.train_selected htrain _ (f2 _ ⟨r, hr, cond, hc, rfl⟩) with ⟨r0, hr0, x, hx, he⟩ | ⟨hs, x, hx, he⟩ | ⟨h7, h8⟩
    · obtain ⟨r1, hr1, rfl⟩ := List.mem_map.mp hr0
      rw [← he]
      have := hinit start hst _ ⟨r1, hr1, x, hx, rfl⟩
      exact ⟨hX1 _ this.1, this.2⟩
    · rw [← he]
      have := hold hs start hst x hx
      exact ⟨hX1 _ this.1, this.2⟩
    · rw [hdf] at h7
      exact ⟨h7, h8⟩
  obtain ⟨hkind, hrows⟩ := toTraining_kind hv hn ht
  intro i hi
  obtain ⟨row0, hrow0, hcells, hlab⟩ := hrows i _ (List.getElem?_eq_getElem hi)
  refine ⟨row0, hrow0, hlab, ?_⟩
  rw [hraw i hi]
  unfold FiresAny Fires FiresC Meets
  constructor
  · rintro ⟨r, hr, hall⟩
    refine ⟨r, hr, fun cond hc => ?_⟩
    obtain ⟨h1, h2⟩ := hfeat r hr cond hc
    exact (hm cond row0 h1).mpr ((rawMeets_congr (hkind _ h2) (hcells _ h2)).mpr (hall cond hc))
  · rintro ⟨r, hr, hall⟩
    refine ⟨r, hr, fun cond hc => ?_⟩
    obtain ⟨h1, h2⟩ := hfeat r hr cond hc
    exact (rawMeets_congr (hkind _ h2) (hcells _ h2)).mp ((hm cond row0 h1).mp (hall cond hc))

/-! ### names -/

theorem lookup_zip_getElem {α β : Type} [BEq α] [LawfulBEq α] : ∀ (l : List α) (l' : List β) (i : Nat) (hi : i < l.length)
    (hi' : i < l'.length), l.Nodup → List.lookup l[i] (l.zip l') = some l'[i] := by
  intro l
  induction l with
  | nil => intro l' i hi; simp at hi
  | cons a l ih =>
    intro l' i hi hi' hn
    cases l' with
    | nil => simp at hi'
    | cons b l' =>
      cases i with
      | zero => simp
      | succ i =>
        simp only [List.getElem_cons_succ, List.zip_cons_cons, List.lookup]
        have hne : (l[i]'(by simpa using hi) == a) = false := by
          rw [beq_eq_false_iff_ne]
          intro he
          exact (List.nodup_cons.mp hn).1 (he ▸ List.getElem_mem _)
        rw [hne]
        exact ih l' i (by simpa using hi) (by simpa using hi') (List.nodup_cons.mp hn).2

/-- C66. `feature_names` names the columns by position: a wrong number of names is a ValueError; otherwise rows and row labels
stay, and under the i-th name (names being distinct) stand the cells and the dtype of the i-th column. -/
theorem C66_names_by_position (X : TFrame) (ns : List Feat) :
    (ns.length ≠ X.cols.length → X.rename ns = .error .valueError) ∧
    (ns.length = X.cols.length → ∃ X', X.rename ns = .ok X' ∧ X'.cols = ns ∧ X'.index = X.index ∧
      X'.rows.length = X.rows.length ∧
      (ns.Nodup → ∀ (i : Nat) (hi : i < ns.length) (hi' : i < X.cols.length), X'.kind ns[i] = X.kind X.cols[i] ∧
        ∀ (j : Nat) (hj : j < X'.rows.length) (hj' : j < X.rows.length),
          X'.rows[j].cell ns[i] = X.rows[j].cell X.cols[i])) := by
  refine ⟨fun h => by unfold TFrame.rename; rw [if_pos h], fun h => ?_⟩
  refine ⟨_, by unfold TFrame.rename; rw [if_neg (not_not.mpr h)], rfl, by simp [Frame.index, Function.comp_def], by simp, ?_⟩
  intro hn i hi hi'
  have hl : oldName ns X.cols ns[i] = some X.cols[i] := lookup_zip_getElem ns X.cols i hi hi' hn
  refine ⟨by simp only [hl, Option.map_some, Option.getD_some], fun j hj hj' => ?_⟩
  simp only [List.getElem_map, hl, Option.map_some, Option.getD_some]

theorem preprocessTraining_rename {F : PyFloat} {P : PandasCut} {d : FitData} {ns : List Feat} {X' : TFrame}
    (hn : d.names = some ns) (h : d.X.rename ns = .ok X') (n : Option Nat) :
    preprocessTraining F P n d = preprocessTraining F P n { d with X := X', names := none } := by
  have hX : X'.cols = ns ∧ (X'.rows = [] ↔ d.X.rows = []) := by
    unfold TFrame.rename at h
    split at h
    · cases h
    · cases h; exact ⟨rfl, by simp⟩
  unfold preprocessTraining
  have h1 : checkInput d.X d.y d.classFeat d.names = checkInput X' d.y d.classFeat none := by
    unfold checkInput
    rw [hn]
    simp only [hX.1, Option.getD_some, Option.getD_none, hX.2]
  have h2 : toTraining d.X d.y (classFeatName d.classFeat d.y) d.names = toTraining X' d.y (classFeatName d.classFeat d.y) none := by
    unfold toTraining
    rw [hn]
    simp only [h]
  simp only [h1, h2]

/-- C66 for `fit`. Fitting data with `feature_names` is fitting the renamed data: same object, same exceptions. -/
theorem C66_fit_names_rename [Arith] (a : Method) (fuel : Nat) (R : PyRandom) (F : PyFloat) (P : PandasCut) (d : FitData)
    (ns : List Feat) (X' : TFrame) (hn : d.names = some ns) (h : d.X.rename ns = .ok X') (init : ModelArg) (g : R.G) (c : Clf) :
    a.fit fuel R F P d init g c = a.fit fuel R F P { d with X := X', names := none } init g c := by
  have key := preprocessTraining_rename (F := F) (P := P) hn h
  cases a <;> simp only [Method.fit, Clf.irepFit, Clf.ripperFit, Clf.irepFitPlain, Clf.ripperFitPlain, key]

/-! ### training data reproduced -/

namespace Spec
/-- Two raw rows which, with the bins `b`, no condition on a column other than `cf` tells apart. -/
def RawAlike (F : PyFloat) (b : Binner) (X : TFrame) (cf : Feat) (row row' : Row) : Prop :=
  ∀ cond : Cond, cond.feature ∈ X.cols → cond.feature ≠ cf → (RawMeets F b X row cond ↔ RawMeets F b X row' cond)
/-- Every column other than `cf` has a condition that the raw row meets: nothing is missing. -/
def RawComplete (F : PyFloat) (b : Binner) (X : TFrame) (cf : Feat) (row : Row) : Prop :=
  ∀ f ∈ X.cols, f ≠ cf → ∃ v, RawMeets F b X row ⟨f, v⟩
end Spec

/-- C69 for the API. `IREP(prune_size=None)` (or 0) without limits and initial model, fitted on valid data with distinct row
labels in which nothing prints like something else. If no positive row has a missing value or looks, after discretisation, like
a negative one, then predict on that data answers True on exactly the rows of the positive class. -/
theorem C69_irep_fit_reproduces_training_data [Arith] [Arith.Lawful] (R : PyRandom) (hR : R.Lawful) (F : PyFloat) (hF : F.Lawful) (P : PandasCut)
    (hP : P.Lawful F) (d : FitData) (hv : ValidInput d) (hn : d.names = none) (hd : d.X.cols.Nodup) (hu : (rowLabels d).Nodup)
    (hX : d.X.UniqueIndex) (c c' : Clf) (h : FittedBy .irep R F P d .nothing c c')
    (df0 : TFrame) (hdf0 : toTraining d.X d.y (classFeatName d.classFeat d.y) d.names = .ok df0)
    (hr : ReadsApart df0.toFrame (classFeatName d.classFeat d.y)) (pc : Val) (hpc : c'.posClass = some pc)
    (b : Binner) (hb : c'.binner = some b)
    (hm : ∀ row ∈ df0.rows, Positive (classFeatName d.classFeat d.y) pc row →
      RawComplete F b df0 (classFeatName d.classFeat d.y) row)
    (hc : ∀ row ∈ df0.rows, ∀ row' ∈ df0.rows, Positive (classFeatName d.classFeat d.y) pc row →
      RawAlike F b df0 (classFeatName d.classFeat d.y) row row' → Positive (classFeatName d.classFeat d.y) pc row')
    (hprune : c.hyper.irepPrune = 0) (hl : c.hyper.lim = {}) (hs : Arith.SharpUpTo d.X.rows.length) :
    ∃ ps, Clf.predict F d.X none c' = .ok ps c' ∧ ps.length = d.X.rows.length ∧
      ∀ i, i < d.X.rows.length → (ps[i]? = some true ↔ ∃ v, trueLabel d i = some v ∧ Same v pc) := by
  obtain ⟨fuel, g, g', h⟩ := h
  obtain ⟨df1, df, pc1, b1, start, m, G, K, ps, ht, hst, htrain, rfl, hdf, hidx, hGcf, hmeets, hshape, hps, hlen, hans⟩ :=
    fit_answers hF hP hv hn hd hX (init := .nothing)
      (by intro start hs f hf; cases hs; obtain ⟨r, hr, _⟩ := hf; simp at hr) (by intro hs; exact absurd rfl hs) h
  rw [hdf0] at ht; injection ht with ht; subst ht
  obtain rfl : pc = pc1 := by injection hpc with hpc; exact hpc.symm
  have hb' : b1 = b := by simpa [Clf.fitted] using hb
  subst hb'
  cases hst
  generalize classFeatName d.classFeat d.y = cf at *
  have hpos : ∀ row : Row, Positive cf pc { row with cell := fun f => G f (row.cell f) } ↔ Positive cf pc row := by
    intro row; unfold Positive; simp only [hGcf]
  have hu' : df.UniqueIndex := by unfold Frame.UniqueIndex; rw [hidx]; exact hu
  have hra : ReadsApart df.toFrame cf := by rw [hdf]; exact mapAll_readsApart hr hshape
  have hmiss : ∀ row ∈ df.rows, Positive cf pc row → NoMissing df.toFrame cf row := by
    intro row hrow hp f hf hne hnan
    rw [hdf] at hrow hf
    obtain ⟨row0, hrow0, rfl⟩ := List.mem_map.mp hrow
    obtain ⟨v, hv'⟩ := hm row0 hrow0 ((hpos row0).mp hp) f hf hne
    have := (hmeets ⟨f, v⟩ row0 hf).mpr hv'
    simp only at this hnan
    rw [hnan] at this
    rcases this with ⟨s, h, _⟩ | ⟨q, t, u, h, _⟩ <;> cases h
  have hcons : Consistent df.toFrame cf pc := by
    intro x hx y hy hp hal
    rw [hdf] at hx hy
    obtain ⟨x0, hx0, rfl⟩ := List.mem_map.mp hx
    obtain ⟨y0, hy0, rfl⟩ := List.mem_map.mp hy
    refine (hpos y0).mpr (hc x0 hx0 y0 hy0 ((hpos x0).mp hp) ?_)
    intro cond hcol hne
    rw [← hmeets cond x0 hcol, ← hmeets cond y0 hcol]
    have hs := hal cond.feature (by rw [hdf]; exact hcol) hne
    exact ⟨fun h => same_trans' (same_symm' hs) h, fun h => same_trans' hs h⟩
  obtain ⟨p, hp1, hp2⟩ := C27_irep_covers_positives_data R c.hyper hprune (by rw [hl]; exact ⟨rfl, rfl, rfl⟩) df.toFrame cf pc
    hu' hra fuel g g' m htrain
  have hno := C69_irep_no_false_positives R hR c.hyper hprune (by rw [hl]; exact ⟨rfl, rfl⟩) df.toFrame cf pc hu'
    (by rw [hdf]; show Arith.SharpUpTo (List.map _ df0.rows).length; rw [List.length_map, (toTraining_ok hdf0).1]; exact hs)
    hmiss hcons fuel
    g g' m htrain
  have hfeat : HasFeatures (df.toFrame.dropCol cf) m.ruleset.rules := by
    intro r hr' cond hc
    rcases C29_irep_no_leakage R c.hyper _ _ _ _ fuel g g' m htrain r hr' with h | h
    · simp at h
    · exact Frame.mem_dropCol.mpr ⟨(h cond hc).1.1, (h cond hc).1.2.1⟩
  have hpu := Ruleset.predict_unique (df := df.toFrame.dropCol cf) (rs := m.ruleset) hu' (Or.inr hfeat)
  rw [hp1] at hpu
  injection hpu with hpu
  refine ⟨ps, hps, hlen, fun i hi => ?_⟩
  obtain ⟨row0, hrow0, hlab, hiff⟩ := hans i hi
  rw [hiff]
  have hrow : df.rows[i]? = some { row0 with cell := fun f => G f (row0.cell f) } := by
    rw [hdf]; simp [TFrame.mapAll, hrow0]
  have hmem := List.mem_of_getElem? hrow
  have hP' : (∃ v, trueLabel d i = some v ∧ Same v pc) ↔ Positive cf pc row0 := by
    rw [← hlab]
    constructor
    · rintro ⟨v, hv', hs⟩; cases hv'; exact hs
    · intro hs; exact ⟨_, rfl, hs⟩
  rw [hP', ← hpos row0]
  constructor
  · exact hno _ hmem
  · intro hpp
    have := congrArg (fun l => l[i]?) hpu
    simp only [List.getElem?_map] at this
    have e : (df.toFrame.dropCol cf).rows[i]? = some { row0 with cell := fun f => G f (row0.cell f) } := hrow
    have e' : df.toFrame.rows[i]? = some { row0 with cell := fun f => G f (row0.cell f) } := hrow
    rw [e, e', Option.map_some, Option.map_some, Option.some.injEq] at this
    rw [← rulesMet_iff, ← this]
    exact hp2 _ hmem hpp

namespace Demo
/-- Exclusive or, with a list of labels. -/
def xorX : TFrame := { Frame.ofTable [fa, fb] [(0, [vx, vx]), (1, [vy, vy]), (2, [vx, vy]), (3, [vy, vx])] with kind := fun _ => .text }
def xorData : FitData := { X := xorX, y := some (.list [vp, vp, vn, vn]), posClass := some vp }
def xorDf : TFrame := xorX.setCol (.name p!"Class") [vp, vp, vn, vn]
theorem xor_valid : ValidInput xorData where
  rows := by decide +kernel
  names := by intro ns h; cases h
  labels := Or.inl ⟨_, rfl, by decide +kernel⟩
  positive := Or.inl (by intro h; cases h)
end Demo

/-- The hypotheses of `C69_irep_fit_reproduces_training_data` hold of exclusive or, which no single condition decides, and its
conclusion is visible. -/
example : ValidInput Demo.xorData ∧ Demo.xorData.X.cols.Nodup ∧ (rowLabels Demo.xorData).Nodup ∧ Demo.xorData.X.UniqueIndex ∧
    toTraining Demo.xorData.X Demo.xorData.y (classFeatName Demo.xorData.classFeat Demo.xorData.y) Demo.xorData.names = .ok Demo.xorDf ∧
    ReadsApart Demo.xorDf.toFrame (.name p!"Class") ∧
    (∃ c', FittedBy .irep Demo.R0 Demo.F Demo.P Demo.xorData .nothing Demo.newIrep c' ∧
      returned (Clf.predict Demo.F Demo.xorX none c') = .ok [true, true, false, false] ∧
      ∃ b, c'.binner = some b ∧
      (∀ row ∈ Demo.xorDf.rows, RawComplete Demo.F b Demo.xorDf (.name p!"Class") row) ∧
      (∀ row ∈ Demo.xorDf.rows, ∀ row' ∈ Demo.xorDf.rows, Positive (.name p!"Class") Demo.vp row →
        RawAlike Demo.F b Demo.xorDf (.name p!"Class") row row' → Positive (.name p!"Class") Demo.vp row')) := by
  refine ⟨Demo.xor_valid, by decide +kernel, by decide +kernel, by unfold Frame.UniqueIndex; decide +kernel, rfl, ?_, ?_⟩
  · refine ⟨by decide +kernel, by decide +kernel, ?_⟩
    intro f hf hne row hr row' hr' _ _ he
    have hall : ∀ f ∈ Demo.xorDf.cols, ∀ row ∈ Demo.xorDf.rows, ∀ row' ∈ Demo.xorDf.rows,
        (row.cell f).text = (row'.cell f).text → (row.cell f).pyEq (row'.cell f) = true := by decide +kernel
    exact Val.pyEq_iff.mp (hall f hf row hr row' hr' he)
  · obtain ⟨g', c', h⟩ := C35_irep_fit_on_valid_data Demo.R0 Demo.R0_lawful Demo.F Demo.F_lawful Demo.P Demo.P_lawful Demo.xorData
      Demo.xor_valid .nothing { rules := [] } rfl (by rintro f ⟨r, hr, _⟩; simp at hr) Demo.newIrep
      (Or.inl (by decide +kernel)) (by decide +kernel) 5 (by decide +kernel) ()
    have hc' : c' = after (Clf.irepFit 5 Demo.R0 Demo.F Demo.P Demo.xorData .nothing () Demo.newIrep) := by rw [h]; rfl
    have hb : (after (Clf.irepFit 5 Demo.R0 Demo.F Demo.P Demo.xorData .nothing () Demo.newIrep)).binner.map Binner.bins = some [] := by
      decide +kernel
    rw [← hc'] at hb
    obtain ⟨b, hb1, hb2⟩ := Option.map_eq_some_iff.mp hb
    have hraw : ∀ row cond, RawMeets Demo.F b Demo.xorDf row cond ↔ Meets row cond := by
      intro row cond
      unfold RawMeets
      rw [hb2]
      simp
    refine ⟨c', ⟨5, (), g', h⟩, by rw [hc']; decide +kernel, b, hb1, ?_, ?_⟩
    · intro row hrow f hf _
      refine ⟨row.cell f, (hraw _ _).mpr ?_⟩
      have hall : ∀ f ∈ Demo.xorDf.cols, ∀ row ∈ Demo.xorDf.rows, (row.cell f).pyEq (row.cell f) = true := by decide +kernel
      exact Val.pyEq_iff.mp (hall f hf row hrow)
    · have hall : ∀ row ∈ Demo.xorDf.rows, ∀ row' ∈ Demo.xorDf.rows, Positive (.name p!"Class") Demo.vp row →
          (∀ f ∈ [Demo.fa, Demo.fb], Meets row' ⟨f, row.cell f⟩) → Positive (.name p!"Class") Demo.vp row' := by
        unfold Meets
        decide +kernel
      intro row hrow row' hrow' hp hal
      refine hall row hrow row' hrow' hp (fun f hf => ?_)
      have hcol : ∀ f ∈ [Demo.fa, Demo.fb], f ∈ Demo.xorDf.cols ∧ f ≠ .name p!"Class" := by decide +kernel
      obtain ⟨h1, h2⟩ := hcol f hf
      have := hal ⟨f, row.cell f⟩ h1 h2
      rw [hraw, hraw] at this
      refine this.mp ?_
      have hself : ∀ f ∈ Demo.xorDf.cols, ∀ row ∈ Demo.xorDf.rows, (row.cell f).pyEq (row.cell f) = true := by decide +kernel
      exact Val.pyEq_iff.mp (hself f h1 row hrow)

/-! ### predictions depend on the tested cells only -/

/-- C12 for fitted models. Two frames with distinct row labels, of the same length, that agree on the cells of every column the
fitted rules test, and on the dtypes of those columns: if predict answers on both, the answers are the same. -/
theorem C12_fitted_models [Arith] (a : Method) (R : PyRandom) (F : PyFloat) (hF : F.Lawful) (P : PandasCut) (hP : P.Lawful F)
    (d : FitData) (hd : (d.names.getD d.X.cols).Nodup) (init : ModelArg) (c c' : Clf)
    (h : FittedBy a R F P d init c c') (X Y : TFrame) (hX : X.UniqueIndex) (hY : Y.UniqueIndex)
    (hlen : X.rows.length = Y.rows.length)
    (hsame : ∀ rs f, c'.ruleset = some rs → Tested rs f → X.kind f = Y.kind f ∧
      X.rows.map (·.cell f) = Y.rows.map (·.cell f)) (ps qs : List Bool)
    (hp : Clf.predict F X none c' = .ok ps c') (hq : Clf.predict F Y none c' = .ok qs c') : ps = qs := by
  obtain ⟨rs, b, h1, h2, h3, h4⟩ := C64_conditions_on_raw_data a R F hF P hP d hd init c c' h X hX ps hp
  obtain ⟨rs', b', h1', h2', h3', h4'⟩ := C64_conditions_on_raw_data a R F hF P hP d hd init c c' h Y hY qs hq
  rw [h1] at h1'; cases h1'
  rw [h2] at h2'; cases h2'
  refine List.ext_getElem (by omega) (fun i hi hi' => ?_)
  have hx : i < X.rows.length := by omega
  have hy : i < Y.rows.length := by omega
  have key : ps[i]? = some true ↔ qs[i]? = some true := by
    rw [h4 i hx, h4' i hy]
    have hc : ∀ r ∈ rs.rules, ∀ cond ∈ r.conds,
        (RawMeets F b X X.rows[i] cond ↔ RawMeets F b Y Y.rows[i] cond) := by
      intro r hr cond hcd
      obtain ⟨e1, e2⟩ := hsame rs cond.feature h1 ⟨r, hr, cond, hcd, rfl⟩
      refine rawMeets_congr e1 ?_
      have := congrArg (fun l => l[i]?) e2
      simpa [List.getElem?_eq_getElem hx, List.getElem?_eq_getElem hy] using this
    constructor
    · rintro ⟨r, hr, hall⟩; exact ⟨r, hr, fun cond hcd => (hc r hr cond hcd).mp (hall cond hcd)⟩
    · rintro ⟨r, hr, hall⟩; exact ⟨r, hr, fun cond hcd => (hc r hr cond hcd).mpr (hall cond hcd)⟩
  rw [List.getElem?_eq_getElem hi, List.getElem?_eq_getElem hi', Option.some.injEq, Option.some.injEq] at key
  cases hpi : ps[i] <;> cases hqi : qs[i] <;> simp_all

end Witt
