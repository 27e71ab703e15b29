import Verif.Lemmas.ClfFit
import Verif.Lemmas.ClfPlain
import Verif.Params
import Verif.Props.Proba
import Verif.Props.Plain
import Verif.Props.Api
/-
Properties of `fit` on classifier objects, from raw data to answers: C64 (range conditions mean what they say),
C11, C41 (fitted models), C26, C34, C35, C36, C29, C27 at the level of the API, C62 (failed fits).
-/
namespace Witt
open Spec

/-- A learning algorithm and the `cn_optimize` argument of `fit`. -/
inductive Method
  /-- `IREP.fit(...)`, with the coverage index -/
  | irep
  /-- `RIPPER.fit(...)`, with the coverage index -/
  | ripper
  /-- `IREP.fit(..., cn_optimize=False)`; `S` is how Python enumerates sets of values -/
  | irepPlain (S : SetOps)
  /-- `RIPPER.fit(..., cn_optimize=False)` -/
  | ripperPlain (S : SetOps)

/-- `fit` with the default `cn_optimize=True`. -/
def Algo.indexed : Algo → Method
  | .irep => .irep
  | .ripper => .ripper

/-- `fit` with `cn_optimize=False`. -/
def Algo.plain (S : SetOps) : Algo → Method
  | .irep => .irepPlain S
  | .ripper => .ripperPlain S

/-- How sets of values are enumerated, if that matters: with `cn_optimize=False`. -/
def Method.sets : Method → Option SetOps
  | .irep => none
  | .ripper => none
  | .irepPlain S => some S
  | .ripperPlain S => some S

/-- irep.py 94-235, ripper.py 115-390: the `fit` method of an IREP or RIPPER object. -/
def Method.fit [Arith] (a : Method) (fuel : Nat) (R : PyRandom) (F : PyFloat) (P : PandasCut) (d : FitData) (init : ModelArg)
    (g : R.G) : OnClf R.G :=
  match a with
  | .irep => Clf.irepFit fuel R F P d init g
  | .ripper => Clf.ripperFit fuel R F P d init g
  | .irepPlain S => Clf.irepFitPlain fuel R S F P d init g
  | .ripperPlain S => Clf.ripperFitPlain fuel R S F P d init g

/-- The same on preprocessed data, from an initial model with candidate conditions `old` and rules `init`. -/
def Method.train [Arith] (a : Method) (fuel : Nat) (R : PyRandom) (hp : Hyper) (old : Option (List Cond)) (init : List (List Cond))
    (df : Frame) (cf : Feat) (pc : Val) (g : R.G) : Except PyErr (Fitted × R.G) :=
  match a with
  | .irep => irepFit fuel R hp init df cf pc g
  | .ripper => ripperFit fuel R hp init df cf pc g
  | .irepPlain S => irepFitPlain fuel R S hp old init df cf pc g
  | .ripperPlain S => ripperFitPlain fuel R S hp old init df cf pc g

theorem Method.fit_ok [Arith] {a : Method} {fuel : Nat} {R : PyRandom} {F : PyFloat} {P : PandasCut} {d : FitData} {init : ModelArg}
    {g g' : R.G} {c c' : Clf} (h : a.fit fuel R F P d init g c = .ok g' c') :
    ∃ df cf pc b start m, preprocessTraining F P c.nBins d = .ok (df, cf, pc, b) ∧
      init.toRuleset = .ok start ∧
      a.train fuel R c.hyper start.possible (start.rules.map Rule.conds) df.toFrame cf pc g = .ok (m, g') ∧
      c' = c.fitted m b cf pc := by
  cases a
  · exact (Clf.irepFit_run fuel R F P d init g c).2 g' c' h
  · exact (Clf.ripperFit_run fuel R F P d init g c).2 g' c' h
  · exact (Clf.irepFitPlain_run fuel R _ F P d init g c).2 g' c' h
  · exact (Clf.ripperFitPlain_run fuel R _ F P d init g c).2 g' c' h

/-! ### fitted objects -/

theorem recalibrate_calibrated {rs rs' : Ruleset} {df : Frame} {cf : Feat} {pc : Val} {alpha : Rat}
    (h : recalibrate rs df cf pc alpha = (rs', none)) : Calibrated rs' := by
  have hcal : ∀ (ns : Int × Int) (old c : Calib), calibrate alpha ns old = (c, none) → c.smoothed ≠ none := by
    intro ns old c hc
    unfold calibrate at hc
    cases hs : smoothedRates alpha ns with
    | error e => rw [hs] at hc; simp at hc
    | ok s =>
      rw [hs] at hc
      simp only [Prod.mk.injEq, and_true] at hc
      rw [← hc]; simp
  have hrules : ∀ (l l' : List Rule), recalRules df cf pc alpha l = (l', none) → ∀ r ∈ l', r.cal.smoothed ≠ none := by
    intro l
    induction l with
    | nil => intro l' hl r hr; cases hl; simp at hr
    | cons r0 l ih =>
      intro l' hl r hr
      unfold recalRules at hl
      rcases hr0 : recalRule df cf pc alpha r0 with ⟨r1, o⟩
      rw [hr0] at hl
      cases o with
      | some e => simp at hl
      | none =>
        simp only [Prod.mk.injEq] at hl
        rcases hrest : recalRules df cf pc alpha l with ⟨l1, o⟩
        rw [hrest] at hl
        obtain ⟨rfl, rfl⟩ := hl
        rcases List.mem_cons.mp hr with rfl | hr
        · unfold recalRule at hr0
          split at hr0
          · simp at hr0
          · rename_i ns _
            simp only [Prod.mk.injEq] at hr0
            obtain ⟨rfl, h2⟩ := hr0
            exact hcal ns r0.cal _ (Prod.ext rfl h2)
        · exact ih _ hrest r hr
  unfold recalibrate at h
  split at h
  · simp at h
  · rcases hl : recalRules df cf pc alpha rs.rules with ⟨l, o⟩
    rw [hl] at h
    cases o with
    | some e => simp at h
    | none =>
      simp only at h
      split at h
      · simp at h
      · rename_i ns _
        simp only [Prod.mk.injEq] at h
        obtain ⟨rfl, h2⟩ := h
        exact ⟨hcal ns _ _ (Prod.ext rfl h2), hrules _ _ hl⟩

theorem selected_of_conds {rs : Ruleset} {rules : List (List Cond)} {sel : List Feat} {m : Option Int}
    (h1 : rs.rules.map Rule.conds = finish m rules)
    (h2 : sel = Ruleset.selectedFeatures { rules := rules.map (fun c => { conds := c }) }) :
    ∀ f, Tested rs f → f ∈ sel := by
  rintro f ⟨r, hr, c, hc, rfl⟩
  rw [h2, mem_selected]
  have : r.conds ∈ rules := (finish_sublist m rules).subset (h1 ▸ List.mem_map.mpr ⟨r, hr, rfl⟩)
  exact ⟨{ conds := r.conds }, List.mem_map.mpr ⟨_, this, rfl⟩, c, hc, rfl⟩

/-- What training guarantees whatever the algorithm. -/
theorem Method.train_facts [Arith] {a : Method} {fuel : Nat} {R : PyRandom} {hp : Hyper} {old : Option (List Cond)}
    {init : List (List Cond)} {df : Frame} {cf : Feat} {pc : Val} {g g' : R.G} {m : Fitted}
    (h : a.train fuel R hp old init df cf pc g = .ok (m, g')) :
    Calibrated m.ruleset ∧ (∀ f, Tested m.ruleset f → f ∈ m.selected) ∧ m.trainFeats = (df.dropCol cf).cols := by
  cases a with
  | irep =>
    obtain ⟨_, cn, st, _, _, h1, h2, h3, ⟨rs1, h4, h5, h6⟩, _⟩ := irepFit_ok h
    have hc := recalibrate_calibrated h4
    exact ⟨⟨by rw [h6]; exact hc.1, fun r hr => hc.2 r (h5 r hr)⟩, selected_of_conds h1 h2, h3⟩
  | ripper =>
    obtain ⟨_, cn, rules, _, _, h1, h2, h3, rs0, _, h4⟩ := ripperFit_ok h
    exact ⟨recalibrate_calibrated h4, selected_of_conds h1 h2, h3⟩
  | irepPlain S =>
    obtain ⟨_, _, st, _, h1, h2, h3, ⟨rs1, h4, h5, h6⟩, _⟩ := irepFitPlain_ok h
    have hc := recalibrate_calibrated h4
    exact ⟨⟨by rw [h6]; exact hc.1, fun r hr => hc.2 r (h5 r hr)⟩, selected_of_conds h1 h2, h3⟩
  | ripperPlain S =>
    obtain ⟨_, _, rules, _, h1, h2, h3, rs0, _, h4⟩ := ripperFitPlain_ok h
    exact ⟨recalibrate_calibrated h4, selected_of_conds h1 h2, h3⟩

namespace Spec
/-- A classifier left by a successful `fit` (of either class, with any `cn_optimize`, from any previous state). -/
def FittedBy [Arith] (a : Method) (R : PyRandom) (F : PyFloat) (P : PandasCut) (d : FitData) (init : ModelArg) (c c' : Clf) : Prop :=
  ∃ fuel g g', a.fit fuel R F P d init g c = .ok g' c'
end Spec

/-- A fitted classifier: which attributes it has, and what they hold. -/
theorem FittedBy.ready [Arith] {a : Method} {R : PyRandom} {F : PyFloat} (hF : F.Lawful) {P : PandasCut} (hP : P.Lawful F)
    {d : FitData} (hd : (d.names.getD d.X.cols).Nodup) {init : ModelArg} {c c' : Clf}
    (h : FittedBy a R F P d init c c') :
    ∃ rs b sel df0, Ready c' rs (classFeatName d.classFeat d.y) b sel ∧ Usable F b ∧ (∀ f, Tested rs f → f ∈ sel) ∧
      Calibrated rs ∧ df0.cols.Nodup ∧ b = Binner.fit F P c.nBins df0 [classFeatName d.classFeat d.y] := by
  obtain ⟨fuel, g, g', h⟩ := h
  obtain ⟨df, cf, pc, b, start, m, h1, _, h3, rfl⟩ := Method.fit_ok h
  obtain ⟨_, rfl, df0, ht, _, hb, _⟩ := preprocessTraining_ok h1
  obtain ⟨f1, f2, _⟩ := Method.train_facts h3
  have hn := (toTraining_ok ht).2.2 hd
  exact ⟨m.ruleset, b, m.selected, df0, ⟨rfl, rfl, ⟨_, rfl⟩, rfl, rfl, ⟨_, rfl⟩⟩, hb ▸ usable_fit hF hP hn, f2, f1, hn, hb⟩

/-- C41 for fitted models: after every successful `fit` of either algorithm, whatever `cn_optimize`, predict_proba answers exactly when
predict does, on any data, and raises the same when it raises. -/
theorem C41_fitted_models [Arith] (a : Method) (R : PyRandom) (F : PyFloat) (hF : F.Lawful) (P : PandasCut) (hP : P.Lawful F)
    (d : FitData) (hd : (d.names.getD d.X.cols).Nodup) (init : ModelArg) (c c' : Clf)
    (h : FittedBy a R F P d init c c') (X : TFrame) (names : Option (List Feat)) :
    ((∃ ps, returned (Clf.predict F X names c') = .ok ps) ↔ ∃ qs, returned (Clf.predictProba F X names c') = .ok qs) ∧
    ∀ e, returned (Clf.predict F X names c') = .error e ↔ returned (Clf.predictProba F X names c') = .error e := by
  obtain ⟨rs, b, sel, df0, h1, h2, h3, h4, _⟩ := FittedBy.ready hF hP hd h
  exact C41_proba_iff_predict F c' rs _ b sel h1 h2.1 h3 h4 X names

/-- C11 for fitted models: on non-empty data predict either answers with one prediction per row, or raises
IndexError (a stored feature is missing) or ValueError (a binned column holds foreign text); no other outcome. -/
theorem C11_fitted_models [Arith] (a : Method) (R : PyRandom) (F : PyFloat) (hF : F.Lawful) (P : PandasCut) (hP : P.Lawful F)
    (d : FitData) (hd : (d.names.getD d.X.cols).Nodup) (init : ModelArg) (c c' : Clf)
    (h : FittedBy a R F P d init c c') (X : TFrame) (hX : X.rows ≠ []) :
    ∃ sel b, c'.selected = some sel ∧ c'.binner = some b ∧
    (Clf.predict F X none c' = .error .indexError c' ↔
      ∃ f ∈ sel, ¬ (f ∈ X.cols ∧ f ≠ classFeatName d.classFeat d.y)) ∧
    (Clf.predict F X none c' = .error .valueError c' ↔
      (∀ f ∈ sel, f ∈ X.cols ∧ f ≠ classFeatName d.classFeat d.y) ∧ BadText b (X.dropCol (classFeatName d.classFeat d.y))) ∧
    ((∃ ps, Clf.predict F X none c' = .ok ps c' ∧ ps.length = X.rows.length) ↔
      (∀ f ∈ sel, f ∈ X.cols ∧ f ≠ classFeatName d.classFeat d.y) ∧
        ¬ BadText b (X.dropCol (classFeatName d.classFeat d.y))) := by
  obtain ⟨rs, b, sel, df0, h1, h2, h3, h4, _⟩ := FittedBy.ready hF hP hd h
  exact ⟨sel, b, h1.selected, h1.bins, C11_predict_outcome F c' rs _ b sel h1 h2 h3 X hX⟩

/-! ### C64 -/

namespace Spec
/-- What a condition says about a raw row, before any discretisation, given bins `b`: in a binned numeric column
the cell is a number inside the range that the condition's label denotes; in every other column the cell
equals the condition's value. -/
def RawMeets (F : PyFloat) (b : Binner) (X : TFrame) (row : Row) (c : Cond) : Prop :=
  (∃ labels, (c.feature, labels) ∈ b.bins ∧ X.kind c.feature ≠ .text ∧
    ∃ q t l iv, row.cell c.feature = .num q t ∧ c.val = .str l ∧ l ∈ labels ∧ textInterval F l = .ok iv ∧ Inside iv q) ∨
  ((c.feature ∉ b.bins.map Prod.fst ∨ X.kind c.feature = .text) ∧ Meets row c)
end Spec

theorem nodup_keys_eq {α β : Type} {l : List (α × β)} (h : (l.map Prod.fst).Nodup) {a : α} {b b' : β}
    (h1 : (a, b) ∈ l) (h2 : (a, b') ∈ l) : b = b' := by
  obtain ⟨i, hi, hi'⟩ := List.mem_iff_getElem.mp h1
  obtain ⟨j, hj, hj'⟩ := List.mem_iff_getElem.mp h2
  have : i = j := (List.nodup_iff_injective_get.mp h |> fun inj => by
    have := @inj ⟨i, by simpa using hi⟩ ⟨j, by simpa using hj⟩ (by simp [hi', hj'])
    exact congrArg Fin.val this)
  subst this
  rw [hi'] at hj'
  exact congrArg Prod.snd hj'

theorem applyBins_meets {F : PyFloat} (hF : F.Lawful) {P : PandasCut} (hP : P.Lawful F) {n : Option Nat}
    {df0 : TFrame} {ignore : List Feat} (hc : df0.cols.Nodup) {X X' : TFrame}
    (h : applyBins F (Binner.fit F P n df0 ignore) X = .ok X') :
    ∃ G K, X' = X.mapAll G K ∧ (∀ (c : Cond) (row : Row), c.feature ∈ X.cols →
      (Same (G c.feature (row.cell c.feature)) c.val ↔ RawMeets F (Binner.fit F P n df0 ignore) X row c)) ∧
      ∀ f ∈ X.cols, ((f ∉ (Binner.fit F P n df0 ignore).bins.map Prod.fst ∨ X.kind f = .text) → ∀ v, G f v = v) ∧
        (¬ (f ∉ (Binner.fit F P n df0 ignore).bins.map Prod.fst ∨ X.kind f = .text) →
          ∀ v, (∃ s, G f v = .str s) ∨ G f v = .nan) := by
  obtain ⟨G, K, h1, h2, h3⟩ := applyBins_ok (fit_keys_nodup hc) h
  refine ⟨G, K, h1, fun c row hcol => ?_, fun f hcol => ⟨fun hp => (h2 f (by tauto)).1, fun hp v => ?_⟩⟩
  swap
  · push Not at hp
    obtain ⟨⟨f', labels⟩, hm, hfeq⟩ := List.mem_map.mp hp.1
    simp only at hfeq
    subst hfeq
    obtain ⟨ivs, hr, _⟩ := C48_bins_partition F hF P hP n df0 ignore f' labels hm
    have hg := (h3 f' labels hm hcol hp.2).1
    rw [fit_featTransform hr] at hg
    injection hg with hg
    rw [← hg]
    unfold cutCell
    split
    · split
      · exact Or.inl ⟨_, rfl⟩
      · exact Or.inr rfl
    · exact Or.inr rfl
  by_cases hplain : c.feature ∉ (Binner.fit F P n df0 ignore).bins.map Prod.fst ∨ X.kind c.feature = .text
  · have hG := (h2 c.feature (by tauto)).1
    rw [hG]
    constructor
    · intro hs; exact Or.inr ⟨hplain, hs⟩
    · rintro (⟨labels, hm, hk, _⟩ | ⟨_, hs⟩)
      · rcases hplain with hp | hp
        · exact absurd (List.mem_map.mpr ⟨_, hm, rfl⟩) hp
        · exact absurd hp hk
      · exact hs
  · push Not at hplain
    obtain ⟨hin, hk⟩ := hplain
    obtain ⟨⟨f, labels⟩, hm, hfeq⟩ := List.mem_map.mp hin
    simp only at hfeq
    subst hfeq
    obtain ⟨ivs, hr, _, hpw, hpart⟩ := C48_bins_partition F hF P hP n df0 ignore c.feature labels hm
    have hg := (h3 c.feature labels hm hcol hk).1
    rw [fit_featTransform hr] at hg
    injection hg with hg
    rw [← hg]
    constructor
    · intro hs
      left
      refine ⟨labels, hm, hk, ?_⟩
      cases hcell : row.cell c.feature with
      | str s => rw [hcell] at hs; rcases hs with ⟨s', h', _⟩ | ⟨q, t, u, h', _⟩ <;> cases h'
      | nan => rw [hcell] at hs; rcases hs with ⟨s', h', _⟩ | ⟨q, t, u, h', _⟩ <;> cases h'
      | num q t =>
        rw [hcell] at hs
        rcases hpart q with ⟨_, hout⟩ | ⟨_, i, ⟨iv, hi, hiv⟩, hu⟩
        · rw [cutCell_outside hout] at hs
          rcases hs with ⟨s', h', _⟩ | ⟨q, t, u, h', _⟩ <;> cases h'
        · have hil : i < labels.length := by rw [← hr.2]; exact (List.getElem?_eq_some_iff.mp hi).1
          have hl : labels[i]? = some labels[i] := List.getElem?_eq_getElem hil
          obtain ⟨iv', hiv1, hiv2⟩ := (mapM_get hr.1).2 i _ hl
          have : iv' = iv := by rw [hi] at hiv2; exact (Option.some.inj hiv2).symm
          subst this
          simp only [cutCell, find_zip hi hl hiv (fun j iv' hj hq => hu j ⟨iv', hj, hq⟩)] at hs
          rcases hs with ⟨s', h', h''⟩ | ⟨q, t, u, h', _⟩
          · cases h'
            exact ⟨q, t, _, iv', rfl, h'', List.getElem_mem hil, hiv1, hiv⟩
          · cases h'
    · rintro (⟨labels', hm', _, q, t, l, iv, hcell, hval, hl, hiv, hin'⟩ | ⟨hp, _⟩)
      · have : labels' = labels := nodup_keys_eq (fit_keys_nodup hc) hm' hm
        subst this
        obtain ⟨i, hi⟩ := List.mem_iff_getElem?.mp hl
        obtain ⟨iv', hiv1, hiv2⟩ := (mapM_get hr.1).2 i _ hi
        rw [hiv] at hiv1
        cases hiv1
        rcases hpart q with ⟨_, hout⟩ | ⟨_, k, _, hu⟩
        · exact absurd hin' (hout _ (List.mem_of_getElem? hiv2))
        · have hki : ∀ (j : Nat) iv', ivs[j]? = some iv' → Inside iv' q → j = i := by
            intro j iv' hj hq
            rw [hu j ⟨iv', hj, hq⟩, hu i ⟨_, hiv2, hin'⟩]
          rw [hcell, hval]
          simp only [cutCell, find_zip hiv2 hi hin' hki]
          exact Or.inl ⟨l, rfl, rfl⟩
      · rcases hp with hp | hp
        · exact absurd hin hp
        · exact absurd hp hk

/-- C64. A fitted classifier's answers read off the raw data: whenever predict answers on data with distinct row
labels, row i is predicted positive exactly if some rule of the fitted ruleset has all its conditions met by the raw
row, where a condition on a binned numeric column means that the raw number lies in the range which the label
denotes (so that of the batch only the row itself and the dtypes of its columns matter). -/
theorem C64_conditions_on_raw_data [Arith] (a : Method) (R : PyRandom) (F : PyFloat) (hF : F.Lawful) (P : PandasCut) (hP : P.Lawful F)
    (d : FitData) (hd : (d.names.getD d.X.cols).Nodup) (init : ModelArg) (c c' : Clf)
    (h : FittedBy a R F P d init c c') (X : TFrame) (hu : X.UniqueIndex) (ps : List Bool)
    (hp : Clf.predict F X none c' = .ok ps c') :
    ∃ rs b, c'.ruleset = some rs ∧ c'.binner = some b ∧ ps.length = X.rows.length ∧
      ∀ (i : Nat) (hi : i < X.rows.length), ps[i]? = some true ↔
        ∃ r ∈ rs.rules, ∀ cond ∈ r.conds, RawMeets F b X X.rows[i] cond := by
  obtain ⟨rs, b, sel, df0, h1, h2, h3, h4, h5, h6⟩ := FittedBy.ready hF hP hd h
  refine ⟨rs, b, h1.rules, h1.bins, ?_⟩
  have hX : X.rows ≠ [] := by
    intro he
    rw [predict_eq_query, query_ready h1] at hp
    unfold preprocessPrediction at hp
    rw [if_pos he, error_bind] at hp
    cases hp
  obtain ⟨o1, o2, _⟩ := C11_predict_outcome F c' rs _ b sel h1 h2 h3 X hX
  have hs : ∀ f ∈ sel, f ∈ X.cols ∧ f ≠ classFeatName d.classFeat d.y := by
    by_contra hn
    push Not at hn
    obtain ⟨f, hf, hn⟩ := hn
    have := o1.mpr ⟨f, hf, fun h => h.2 (hn h.1)⟩
    rw [hp] at this; cases this
  have hbad : ¬ BadText b (X.dropCol (classFeatName d.classFeat d.y)) := by
    intro hb
    have := o2.mpr ⟨hs, hb⟩
    rw [hp] at this; cases this
  obtain ⟨X', hX'⟩ := applyBins_total h2 hbad
  rw [h6] at hX'
  obtain ⟨G, K, hG, hm, _⟩ := applyBins_meets hF hP h5 hX'
  rw [← h6] at hX' hm
  have hrows : X'.rows.length = X.rows.length := by
    rw [hG]; simp [TFrame.mapAll, TFrame.dropCol, Frame.dropCol]
  have hidx : X'.index = X.index := by
    rw [hG]; simp [TFrame.mapAll, TFrame.dropCol, Frame.dropCol, Frame.index]
  have hfeat : HasFeatures X'.toFrame rs.rules := by
    rw [tested_iff]
    intro f hf
    rw [hG]
    exact dropCol_cols.mpr (hs f (h3 f hf))
  rw [predict_eq_query, query_ready h1, preprocessPrediction_none hX hs, hX', ok_bind] at hp
  obtain ⟨ps', hps, hlen, hdnf⟩ := C01_predict_is_dnf rs X'.toFrame (by unfold Frame.UniqueIndex; rw [hidx]; exact hu) hfeat
  rw [hps] at hp
  cases hp
  refine ⟨by rw [hlen, hrows], fun i hi => ?_⟩
  rw [hdnf i (by rw [hrows]; exact hi)]
  unfold FiresAny Fires FiresC Meets
  constructor
  · rintro ⟨r, hr, hall⟩
    refine ⟨r, hr, fun cond hc => (hm cond _ ?_).mp ?_⟩
    · exact dropCol_cols.mpr (hs _ (h3 _ ⟨r, hr, cond, hc, rfl⟩))
    · have := hall cond hc
      simpa [hG, TFrame.mapAll, TFrame.dropCol, Frame.dropCol] using this
  · rintro ⟨r, hr, hall⟩
    refine ⟨r, hr, fun cond hc => ?_⟩
    have := (hm cond X.rows[i] (dropCol_cols.mpr (hs _ (h3 _ ⟨r, hr, cond, hc, rfl⟩)))).mpr (hall cond hc)
    simpa [hG, TFrame.mapAll, TFrame.dropCol, Frame.dropCol] using this

end Witt
