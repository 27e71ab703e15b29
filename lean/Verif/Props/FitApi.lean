import Verif.Props.Fit
import Verif.Props.Irep
import Verif.Props.Ripper
/-
`fit` on classifier objects: C26, C34 (it always comes back), C35 (it does not raise on valid data), C36 (it is
reproducible), C29 (what it learns was in the data), C27 (complete coverage), C62 (what a failed fit leaves behind).
-/
namespace Witt
open Spec

namespace Spec
/-- What a call gives the caller: its result and the object afterwards, or the exception. -/
def completed {α : Type} : EStateM.Result PyErr Clf α → Except PyErr (α × Clf)
  | .ok a c => .ok (a, c)
  | .error e _ => .error e
end Spec

theorem early_of_toRuleset {init : ModelArg} {rs : Ruleset} (h : init.toRuleset = .ok rs) : ∃ rs', init.early = .ok rs' := by
  cases init with
  | clf c => exact ⟨_, rfl⟩
  | nothing => exact ⟨_, h⟩
  | ruleset r => exact ⟨_, h⟩
  | text s => exact ⟨_, h⟩

/-- What `fit` reads of the initial model before it looks at the data. -/
def Method.early (a : Method) (init : ModelArg) : Except PyErr Ruleset :=
  match a with
  | .irep => init.early
  | .irepPlain _ => init.early
  | .ripper => .ok { rules := [] }
  | .ripperPlain _ => .ok { rules := [] }

theorem Method.early_of {a : Method} {init : ModelArg} {rs : Ruleset} (h : init.toRuleset = .ok rs) :
    ∃ rs', a.early init = .ok rs' := by
  cases a with
  | irep => exact early_of_toRuleset h
  | irepPlain S => exact early_of_toRuleset h
  | ripper => exact ⟨_, rfl⟩
  | ripperPlain S => exact ⟨_, rfl⟩

/-- `fit` of either class, without the intermediate states of the object. -/
theorem Method.fit_completed [Arith] (a : Method) (fuel : Nat) (R : PyRandom) (F : PyFloat) (P : PandasCut) (d : FitData) (init : ModelArg)
    (g : R.G) (c : Clf) :
    completed (a.fit fuel R F P d init g c) = (do
      let _ ← a.early init
      let q ← preprocessTraining F P c.nBins d
      let start ← init.toRuleset
      let mg ← a.train fuel R c.hyper start.possible (start.rules.map Rule.conds) q.1.toFrame q.2.1 q.2.2.1 g
      return (mg.2, c.fitted mg.1 q.2.2.2 q.2.1 q.2.2.1)) := by
  have hret : returned (a.fit fuel R F P d init g c) = (do
      let _ ← a.early init
      let q ← preprocessTraining F P c.nBins d
      let start ← init.toRuleset
      let mg ← a.train fuel R c.hyper start.possible (start.rules.map Rule.conds) q.1.toFrame q.2.1 q.2.2.1 g
      return mg.2) := by
    cases a with
    | irep => exact (Clf.irepFit_run fuel R F P d init g c).1
    | ripper => exact (Clf.ripperFit_run fuel R F P d init g c).1
    | irepPlain S => exact (Clf.irepFitPlain_run fuel R S F P d init g c).1
    | ripperPlain S => exact (Clf.ripperFitPlain_run fuel R S F P d init g c).1
  cases hf : a.fit fuel R F P d init g c with
  | ok g' c' =>
    obtain ⟨df, cf, pc, b, start, m, h1, h2, h3, rfl⟩ := Method.fit_ok hf
    obtain ⟨rs', he⟩ := Method.early_of (a := a) h2
    rw [he, h1, h2]
    simp only [ok_bind, h3]
    rfl
  | error e c' =>
    rw [hf] at hret
    simp only [returned, completed] at hret ⊢
    revert hret
    generalize a.early init = x
    cases x with
    | error e' => intro h; cases h; rfl
    | ok rs' =>
      simp only [ok_bind]
      cases preprocessTraining F P c.nBins d with
      | error e' => intro h; cases h; rfl
      | ok q =>
        simp only [ok_bind]
        cases init.toRuleset with
        | error e' => intro h; cases h; rfl
        | ok start =>
          simp only [ok_bind]
          cases a.train fuel R c.hyper start.possible (start.rules.map Rule.conds) q.1.toFrame q.2.1 q.2.2.1 g with
          | error e' => intro h; cases h; rfl
          | ok mg => intro h; cases h

/-! ### preprocessing of valid data -/

theorem not_badText_fit {F : PyFloat} {P : PandasCut} {n : Option Nat} {df : TFrame} {ignore : List Feat} :
    ¬ BadText (Binner.fit F P n df ignore) df := by
  rintro ⟨f, labels, hm, hc, hk, _⟩
  have := (fit_mem hm).2.2.1
  rw [hk] at this
  cases this

theorem train_outcome [Arith] [Arith.Lawful] {a : Method} {R : PyRandom} (hR : R.Lawful) (hp : Hyper) (old : Option (List Cond))
    (init : List (List Cond)) (df : Frame) (cf : Feat) (pc : Val) (g : R.G) : ∃ outcome, outcome ≠ .error .diverged ∧
      ∀ fuel, df.rows.length < fuel → a.train fuel R hp old init df cf pc g = outcome := by
  cases a with
  | irep => exact C26_irep_terminates R hR hp init df cf pc g
  | ripper => exact C34_ripper_terminates R hR hp init df cf pc g
  | irepPlain S => exact C72_irep_plain_terminates R hR S hp old init df cf pc g
  | ripperPlain S => exact C72_ripper_plain_terminates R S hp old init df cf pc g

theorem preprocessTraining_length {F : PyFloat} {P : PandasCut} {n : Option Nat} {d : FitData} {df : TFrame} {cf : Feat}
    {pc : Val} {b : Binner} (h : preprocessTraining F P n d = .ok (df, cf, pc, b)) :
    df.rows.length = d.X.rows.length := by
  obtain ⟨_, _, df0, _, _, _, _, hlen, _, _, hi, _⟩ := preprocessTraining_ok h
  have := congrArg List.length hi
  simp only [Frame.index, List.length_map] at this
  omega

theorem posClassOf_err {vs : List Val} {pc : Option Val} {e : PyErr} (h : posClassOf vs pc = .error e) :
    e = .nameError ∨ e = .typeError := by
  unfold posClassOf at h
  repeat' split at h
  all_goals first
    | (injection h with h; exact Or.inl h.symm)
    | (injection h with h; exact Or.inr h.symm)
    | cases h

/-- Preprocessing for `fit` never hangs. -/
theorem preprocessTraining_halts {F : PyFloat} (hF : F.Lawful) {P : PandasCut} (hP : P.Lawful F) {n : Option Nat} {d : FitData} :
    preprocessTraining F P n d ≠ .error .diverged := by
  unfold preprocessTraining
  cases h1 : checkInput d.X d.y d.classFeat d.names with
  | error e =>
    intro h
    simp only [error_bind, Except.error.injEq] at h
    subst h
    unfold checkInput at h1
    repeat' split at h1
    all_goals cases h1
  | ok u =>
    simp only [ok_bind]
    cases h2 : toTraining d.X d.y (classFeatName d.classFeat d.y) d.names with
    | error e =>
      intro h
      simp only [error_bind, Except.error.injEq] at h
      subst h
      unfold toTraining at h2
      rcases hn : d.names with _ | ns
      · rw [hn] at h2
        simp only [ok_bind] at h2
        cases hy : d.y with
        | none => rw [hy] at h2; cases h2
        | some y =>
          rw [hy] at h2
          simp only [] at h2
          unfold attachY at h2
          repeat' split at h2
          all_goals cases h2
      · rw [hn] at h2
        simp only [TFrame.rename] at h2
        split at h2
        · cases h2
        · simp only [ok_bind] at h2
          cases hy : d.y with
          | none => rw [hy] at h2; cases h2
          | some y =>
            rw [hy] at h2
            simp only [] at h2
            unfold attachY at h2
            repeat' split at h2
            all_goals cases h2
    | ok df0 =>
      simp only [ok_bind]
      cases h3 : posClassOf (df0.unique (classFeatName d.classFeat d.y)) d.posClass with
      | error e =>
        intro h
        simp only [error_bind, Except.error.injEq] at h
        subst h
        rcases posClassOf_err h3 with h | h <;> cases h
      | ok pc =>
        obtain ⟨X', hX'⟩ := fit_transform_total hF hP (n := n) (not_badText_fit (F := F) (P := P) (df := df0)
          (ignore := [classFeatName d.classFeat d.y]))
        simp only [ok_bind, Binner.fitTransform, hX', pure_eq_ok]
        intro h; cases h

theorem toRuleset_halts (init : ModelArg) : init.toRuleset ≠ .error .diverged := by
  cases init with
  | nothing => intro h; cases h
  | ruleset r => unfold ModelArg.toRuleset; dsimp only; split <;> (intro h; cases h)
  | clf c => unfold ModelArg.toRuleset attr; dsimp only; cases c.ruleset <;> (intro h; cases h)
  | text s =>
    unfold ModelArg.toRuleset rulesetFromStr; dsimp only
    repeat' split
    all_goals (intro h; cases h)

theorem early_halts (init : ModelArg) : init.early ≠ .error .diverged := by
  cases init with
  | clf c => intro h; cases h
  | nothing => exact toRuleset_halts .nothing
  | ruleset r => exact toRuleset_halts (.ruleset r)
  | text s => exact toRuleset_halts (.text s)

theorem fit_halts [Arith] [Arith.Lawful] (a : Method) (R : PyRandom) (hR : R.Lawful) (F : PyFloat) (hF : F.Lawful) (P : PandasCut) (hP : P.Lawful F)
    (d : FitData) (init : ModelArg) (g : R.G) (c : Clf) :
    ∃ outcome, outcome ≠ .error .diverged ∧
      ∀ fuel, d.X.rows.length < fuel → completed (a.fit fuel R F P d init g c) = outcome := by
  simp only [Method.fit_completed]
  have hx : a.early init ≠ .error .diverged := by
    cases a with
    | irep => exact early_halts init
    | irepPlain S => exact early_halts init
    | ripper => intro h; cases h
    | ripperPlain S => intro h; cases h
  generalize a.early init = x at hx ⊢
  cases x with
  | error e => exact ⟨_, fun h => hx (by cases h; rfl), fun _ _ => rfl⟩
  | ok rs' =>
    simp only [ok_bind]
    cases h2 : preprocessTraining F P c.nBins d with
    | error e => exact ⟨_, fun h => preprocessTraining_halts hF hP (by rw [h2]; cases h; rfl), fun _ _ => rfl⟩
    | ok q =>
      obtain ⟨df, cf, pc, b⟩ := q
      have hlen := preprocessTraining_length h2
      simp only [ok_bind]
      cases h3 : init.toRuleset with
      | error e => exact ⟨_, fun h => toRuleset_halts init (by rw [h3]; cases h; rfl), fun _ _ => rfl⟩
      | ok start =>
        simp only [ok_bind]
        obtain ⟨out, ho, hall⟩ := train_outcome (a := a) hR c.hyper start.possible (start.rules.map Rule.conds) df.toFrame cf pc g
        refine ⟨(do let mg ← out; return (mg.2, c.fitted mg.1 b cf pc)), ?_, fun fuel hf => ?_⟩
        · cases out with
          | error e => intro h; cases h; exact ho rfl
          | ok mg => intro h; cases h
        · rw [hall fuel (by rw [hlen]; exact hf)]

/-- C26 for the API. `IREP.fit` always comes back: for every object, data, labels, parameters, initial model and
generator there is one outcome (the fitted object, or an exception) which every run allowed more loop iterations than
there are rows reaches. -/
theorem C26_irep_fit_returns [Arith] [Arith.Lawful] (R : PyRandom) (hR : R.Lawful) (F : PyFloat) (hF : F.Lawful) (P : PandasCut) (hP : P.Lawful F)
    (d : FitData) (init : ModelArg) (g : R.G) (c : Clf) :
    ∃ outcome, outcome ≠ .error .diverged ∧
      ∀ fuel, d.X.rows.length < fuel → completed (Clf.irepFit fuel R F P d init g c) = outcome :=
  fit_halts .irep R hR F hF P hP d init g c

/-- C34 for the API. `RIPPER.fit` always comes back. -/
theorem C34_ripper_fit_returns [Arith] [Arith.Lawful] (R : PyRandom) (hR : R.Lawful) (F : PyFloat) (hF : F.Lawful) (P : PandasCut) (hP : P.Lawful F)
    (d : FitData) (init : ModelArg) (g : R.G) (c : Clf) :
    ∃ outcome, outcome ≠ .error .diverged ∧
      ∀ fuel, d.X.rows.length < fuel → completed (Clf.ripperFit fuel R F P d init g c) = outcome :=
  fit_halts .ripper R hR F hF P hP d init g c

/-! ### reproducibility -/

/-- C36 for the API. The fitted object depends only on the data, the initial model, the parameters and the seed: not on
the state of the global generator, nor on what the object had learned or been told before. -/
theorem C36_fit_reproducible [Arith] (a : Method) (fuel : Nat) (R : PyRandom) (hR : R.SeedResets) (F : PyFloat) (P : PandasCut)
    (d : FitData) (init : ModelArg) (g g' : R.G) (c c' : Clf) (hh : c'.hyper = c.hyper) (hn : c'.nBins = c.nBins)
    (s : Int) (hs : c.hyper.randomState = some s) :
    (completed (a.fit fuel R F P d init g c)).map Prod.snd = (completed (a.fit fuel R F P d init g' c')).map Prod.snd := by
  simp only [Method.fit_completed, hh, hn]
  have hc : ∀ m b cf pc, c'.fitted m b cf pc = c.fitted m b cf pc := by
    intro m b cf pc
    unfold Clf.fitted
    rw [Clf.mk.injEq]
    exact ⟨hh, hn, rfl, rfl, rfl, rfl, rfl, rfl, rfl⟩
  simp only [hc]
  generalize a.early init = x
  cases x with
  | error e => rfl
  | ok rs' =>
    simp only [ok_bind]
    cases preprocessTraining F P c.nBins d with
    | error e => rfl
    | ok q =>
      simp only [ok_bind]
      cases init.toRuleset with
      | error e => rfl
      | ok start =>
        simp only [ok_bind]
        have : (a.train fuel R c.hyper start.possible (start.rules.map Rule.conds) q.1.toFrame q.2.1 q.2.2.1 g).map Prod.fst =
            (a.train fuel R c.hyper start.possible (start.rules.map Rule.conds) q.1.toFrame q.2.1 q.2.2.1 g').map Prod.fst := by
          cases a with
          | irep => exact C36_irep_reproducible R hR c.hyper s hs _ _ _ _ fuel g g'
          | ripper => exact C36_ripper_reproducible R hR c.hyper s hs _ _ _ _ fuel g g'
          | irepPlain S => exact C36_irep_plain_reproducible R hR S c.hyper s hs _ _ _ _ _ fuel g g'
          | ripperPlain S => exact C36_ripper_plain_reproducible R hR S c.hyper s hs _ _ _ _ _ fuel g g'
        revert this
        generalize a.train fuel R c.hyper start.possible (start.rules.map Rule.conds) q.1.toFrame q.2.1 q.2.2.1 g = o
        generalize a.train fuel R c.hyper start.possible (start.rules.map Rule.conds) q.1.toFrame q.2.1 q.2.2.1 g' = o'
        intro h
        cases o with
        | error e =>
          cases o' with
          | error e' => cases h; rfl
          | ok v => cases h
        | ok u =>
          cases o' with
          | error e' => cases h
          | ok v =>
            have : u.1 = v.1 := by simpa [Except.map] using h
            simp [Except.map, this, ok_bind, pure_eq_ok]

/-! ### valid data -/

namespace Spec
/-- Training data as the documentation asks for it: rows, the right number of names, class labels (a list or a Series
as long as the data, or a column of the data), and the positive class, named, or to be inferred from labels that are all 0/False or
1/True or all alike. -/
structure ValidInput (d : FitData) : Prop where
  rows : d.X.rows ≠ []
  names : ∀ ns, d.names = some ns → ns.length = d.X.cols.length
  labels : (∃ vs, d.y = some (.list vs) ∧ vs.length = d.X.rows.length) ∨
    (∃ name lvs, d.y = some (.series name lvs) ∧ lvs.length = d.X.rows.length ∧ ∀ cf, d.classFeat = some cf → name = cf) ∨
    (d.y = none ∧ ∃ cf, d.classFeat = some cf ∧ cf ∈ d.names.getD d.X.cols)
  positive : d.posClass ≠ none ∨ ∀ df0, toTraining d.X d.y (classFeatName d.classFeat d.y) d.names = .ok df0 →
    (∀ row ∈ df0.rows, IsZero (row.cell (classFeatName d.classFeat d.y)) ∨ IsOne (row.cell (classFeatName d.classFeat d.y))) ∨
    ∀ row ∈ df0.rows, ∀ row' ∈ df0.rows,
      SameLabel (row.cell (classFeatName d.classFeat d.y)) (row'.cell (classFeatName d.classFeat d.y))

/-- The row labels of the training data: those of the Series of class labels if there is one. -/
def rowLabels (d : FitData) : List Label :=
  match d.y with
  | some (.series _ lvs) => lvs.map Prod.fst
  | _ => d.X.index
end Spec

theorem zip_map_fst {α β γ : Type} (f : α → γ) : ∀ (l : List α) (l' : List β), l.length = l'.length →
    (l.zip l').map (fun p => f p.1) = l.map f := by
  intro l
  induction l with
  | nil => intro l' _; simp
  | cons x l ih =>
    intro l' h
    cases l' with
    | nil => simp at h
    | cons y l' => simp only [List.zip_cons_cons, List.map_cons, List.length_cons] at h ⊢; rw [ih l' (by omega)]

theorem zip_map_snd {α β γ : Type} (f : β → γ) : ∀ (l : List α) (l' : List β), l.length = l'.length →
    (l.zip l').map (fun p => f p.2) = l'.map f := by
  intro l
  induction l with
  | nil => intro l' h; cases l' with
    | nil => rfl
    | cons y l' => simp at h
  | cons x l ih =>
    intro l' h
    cases l' with
    | nil => simp at h
    | cons y l' => simp only [List.zip_cons_cons, List.map_cons, List.length_cons] at h ⊢; rw [ih l' (by omega)]

theorem setCol_index (df : TFrame) (f : Feat) (vs : List Val) (h : df.rows.length = vs.length) :
    (df.setCol f vs).index = df.index := by
  unfold TFrame.setCol Frame.index
  simp only [List.map_map, Function.comp_def]
  exact zip_map_fst (fun row : Row => row.label) df.rows vs h

theorem valid_toTraining {d : FitData} (hv : ValidInput d) :
    checkInput d.X d.y d.classFeat d.names = .ok () ∧
      ∃ df0, toTraining d.X d.y (classFeatName d.classFeat d.y) d.names = .ok df0 ∧ df0.index = rowLabels d := by
  have hren : ∃ X1 : TFrame, (∀ cf, toTraining d.X none cf d.names = .ok X1 ∧
      ∀ y, toTraining d.X (some y) cf d.names = attachY X1 cf y) ∧
      X1.index = d.X.index ∧ X1.rows.length = d.X.rows.length := by
    rcases hn : d.names with _ | ns
    · exact ⟨d.X, fun cf => ⟨rfl, fun y => rfl⟩, rfl, rfl⟩
    · have hr : ∃ X1 : TFrame, d.X.rename ns = .ok X1 ∧ X1.index = d.X.index ∧ X1.rows.length = d.X.rows.length := by
        unfold TFrame.rename
        simp only [hv.names ns hn, ne_eq, not_true_eq_false, if_false]
        refine ⟨_, rfl, ?_, by simp⟩
        simp [Frame.index, Function.comp_def]
      obtain ⟨X1, h1, h2⟩ := hr
      refine ⟨X1, fun cf => ⟨?_, fun y => ?_⟩, h2⟩ <;>
      · unfold toTraining
        simp only [h1]
        rfl
  obtain ⟨X1, hX1, hi1, hl1⟩ := hren
  unfold checkInput
  rw [if_neg hv.rows]
  rcases hv.labels with ⟨vs, hy, hlen⟩ | ⟨name, lvs, hy, hlen, hname⟩ | ⟨hy, cf, hcf, hm⟩
  · refine ⟨by rw [hy], ?_⟩
    rw [hy, (hX1 _).2]
    simp only [attachY]
    rw [if_neg (by simp [hl1, hlen])]
    exact ⟨_, rfl, by rw [setCol_index _ _ _ (by omega), hi1]; simp [rowLabels, hy]⟩
  · refine ⟨?_, ?_⟩
    · rw [hy]
      rcases hc : d.classFeat with _ | cf
      · rfl
      · simp [hname cf hc]
    · rw [hy, (hX1 _).2]
      simp only [attachY]
      rw [if_pos (by omega)]
      refine ⟨_, rfl, ?_⟩
      rw [setCol_index _ _ _ (by simp; omega)]
      simp only [Frame.index, List.map_map, Function.comp_def, rowLabels, hy]
      exact zip_map_snd Prod.fst X1.rows lvs (by omega)
  · refine ⟨by rw [hy, hcf]; simp [hm], ?_⟩
    rw [hy, (hX1 _).1]
    exact ⟨_, rfl, by rw [hi1]; simp [rowLabels, hy]⟩

theorem valid_posClass {d : FitData} (hv : ValidInput d) {df0 : TFrame}
    (ht : toTraining d.X d.y (classFeatName d.classFeat d.y) d.names = .ok df0) :
    ∃ pc, posClassOf (df0.unique (classFeatName d.classFeat d.y)) d.posClass = .ok pc := by
  rcases hp : d.posClass with _ | pc
  · have hne : df0.rows ≠ [] := by
      intro he
      have := (toTraining_ok ht).1
      rw [he] at this
      exact hv.rows (List.eq_nil_of_length_eq_zero this.symm)
    obtain ⟨c1, c2, _⟩ := C53_class_inference df0.toFrame (classFeatName d.classFeat d.y) hne
    have hall := (hv.positive.resolve_left (by simp [hp])) df0 ht
    by_cases h01 : ∀ row ∈ df0.rows, IsZero (row.cell (classFeatName d.classFeat d.y)) ∨ IsOne (row.cell (classFeatName d.classFeat d.y))
    · obtain ⟨v, h, _⟩ := c1 h01
      exact ⟨v, h⟩
    · have hsame := hall.resolve_left h01
      have hz : ∀ row ∈ df0.rows, ¬ IsZero (row.cell (classFeatName d.classFeat d.y)) := by
        rintro row hr ⟨t, h0⟩
        apply h01
        intro row' hr'
        left
        rcases hsame row hr row' hr' with (⟨s, h, _⟩ | ⟨q, t', u, h, h'⟩) | ⟨h, _⟩
        · rw [h0] at h; cases h
        · rw [h0] at h; cases h; exact ⟨u, h'⟩
        · rw [h0] at h; cases h
      obtain ⟨row, _, h⟩ := c2 hsame hz
      exact ⟨_, h⟩
  · exact ⟨pc, rfl⟩

theorem valid_preprocess {F : PyFloat} (hF : F.Lawful) {P : PandasCut} (hP : P.Lawful F) (n : Option Nat) {d : FitData}
    (hv : ValidInput d) : ∃ df pc b, preprocessTraining F P n d = .ok (df, classFeatName d.classFeat d.y, pc, b) ∧
      df.index = rowLabels d := by
  obtain ⟨h1, df0, h2, h3⟩ := valid_toTraining hv
  obtain ⟨pc, hpc⟩ := valid_posClass hv h2
  obtain ⟨X', hX'⟩ := fit_transform_total hF hP (n := n) (not_badText_fit (F := F) (P := P) (df := df0)
          (ignore := [classFeatName d.classFeat d.y]))
  have hp : preprocessTraining F P n d = .ok (X', classFeatName d.classFeat d.y, pc,
      Binner.fit F P n df0 [classFeatName d.classFeat d.y]) := by
    unfold preprocessTraining
    simp only [h1, ok_bind, h2, hpc, Binner.fitTransform, hX', pure_eq_ok]
  refine ⟨_, _, _, hp, ?_⟩
  obtain ⟨_, _, df1, h4, _, _, _, _, _, _, h5, _⟩ := preprocessTraining_ok hp
  rw [h2] at h4; injection h4 with h4
  rw [h5, ← h4, h3]

theorem completed_ok {α : Type} {r : EStateM.Result PyErr Clf α} {a : α} {c : Clf} (h : completed r = .ok (a, c)) :
    r = .ok a c := by
  cases r with
  | ok a' c' => cases h; rfl
  | error e c' => cases h

/-- C35 for the API, IREP. On valid data `fit` raises nothing, whatever the values, dtypes, row labels, shuffles and
limits, if `prune_size` is None, 0 or leaves something to prune on (C35_prune_sizes: without rounding, any value above 0
up to 1) and `alpha` is positive; the features of the initial model (if
any) must be among the columns. -/
theorem C35_irep_fit_on_valid_data [Arith] [Arith.Lawful] (R : PyRandom) (hR : R.Lawful) (F : PyFloat) (hF : F.Lawful) (P : PandasCut)
    (hP : P.Lawful F) (d : FitData) (hv : ValidInput d) (init : ModelArg) (start : Ruleset) (hinit : init.toRuleset = .ok start)
    (hfeat : ∀ f, Tested start f → f ∈ d.names.getD d.X.cols) (c : Clf)
    (hl : c.hyper.irepPrune = 0 ∨ Arith.LeavesSome c.hyper.irepPrune) (ha : 0 < c.hyper.alpha) (fuel : Nat) (hfuel : d.X.rows.length < fuel) (g : R.G) :
    ∃ g' c', Clf.irepFit fuel R F P d init g c = .ok g' c' := by
  obtain ⟨df, pc, b, hpre, hidx⟩ := valid_preprocess hF hP c.nBins hv
  obtain ⟨hne, hcf⟩ := preprocessTraining_frame hpre
  obtain ⟨rs', he⟩ := early_of_toRuleset hinit
  have hlen := preprocessTraining_length hpre
  obtain ⟨_, _, df0, ht, _, _, _, _, _, hcols, _⟩ := preprocessTraining_ok hpre
  obtain ⟨_, hc2, _⟩ := toTraining_ok ht
  obtain ⟨m, g', hm⟩ := C35_irep_never_raises R hR c.hyper hl ha (start.rules.map Rule.conds) df.toFrame
    (classFeatName d.classFeat d.y) pc hne hcf (by
      intro r hr x hx
      obtain ⟨r0, hr0, rfl⟩ := List.mem_map.mp hr
      rw [hcols, hc2]
      exact Or.inl (hfeat _ ⟨r0, hr0, x, hx, rfl⟩)) fuel (by omega) g
  refine ⟨g', c.fitted m b (classFeatName d.classFeat d.y) pc, completed_ok ?_⟩
  have := Method.fit_completed .irep fuel R F P d init g c
  simp only [Method.early, he, hpre, hinit, ok_bind, Method.train, hm, pure_eq_ok] at this
  exact this

/-- C35 for the API, RIPPER. On valid data with distinct row labels and without an initial model, `fit` raises nothing,
whatever the values, dtypes, shuffles, limits, `k` and `dl_allowance`, if `prune_size` leaves something to prune on and
`alpha > 0`. -/
theorem C35_ripper_fit_on_valid_data [Arith] [Arith.Lawful] (R : PyRandom) (hR : R.Lawful) (F : PyFloat) (hF : F.Lawful) (P : PandasCut)
    (hP : P.Lawful F) (d : FitData) (hv : ValidInput d) (hu : (rowLabels d).Nodup) (c : Clf) (ps : Rat)
    (hps : c.hyper.pruneSize = some ps) (hl : Arith.LeavesSome ps) (ha : 0 < c.hyper.alpha) (fuel : Nat)
    (hfuel : d.X.rows.length < fuel) (g : R.G) :
    ∃ g' c', Clf.ripperFit fuel R F P d .nothing g c = .ok g' c' := by
  obtain ⟨df, pc, b, hpre, hidx⟩ := valid_preprocess hF hP c.nBins hv
  obtain ⟨hne, hcf⟩ := preprocessTraining_frame hpre
  have hlen := preprocessTraining_length hpre
  obtain ⟨m, g', hm⟩ := C35_ripper_never_raises R hR c.hyper ps hps hl ha [] df.toFrame
    (classFeatName d.classFeat d.y) pc hne hcf (by unfold Frame.UniqueIndex; rw [hidx]; exact hu) (by simp) fuel (by omega) g
  refine ⟨g', c.fitted m b (classFeatName d.classFeat d.y) pc, completed_ok ?_⟩
  have := Method.fit_completed .ripper fuel R F P d .nothing g c
  simp only [Method.early, hpre, ModelArg.toRuleset, ok_bind, Method.train, List.map_nil, hm, pure_eq_ok] at this
  exact this

/-! ### what is learned comes from the data -/

theorem transform_noBins {F : PyFloat} {b : Binner} (hb : b.bins = []) (X : TFrame) : b.transform F X = .ok X := by
  unfold Binner.transform
  rw [findTransformed_eq, if_neg (by rintro ⟨f, ls, hm, _⟩; rw [hb] at hm; simp at hm), ok_bind, hb]
  rfl

theorem transform_applyBins {F : PyFloat} {b : Binner} {X X' : TFrame} (h : b.transform F X = .ok X') :
    applyBins F b X = .ok X' := by
  unfold applyBins
  split
  · rename_i hb; rw [transform_noBins hb] at h; exact h
  · exact h

/-- The training frame of a fitted object, raw and discretised. -/
theorem Method.fit_frames [Arith] {a : Method} {fuel : Nat} {R : PyRandom} {F : PyFloat} (hF : F.Lawful) {P : PandasCut} (hP : P.Lawful F)
    {d : FitData} (hd : (d.names.getD d.X.cols).Nodup) {init : ModelArg} {g g' : R.G} {c c' : Clf}
    (h : a.fit fuel R F P d init g c = .ok g' c') :
    ∃ df0 df pc b start m G K, toTraining d.X d.y (classFeatName d.classFeat d.y) d.names = .ok df0 ∧
      posClassOf (df0.unique (classFeatName d.classFeat d.y)) d.posClass = .ok pc ∧
      init.toRuleset = .ok start ∧
      a.train fuel R c.hyper start.possible (start.rules.map Rule.conds) df.toFrame (classFeatName d.classFeat d.y) pc g = .ok (m, g') ∧
      c' = c.fitted m b (classFeatName d.classFeat d.y) pc ∧
      df = df0.mapAll G K ∧ df0.cols.Nodup ∧ classFeatName d.classFeat d.y ∈ df0.cols ∧
      (∀ v, G (classFeatName d.classFeat d.y) v = v) ∧
      (∀ (cond : Cond) (row : Row), cond.feature ∈ df0.cols →
        (Same (G cond.feature (row.cell cond.feature)) cond.val ↔ RawMeets F b df0 row cond)) ∧
      ∀ f ∈ df0.cols, (∀ v, G f v = v) ∨ ∀ v, (∃ s, G f v = .str s) ∨ G f v = .nan := by
  obtain ⟨df, cf, pc, b, start, m, h1, h2, h3, h4⟩ := Method.fit_ok h
  obtain ⟨_, rfl, df0, ht, hpc, hb, htr, _, hcf, _⟩ := preprocessTraining_ok h1
  have hn := (toTraining_ok ht).2.2 hd
  have hab := transform_applyBins htr
  subst hb
  obtain ⟨G, K, hG, hm, hshape⟩ := applyBins_meets hF hP hn hab
  refine ⟨df0, df, pc, _, start, m, G, K, ht, hpc, h2, h3, h4, hG, hn, hcf,
    (hshape _ hcf).1 (Or.inl (fit_bins_ignore (by simp))), hm, fun f hf => ?_⟩
  by_cases hp : f ∉ (Binner.fit F P c.nBins df0 [classFeatName d.classFeat d.y]).bins.map Prod.fst ∨ df0.kind f = .text
  · exact Or.inl ((hshape f hf).1 hp)
  · exact Or.inr ((hshape f hf).2 hp)

/-- C29 for the API. Every condition of a fitted model comes from the initial model, or tests a column of the data
other than the class column and is met by some row of the raw training data. -/
theorem C29_fit_no_leakage [Arith] [Arith.Lawful] (a : Algo) (R : PyRandom) (F : PyFloat) (hF : F.Lawful) (P : PandasCut) (hP : P.Lawful F)
    (d : FitData) (hd : (d.names.getD d.X.cols).Nodup) (init : ModelArg) (c c' : Clf)
    (h : FittedBy a.indexed R F P d init c c') :
    ∃ rs b df0 start, c'.ruleset = some rs ∧ c'.binner = some b ∧ init.toRuleset = .ok start ∧
      toTraining d.X d.y (classFeatName d.classFeat d.y) d.names = .ok df0 ∧
      ∀ r ∈ rs.rules, ∀ cond ∈ r.conds, (∃ r0 ∈ start.rules, cond ∈ r0.conds) ∨
        (cond.feature ∈ d.names.getD d.X.cols ∧ cond.feature ≠ classFeatName d.classFeat d.y ∧
          ∃ row ∈ df0.rows, RawMeets F b df0 row cond) := by
  obtain ⟨fuel, g, g', h⟩ := h
  obtain ⟨df0, df, pc, b, start, m, G, K, ht, _, hst, htrain, rfl, hdf, _, _, _, hm, _⟩ := Method.fit_frames hF hP hd h
  refine ⟨m.ruleset, b, df0, start, rfl, rfl, hst, ht, ?_⟩
  have key : ∀ r ∈ m.ruleset.rules, ∀ cond ∈ r.conds, (∃ r0 ∈ start.rules.map Rule.conds, cond ∈ r0) ∨
      SeenCond df.toFrame (classFeatName d.classFeat d.y) cond := by
    intro r hr cond hc
    cases a with
    | irep =>
      rcases C29_irep_no_leakage R c.hyper _ _ _ _ fuel g g' m htrain r hr with h | h
      · exact Or.inl ⟨_, h, hc⟩
      · exact Or.inr (h cond hc).2
    | ripper =>
      rcases C29_ripper_no_leakage R c.hyper _ _ _ _ fuel g g' m htrain r hr cond hc with h | h
      · exact Or.inl h
      · exact Or.inr h.2
  intro r hr cond hc
  rcases key r hr cond hc with ⟨r0, hr0, hx⟩ | ⟨h1, h2, row, hrow, hmeets⟩
  · obtain ⟨r1, hr1, rfl⟩ := List.mem_map.mp hr0
    exact Or.inl ⟨r1, hr1, hx⟩
  · right
    rw [hdf] at h1 hrow
    obtain ⟨row0, hrow0, rfl⟩ := List.mem_map.mp hrow
    refine ⟨?_, h2, row0, hrow0, (hm cond row0 h1).mp hmeets⟩
    rcases ((toTraining_ok ht).2.1 _).mp h1 with h | ⟨h, _⟩
    · exact h
    · exact absurd h h2

/-! ### complete coverage -/

theorem mapAll_readsApart {X : TFrame} {G : Feat → Val → Val} {K : Feat → Kind} {cf : Feat} (h : ReadsApart X.toFrame cf)
    (hG : ∀ f ∈ X.cols, (∀ v, G f v = v) ∨ ∀ v, (∃ s, G f v = .str s) ∨ G f v = .nan) :
    ReadsApart (X.mapAll G K).toFrame cf := by
  refine ⟨h.noEq, h.cols, ?_⟩
  intro f hf hne row hr row' hr' hn hn' he
  obtain ⟨r0, hr0, rfl⟩ := List.mem_map.mp hr
  obtain ⟨r1, hr1, rfl⟩ := List.mem_map.mp hr'
  simp only at hn hn' he ⊢
  rcases hG f hf with hid | hstr
  · rw [hid, hid] at *
    exact h.cells f hf hne r0 hr0 r1 hr1 hn hn' he
  · obtain ⟨s, hs⟩ := (hstr (r0.cell f)).resolve_right hn
    obtain ⟨t, ht⟩ := (hstr (r1.cell f)).resolve_right hn'
    rw [hs, ht] at he ⊢
    simp only [Val.text] at he
    exact Or.inl ⟨_, rfl, by rw [he]⟩

theorem sharedConds_feature {S : SetOps} {pos neg : Frame} {c : Cond} (h : c ∈ sharedConds S pos neg) : c.feature ∈ pos.cols := by
  obtain ⟨f, hf, h⟩ := List.mem_flatMap.mp h
  obtain ⟨v, _, rfl⟩ := List.mem_map.mp h
  exact hf

theorem feature_closed [Arith] {S : SetOps} {old : Option (List Cond)} {pos neg : Frame} {Q : Feat → Prop}
    (ho : ∀ c ∈ old.getD [], Q c.feature) (hc : ∀ f ∈ pos.cols, Q f) :
    ClosedOn (updatedConds S old pos neg) (fun r => ∀ c ∈ r, Q c.feature) := by
  refine ⟨by simp, ?_, fun r s hr hs c hc => hr c (hs.subset hc)⟩
  intro p n r c hr hu x hx
  rcases List.mem_append.mp hx with hx | hx
  · exact hr x hx
  · simp only [List.mem_singleton] at hx; subst hx
    rcases List.mem_append.mp hu.mem with hm | hm
    · exact ho _ hm
    · exact hc _ (sharedConds_feature hm)

/-- The stored features are columns of the data other than the class, or features of the initial model. -/
theorem Method.train_selected [Arith] [Arith.Lawful] {a : Method} {fuel : Nat} {R : PyRandom} {hp : Hyper} {old : Option (List Cond)}
    {init : List (List Cond)} {df : Frame} {cf : Feat} {pc : Val} {g g' : R.G} {m : Fitted}
    (h : a.train fuel R hp old init df cf pc g = .ok (m, g')) :
    ∀ f ∈ m.selected, (∃ r0 ∈ init, ∃ cond ∈ r0, cond.feature = f) ∨
      (a.sets ≠ none ∧ ∃ cond ∈ old.getD [], cond.feature = f) ∨ (f ∈ df.cols ∧ f ≠ cf) := by
  intro f hf
  cases a with
  | irep =>
    obtain ⟨_, cn, st, hb, hg, _, h2, _⟩ := irepFit_ok h
    obtain ⟨s, hs, h1, _⟩ := irepGrowCn_reach hg
    rw [h2, mem_selected] at hf
    obtain ⟨r, hr, cond, hc, rfl⟩ := hf
    obtain ⟨cs, hcs, rfl⟩ := List.mem_map.mp hr
    rw [h1] at hcs
    rcases hs.rule cs hcs with h | ⟨s1, s2, _, ha⟩
    · exact Or.inl ⟨cs, h, cond, hc, rfl⟩
    · have := ha.seen hb cond hc
      exact Or.inr (Or.inr ⟨this.1, this.2.1⟩)
  | ripper =>
    obtain ⟨_, cn, rules, hb, hg, _, h2, _⟩ := ripperFit_ok h
    have hP : ClosedRule cn (fun r => ∀ cond ∈ r, (∃ r0 ∈ init, cond ∈ r0) ∨ SeenCond df cf cond) := by
      refine ⟨by simp, ?_, fun r s hr hs c hc => hr c (hs.subset hc)⟩
      intro pos neg r c hr hu x hx
      rcases List.mem_append.mp hx with hx | hx
      · exact hr x hx
      · simp only [List.mem_singleton] at hx; subst hx
        exact Or.inr (hu.seen hb)
    rw [h2, mem_selected] at hf
    obtain ⟨r, hr, cond, hc, rfl⟩ := hf
    obtain ⟨cs, hcs, rfl⟩ := List.mem_map.mp hr
    rcases hP.stages (CatNap.build_WF hb) hg (fun r hr c hc => Or.inl ⟨r, hr, hc⟩) cs hcs cond hc with ⟨r0, hr0, hx⟩ | h
    · exact Or.inl ⟨r0, hr0, cond, hx, rfl⟩
    · exact Or.inr (Or.inr ⟨h.1, h.2.1⟩)
  | irepPlain S =>
    obtain ⟨_, _, st, hg, _, h2, _⟩ := irepFitPlain_ok h
    have hcl := feature_closed (S := S) (pos := posExamples df cf pc) (neg := negExamples df cf pc)
      (Q := fun f => (∃ r0 ∈ init, ∃ cond ∈ r0, cond.feature = f) ∨
        (some S ≠ none ∧ ∃ cond ∈ old.getD [], cond.feature = f) ∨ (f ∈ df.cols ∧ f ≠ cf))
      (fun c hc => Or.inr (Or.inl ⟨by simp, c, hc, rfl⟩)) (fun f hf => Or.inr (Or.inr (mem_examples_cols.mp hf)))
    rw [h2, mem_selected] at hf
    obtain ⟨r, hr, cond, hc, rfl⟩ := hf
    obtain ⟨cs, hcs, rfl⟩ := List.mem_map.mp hr
    exact hcl.irepGrow hg (fun r hr c hc => Or.inl ⟨r, hr, c, hc, rfl⟩) cs hcs cond hc
  | ripperPlain S =>
    obtain ⟨_, _, rules, hg, _, h2, _⟩ := ripperFitPlain_ok h
    have hcl : ∀ (old' : Option (List Cond)) (pos neg : Frame), pos.cols = (posExamples df cf pc).cols →
        (∀ c ∈ old'.getD [], (∃ r0 ∈ init, ∃ cond ∈ r0, cond.feature = c.feature) ∨
          (some S ≠ none ∧ ∃ cond ∈ old.getD [], cond.feature = c.feature) ∨ (c.feature ∈ df.cols ∧ c.feature ≠ cf)) →
        ClosedOn (updatedConds S old' pos neg) (fun r => ∀ c ∈ r, (∃ r0 ∈ init, ∃ cond ∈ r0, cond.feature = c.feature) ∨
          (some S ≠ none ∧ ∃ cond ∈ old.getD [], cond.feature = c.feature) ∨ (c.feature ∈ df.cols ∧ c.feature ≠ cf)) := by
      intro old' pos neg hc ho
      exact feature_closed (Q := fun f => (∃ r0 ∈ init, ∃ cond ∈ r0, cond.feature = f) ∨
        (some S ≠ none ∧ ∃ cond ∈ old.getD [], cond.feature = f) ∨ (f ∈ df.cols ∧ f ≠ cf)) ho
        (fun f hf => Or.inr (Or.inr (mem_examples_cols.mp (hc ▸ hf))))
    have hold : ∀ c ∈ old.getD [], (∃ r0 ∈ init, ∃ cond ∈ r0, cond.feature = c.feature) ∨
          (some S ≠ none ∧ ∃ cond ∈ old.getD [], cond.feature = c.feature) ∨ (c.feature ∈ df.cols ∧ c.feature ≠ cf) :=
      fun c hc => Or.inr (Or.inl ⟨by simp, c, hc, rfl⟩)
    rw [h2, mem_selected] at hf
    obtain ⟨r, hr, cond, hc, rfl⟩ := hf
    obtain ⟨cs, hcs, rfl⟩ := List.mem_map.mp hr
    refine ClosedOn.stages (hcl _ _ _ rfl hold) ?_ hg (fun r hr c hc => Or.inl ⟨r, hr, c, hc, rfl⟩) cs hcs cond hc
    intro p' n' s1 s2 c1 c2 o hoo
    refine hcl _ _ _ c1 ?_
    rcases hoo with rfl | rfl
    · simp
    · intro c hc
      rcases List.mem_append.mp hc with hc | hc
      · exact hold c hc
      · exact Or.inr (Or.inr (mem_examples_cols.mp (sharedConds_feature hc)))

namespace Spec
/-- The class label given for row `i`. -/
def trueLabel (d : FitData) (i : Nat) : Option Val :=
  match d.y with
  | some (.list vs) => vs[i]?
  | some (.series _ lvs) => (lvs[i]?).map Prod.snd
  | none => (d.X.rows[i]?).map (·.cell (classFeatName d.classFeat d.y))
end Spec

/-- The kinds and cells that labelling leaves alone, and the labels. -/
theorem toTraining_kind {d : FitData} (hv : ValidInput d) (hn : d.names = none) {df0 : TFrame}
    (h : toTraining d.X d.y (classFeatName d.classFeat d.y) d.names = .ok df0) :
    (∀ f, f ≠ classFeatName d.classFeat d.y → df0.kind f = d.X.kind f) ∧
      ∀ (i : Nat) (row : Row), d.X.rows[i]? = some row → ∃ row0, df0.rows[i]? = some row0 ∧
        (∀ f, f ≠ classFeatName d.classFeat d.y → row0.cell f = row.cell f) ∧
        some (row0.cell (classFeatName d.classFeat d.y)) = trueLabel d i := by
  unfold toTraining at h
  rw [hn] at h
  simp only [ok_bind] at h
  have key : ∀ (X1 : TFrame) (vs : List Val), X1.kind = d.X.kind → vs.length = d.X.rows.length →
      (∀ (i : Nat) (row : Row), d.X.rows[i]? = some row → ∃ row1, X1.rows[i]? = some row1 ∧ row1.cell = row.cell) →
      df0 = X1.setCol (classFeatName d.classFeat d.y) vs → (∀ i, i < d.X.rows.length → trueLabel d i = vs[i]?) →
      (∀ f, f ≠ classFeatName d.classFeat d.y → df0.kind f = d.X.kind f) ∧
      ∀ (i : Nat) (row : Row), d.X.rows[i]? = some row → ∃ row0, df0.rows[i]? = some row0 ∧
        (∀ f, f ≠ classFeatName d.classFeat d.y → row0.cell f = row.cell f) ∧
        some (row0.cell (classFeatName d.classFeat d.y)) = trueLabel d i := by
    rintro X1 vs hk hlen hrows rfl htl
    refine ⟨fun f hf => by simp [TFrame.setCol, hf, hk], fun i row hi => ?_⟩
    obtain ⟨row1, h1, h2⟩ := hrows i row hi
    have hiv : i < vs.length := by rw [hlen]; exact (List.getElem?_eq_some_iff.mp hi).1
    have hz : (X1.rows.zip vs)[i]? = some (row1, vs[i]) :=
      List.getElem?_zip_eq_some.mpr ⟨h1, List.getElem?_eq_getElem hiv⟩
    refine ⟨_, by simp only [TFrame.setCol, List.getElem?_map, hz, Option.map_some]; rfl, ?_, ?_⟩
    · intro f hf
      simp [hf, h2]
    · rw [htl i (by omega), List.getElem?_eq_getElem hiv]; simp
  rcases hv.labels with ⟨vs, hy, hlen⟩ | ⟨name, lvs, hy, hlen, _⟩ | ⟨hy, _⟩
  · rw [hy] at h
    simp only [attachY] at h
    rw [if_neg (by simp [hlen])] at h
    simp only [Except.ok.injEq] at h
    exact key d.X vs rfl hlen (fun i row hi => ⟨row, hi, rfl⟩) (by rw [hy]; exact h.symm)
      (fun i hi => by simp [trueLabel, hy])
  · rw [hy] at h
    simp only [attachY] at h
    rw [if_pos hlen] at h
    simp only [Except.ok.injEq] at h
    refine key { d.X with rows := (d.X.rows.zip lvs).map (fun rl => { rl.1 with label := rl.2.1 }) } (lvs.map Prod.snd) rfl
      (by simp [hlen]) ?_ (by rw [hy]; exact h.symm) (fun i hi => by simp [trueLabel, hy])
    intro i row hi
    have hil : i < lvs.length := by rw [hlen]; exact (List.getElem?_eq_some_iff.mp hi).1
    have hz : (d.X.rows.zip lvs)[i]? = some (row, lvs[i]) :=
      List.getElem?_zip_eq_some.mpr ⟨hi, List.getElem?_eq_getElem hil⟩
    exact ⟨{ row with label := lvs[i].1 }, by simp only [List.getElem?_map, hz, Option.map_some], rfl⟩
  · rw [hy] at h
    simp only [pure_eq_ok, Except.ok.injEq] at h
    subst h
    exact ⟨fun _ _ => rfl, fun i row hi => ⟨row, hi, fun _ _ => rfl, by simp [trueLabel, hy, hi]⟩⟩

/-- C11: a model fitted on valid data (given without separate names) can always be asked about the data it was fitted
on: predict returns one answer per row, whatever `cn_optimize`. (The features of an initial model must be columns too; with
`cn_optimize=False` also those of the conditions it lists as possible.) -/
theorem C11_predict_training_data [Arith] [Arith.Lawful] (a : Method) (R : PyRandom) (F : PyFloat) (hF : F.Lawful) (P : PandasCut) (hP : P.Lawful F)
    (d : FitData) (hv : ValidInput d) (hn : d.names = none) (hd : d.X.cols.Nodup) (init : ModelArg)
    (hinit : ∀ start, init.toRuleset = .ok start → ∀ f, Tested start f → f ∈ d.X.cols ∧ f ≠ classFeatName d.classFeat d.y)
    (hold : a.sets ≠ none → ∀ start, init.toRuleset = .ok start → ∀ cond ∈ start.possible.getD [],
      cond.feature ∈ d.X.cols ∧ cond.feature ≠ classFeatName d.classFeat d.y)
    (c c' : Clf) (h : FittedBy a R F P d init c c') :
    ∃ ps, Clf.predict F d.X none c' = .ok ps c' ∧ ps.length = d.X.rows.length := by
  have hd' : (d.names.getD d.X.cols).Nodup := by rw [hn]; exact hd
  obtain ⟨rs, b, sel, df0, h1, h2, h3, _, _, h6⟩ := FittedBy.ready hF hP hd' h
  obtain ⟨fuel, g, g', h⟩ := h
  obtain ⟨df1, df, pc, b', start, m, G, K, ht, _, hst, htrain, rfl, hdf, _, _, _, _, _⟩ := Method.fit_frames hF hP hd' h
  rw [(C11_predict_outcome F _ rs _ b sel h1 h2 h3 d.X hv.rows).2.2]
  have hsel : sel = m.selected := by have := h1.selected; simp only [Clf.fitted, Option.some.injEq] at this; exact this.symm
  have hcols : ∀ f ∈ sel, f ∈ d.X.cols ∧ f ≠ classFeatName d.classFeat d.y := by
    intro f hf
    rw [hsel] at hf
    rcases Method.train_selected htrain f hf with ⟨r0, hr0, cond, hc, rfl⟩ | ⟨hs, cond, hc, rfl⟩ | ⟨h7, h8⟩
    · obtain ⟨r1, hr1, rfl⟩ := List.mem_map.mp hr0
      exact hinit start hst _ ⟨r1, hr1, cond, hc, rfl⟩
    · exact hold hs start hst cond hc
    · rw [hdf] at h7
      refine ⟨?_, h8⟩
      have := ((toTraining_ok ht).2.1 f).mp h7
      rw [hn] at this
      rcases this with h | ⟨h, _⟩
      · exact h
      · exact absurd h h8
  refine ⟨hcols, ?_⟩
  rintro ⟨f, labels, hm, hfc, hk, _⟩
  obtain ⟨_, hne⟩ := dropCol_cols.mp hfc
  obtain ⟨df, cf, pc2, b2, start2, m2, p1, _, _, p4⟩ := Method.fit_ok h
  obtain ⟨_, rfl, df2, ht2, _, hb2, _⟩ := preprocessTraining_ok p1
  have hb : b = b2 := by
    have := h1.bins
    rw [p4] at this
    simp only [Clf.fitted, Option.some.injEq] at this; exact this.symm
  rw [hb, hb2] at hm
  have hnum := (fit_mem hm).2.2.1
  rw [(toTraining_kind hv hn ht2).1 f hne] at hnum
  have hk' : d.X.kind f = .text := hk
  rw [hk'] at hnum
  cases hnum

theorem rawMeets_congr {F : PyFloat} {b : Binner} {X Y : TFrame} {row row' : Row} {cond : Cond}
    (hk : X.kind cond.feature = Y.kind cond.feature) (hc : row.cell cond.feature = row'.cell cond.feature) :
    RawMeets F b X row cond ↔ RawMeets F b Y row' cond := by
  unfold RawMeets Meets
  rw [hk, hc]

/-- C27 for the API. `IREP(prune_size=None)` (or 0), without `max_rules`, `max_total_conds`, `min_ruleset_samples` and an
initial model, fitted on valid data with distinct row labels in which nothing prints like something else: predict on
that data answers True for every row of the positive class, numbers discretised or not. -/
theorem C27_irep_fit_covers_positives [Arith] [Arith.Lawful] (R : PyRandom) (F : PyFloat) (hF : F.Lawful) (P : PandasCut) (hP : P.Lawful F)
    (d : FitData) (hv : ValidInput d) (hn : d.names = none) (hd : d.X.cols.Nodup) (hu : (rowLabels d).Nodup)
    (hX : d.X.UniqueIndex) (c c' : Clf) (h : FittedBy .irep R F P d .nothing c c')
    (hr : ∀ df0, toTraining d.X d.y (classFeatName d.classFeat d.y) d.names = .ok df0 →
      ReadsApart df0.toFrame (classFeatName d.classFeat d.y))
    (hprune : c.hyper.irepPrune = 0)
    (hl : c.hyper.lim.maxRules = none ∧ c.hyper.lim.maxTotalConds = none ∧ c.hyper.lim.minRulesetSamples = none) :
    ∃ ps, Clf.predict F d.X none c' = .ok ps c' ∧ ps.length = d.X.rows.length ∧
      ∀ (i : Nat) v pc, trueLabel d i = some v → c'.posClass = some pc → Same v pc → i < d.X.rows.length → ps[i]? = some true := by
  have hd' : (d.names.getD d.X.cols).Nodup := by rw [hn]; exact hd
  obtain ⟨ps, hps, hlen⟩ := C11_predict_training_data .irep R F hF P hP d hv hn hd .nothing
    (by intro start hs f hf; cases hs; obtain ⟨r, hr, _⟩ := hf; simp at hr) (by intro hs; exact absurd rfl hs) c c' h
  refine ⟨ps, hps, hlen, ?_⟩
  obtain ⟨rs, b, hrs, hb, _, hraw⟩ := C64_conditions_on_raw_data .irep R F hF P hP d hd' .nothing c c' h d.X hX ps hps
  obtain ⟨fuel, g, g', h⟩ := h
  obtain ⟨df0, df, pc0, b', start, m, G, K, ht, hpc, hst, htrain, rfl, hdf, _, hcf, hGcf, hm, hshape⟩ := Method.fit_frames hF hP hd' h
  cases hst
  cases hrs
  cases hb
  have hidx : df.index = rowLabels d := by
    obtain ⟨_, df1, h2, h3⟩ := valid_toTraining hv
    rw [ht] at h2; injection h2 with h2
    rw [← h3, ← h2, hdf]
    simp [Frame.index, TFrame.mapAll, Function.comp_def]
  obtain ⟨p, hp, hall⟩ := C27_irep_covers_positives_data R c.hyper hprune hl df.toFrame (classFeatName d.classFeat d.y) pc0
    (by unfold Frame.UniqueIndex; rw [hidx]; exact hu) (by rw [hdf]; exact mapAll_readsApart (hr df0 ht) hshape)
    fuel g g' m htrain
  have hfeat : HasFeatures (df.toFrame.dropCol (classFeatName d.classFeat d.y)) m.ruleset.rules := by
    intro r hr' cond hc
    rcases C29_irep_no_leakage R c.hyper _ _ _ _ fuel g g' m htrain r hr' with h | h
    · simp at h
    · exact Frame.mem_dropCol.mpr ⟨(h cond hc).1.1, (h cond hc).1.2.1⟩
  obtain ⟨ps', hps', _, hdnf⟩ := C01_predict_is_dnf m.ruleset (df.toFrame.dropCol (classFeatName d.classFeat d.y))
    (by show df.toFrame.index.Nodup; rw [hidx]; exact hu) hfeat
  rw [hp] at hps'
  injection hps' with hps'
  intro i v pc hv1 hpc1 hsame hi
  rw [hraw i hi]
  obtain ⟨hkind, hrows⟩ := toTraining_kind hv hn ht
  obtain ⟨row0, hrow0, hcells, hlab⟩ := hrows i _ (List.getElem?_eq_getElem hi)
  rw [hv1] at hlab
  injection hlab with hlab
  have hpc2 : pc0 = pc := by cases hpc1; rfl
  subst hpc2
  have hi0 : i < df0.rows.length := (List.getElem?_eq_some_iff.mp hrow0).1
  have hrow1 : df.rows[i]? = some { row0 with cell := fun f => G f (row0.cell f) } := by
    rw [hdf]
    simp [TFrame.mapAll, hrow0]
  have hfire : FiresAny { row0 with cell := fun f => G f (row0.cell f) } m.ruleset.rules := by
    have hlt : i < df.rows.length := (List.getElem?_eq_some_iff.mp hrow1).1
    have he : df.rows[i] = { row0 with cell := fun f => G f (row0.cell f) } := (List.getElem?_eq_some_iff.mp hrow1).2
    have := (hdnf i hlt).mp (by
      rw [← hps', List.getElem?_map, hrow1, Option.map_some]
      congr 1
      refine hall _ (List.mem_of_getElem? hrow1) ?_
      unfold Positive
      simp only [hGcf, hlab]
      exact hsame)
    have he' : (df.toFrame.dropCol (classFeatName d.classFeat d.y)).rows[i]'hlt = df.rows[i] := rfl
    rw [he', he] at this
    exact this
  obtain ⟨r, hr', hfires⟩ := hfire
  refine ⟨r, hr', fun cond hc => ?_⟩
  have hcol := Frame.mem_dropCol.mp (hfeat r hr' cond hc)
  have h1 : cond.feature ∈ df0.cols := by have := hcol.1; rw [hdf] at this; exact this
  have := (hm cond row0 h1).mp (hfires cond hc)
  exact (rawMeets_congr (hkind _ hcol.2) (hcells _ hcol.2)).mp this

/-! ### failed fits -/

/-- C62, RIPPER. If the data is rejected (empty, wrong names, missing or misplaced class labels, positive class not
recognisable), the exception leaves the object exactly as it was. -/
theorem C62_ripper_rejected_data [Arith] (fuel : Nat) (R : PyRandom) (F : PyFloat) (P : PandasCut) (d : FitData) (init : ModelArg)
    (g : R.G) (c : Clf) (e : PyErr) (h : preprocessTraining F P c.nBins d = .error e) :
    Clf.ripperFit fuel R F P d init g c = .error e c := by
  unfold Clf.ripperFit
  rw [bind_ok (get_run _), bind_pureCode, h]

/-- C62 fails for IREP: data that is rejected also wipes the model. Whatever the object had learned, after the
exception its ruleset is the initial model (or the empty ruleset), while class, bins and stored features stay. -/
theorem C62_refuted_irep_wipes_model (fuel : Nat) (R : PyRandom) (F : PyFloat) (P : PandasCut) (d : FitData) (g : R.G)
    (c : Clf) (e : PyErr) (h : preprocessTraining F P c.nBins d = .error e) :
    Clf.irepFit fuel R F P d .nothing g c = .error e { c with ruleset := some { rules := [] } } := by
  unfold Clf.irepFit
  have h0 : ModelArg.nothing.early = .ok { rules := [] } := rfl
  rw [bind_pureCode, h0]
  simp only []
  rw [bind_ok (modify_run _ _), bind_ok (get_run _), bind_pureCode, h]

/-- C62 fails for RIPPER when the initial model is rejected: the exception leaves the old rules with the new data's
class column, positive class and bins. -/
theorem C62_refuted_ripper_bad_initial_model (fuel : Nat) (R : PyRandom) (F : PyFloat) (P : PandasCut) (d : FitData)
    (init : ModelArg) (g : R.G) (c : Clf) (e : PyErr) (df : TFrame) (cf : Feat) (pc : Val) (b : Binner)
    (h : preprocessTraining F P c.nBins d = .ok (df, cf, pc, b)) (hi : init.toRuleset = .error e) :
    Clf.ripperFit fuel R F P d init g c =
      .error e { c with classFeat := some cf, posClass := some pc, binner := some b } := by
  obtain ⟨hne, hcf⟩ := preprocessTraining_frame h
  unfold Clf.ripperFit
  rw [bind_ok (get_run _), bind_pureCode, h]
  simp only []
  rw [bind_ok (modify_run _ _), bind_ok (get_run _), bind_pureCode, CatNap.build_ok hcf]
  simp only []
  rw [bind_pureCode, hi]

/-! ### a concrete case: text and numbers, discretised into three bins -/

namespace Demo
def fn : Feat := .name p!"n"
def numCell (n : Int) : Val := .num n (intText n)
/-- Raw data: a text column and a numeric column with six values. -/
def mixed : TFrame :=
  { Frame.ofTable [fa, fn]
      [(0, [vx, numCell 1]), (1, [vx, numCell 2]), (2, [vx, numCell 12]), (3, [vy, numCell 25]), (4, [vy, numCell 3]),
       (5, [vx, numCell 20])] with
    kind := fun f => if f = fn then .number else .text }
def mixedData : FitData := { X := mixed, y := some (.list [vp, vp, vn, vn, vn, vn]), posClass := some vp }
/-- An unfitted IREP (`prune_size=None`), an unfitted RIPPER (`prune_size=1/3`). -/
def newIrep : Clf := { nBins := some 3, hyper := { pruneSize := none } }
def newRipper : Clf := { nBins := some 3, hyper := { pruneSize := some (1 / 3), randomState := some 7 } }
theorem mixed_valid : ValidInput mixedData where
  rows := by decide +kernel
  names := by intro ns h; cases h
  labels := Or.inl ⟨_, rfl, by decide +kernel⟩
  positive := Or.inl (by intro h; cases h)
theorem mixed_fit_irep : ∃ c', FittedBy .irep R0 F P mixedData .nothing newIrep c' := by
  obtain ⟨g', c', h⟩ := C35_irep_fit_on_valid_data R0 R0_lawful F F_lawful P P_lawful mixedData mixed_valid .nothing
    { rules := [] } rfl (by rintro f ⟨r, hr, _⟩; simp at hr) newIrep (Or.inl (by decide +kernel))
    (by decide +kernel) 7 (by decide +kernel) ()
  exact ⟨c', 7, (), g', h⟩
theorem mixed_fit_ripper : ∃ c', FittedBy .ripper R1 F P mixedData .nothing newRipper c' := by
  obtain ⟨g', c', h⟩ := C35_ripper_fit_on_valid_data R1 R1_lawful F F_lawful P P_lawful mixedData mixed_valid
    (by decide +kernel) newRipper (1 / 3) rfl (exact_leavesSome (by norm_num) (by norm_num)) (by decide +kernel) 7 (by decide +kernel) (0 : Nat)
  exact ⟨c', 7, (0 : Nat), g', h⟩
/-- Rules, bins and answers on the training data after a fit. -/
def seen {α : Type} (r : EStateM.Result PyErr Clf α) : Option (List (List Cond)) × List (Feat × List PStr) × Except PyErr (List Bool) :=
  ((after r).ruleset.map (fun rs => rs.rules.map Rule.conds), ((after r).binner.map Binner.bins).getD [],
    returned (Clf.predict F mixed none (after r)))
end Demo

example : Demo.seen (Method.irep.fit 7 Demo.R0 Demo.F Demo.P Demo.mixedData .nothing () Demo.newIrep) =
    (some [[⟨Demo.fn, .str p!"<9.0"⟩, ⟨Demo.fa, Demo.vx⟩]], [(Demo.fn, [p!"<9.0", p!"9.0 - 17.0", p!">17.0"])],
      .ok [true, true, false, false, false, false]) := by decide +kernel

example : Demo.seen (Method.ripper.fit 7 Demo.R1 Demo.F Demo.P Demo.mixedData .nothing (3 : Nat) Demo.newRipper) =
    Demo.seen (Method.ripper.fit 7 Demo.R1 Demo.F Demo.P Demo.mixedData .nothing (0 : Nat) Demo.newRipper) ∧
    (Demo.seen (Method.ripper.fit 7 Demo.R1 Demo.F Demo.P Demo.mixedData .nothing (3 : Nat) Demo.newRipper)).1 =
      some [[⟨Demo.fa, Demo.vx⟩, ⟨Demo.fn, .str p!"<9.0"⟩]] := by decide +kernel

/-- Without a seed the generator's state does matter. -/
example : let c : Clf := { Demo.newRipper with hyper := { Demo.newRipper.hyper with randomState := none } }
    (Demo.seen (Method.ripper.fit 7 Demo.R1 Demo.F Demo.P Demo.mixedData .nothing (0 : Nat) c)).1 ≠
    (Demo.seen (Method.ripper.fit 7 Demo.R1 Demo.F Demo.P Demo.mixedData .nothing (1 : Nat) c)).1 := by decide +kernel

/-- The hypotheses of `C27_irep_fit_covers_positives` hold of the concrete case. -/
example : ValidInput Demo.mixedData ∧ Demo.mixedData.X.cols.Nodup ∧ (rowLabels Demo.mixedData).Nodup ∧
    Demo.mixedData.X.UniqueIndex ∧ Demo.newIrep.hyper.irepPrune = 0 ∧
    ∀ df0, toTraining Demo.mixedData.X Demo.mixedData.y (classFeatName Demo.mixedData.classFeat Demo.mixedData.y)
      Demo.mixedData.names = .ok df0 → ReadsApart df0.toFrame (classFeatName Demo.mixedData.classFeat Demo.mixedData.y) := by
  refine ⟨Demo.mixed_valid, by decide +kernel, by decide +kernel, by unfold Frame.UniqueIndex; decide +kernel, by decide +kernel, ?_⟩
  intro df0 h
  cases h
  refine ⟨by decide +kernel, by decide +kernel, ?_⟩
  intro f hf hne row hr row' hr' _ _ he
  have hall : ∀ f ∈ [Demo.fa, Demo.fn], ∀ row ∈ Demo.mixed.rows, ∀ row' ∈ Demo.mixed.rows,
      (row.cell f).text = (row'.cell f).text → (row.cell f).pyEq (row'.cell f) = true := by decide +kernel
  have hf' : f ∈ [Demo.fa, Demo.fn] := by
    have h2 : ∀ f ∈ (Demo.mixed.setCol (.name p!"Class") [Demo.vp, Demo.vp, Demo.vn, Demo.vn, Demo.vn, Demo.vn]).cols,
      f ≠ .name p!"Class" → f ∈ [Demo.fa, Demo.fn] := by decide +kernel
    exact h2 f hf hne
  have hcell : ∀ row ∈ (Demo.mixed.setCol (.name p!"Class") [Demo.vp, Demo.vp, Demo.vn, Demo.vn, Demo.vn, Demo.vn]).rows,
      ∃ r0 ∈ Demo.mixed.rows, row.cell f = r0.cell f := by
    intro row hr
    obtain ⟨⟨r0, v⟩, hz, rfl⟩ := List.mem_map.mp hr
    exact ⟨r0, (List.of_mem_zip hz).1, if_neg hne⟩
  obtain ⟨r0, h0, e0⟩ := hcell row hr
  obtain ⟨r1, h1, e1⟩ := hcell row' hr'
  rw [e0, e1] at he ⊢
  exact Val.pyEq_iff.mp (hall f hf' r0 h0 r1 h1 he)

/-- An object that had learned something, and rejected (empty) data: RIPPER keeps its answers, IREP loses them. -/
example : let c := after (Method.irep.fit 7 Demo.R0 Demo.F Demo.P Demo.mixedData .nothing () Demo.newIrep)
    let empty : FitData := { Demo.mixedData with X := { Demo.mixed with rows := [] } }
    (Demo.seen (Method.ripper.fit 7 Demo.R0 Demo.F Demo.P empty .nothing () c)).2.2 = .ok [true, true, false, false, false, false] ∧
    (Demo.seen (Method.irep.fit 7 Demo.R0 Demo.F Demo.P empty .nothing () c)).2.2 = .ok [false, false, false, false, false, false] := by
  decide +kernel

end Witt
