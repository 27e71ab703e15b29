import Verif.Interpret
import Verif.Props.FitTrain
import Verif.Props.ScoreApi
/-
C77: rulesets as surrogates of other models (interpret.py).
-/
namespace Witt
open Spec

namespace Spec
/-- The name of the model's class, with its package, contains `s`. -/
def Mentions (m : Foreign) (s : PStr) : Prop := ∃ before rest, m.typeText = before ++ s ++ rest

/-- The value is a number above one half. -/
def AboveHalf (v : Val) : Prop := ∃ q t, v = .num q t ∧ 1 / 2 < q

/-- The predictions of model `m` on `X`: those of the given prediction function; without one, sklearn models and models of
no known package answer with `predict`, torch models when called, and keras and tensorflow models with the booleans
"`predict` says more than one half". -/
inductive Predictions (X : TFrame) (m : Foreign) : Option (TFrame → Foreign → Except PyErr Reply) → Reply → Prop
  | custom {fn : TFrame → Foreign → Except PyErr Reply} {a : Reply} : fn X m = .ok a → Predictions X m (some fn) a
  | sklearn {a : Reply} : Mentions m p!"sklearn" → m.predict X = .ok a → Predictions X m none a
  | keras {vs : List Val} {bs : List Bool} : ¬ Mentions m p!"sklearn" → (Mentions m p!"tensorflow" ∨ Mentions m p!"keras") →
      m.predict X = .ok (.array vs) → bs.length = vs.length → (∀ v ∈ vs, ∀ s, v ≠ .str s) →
      (∀ (i : Nat) (v : Val), vs[i]? = some v → (bs[i]? = some true ↔ AboveHalf v)) →
      Predictions X m none (.array (bs.map (fun b => if b then .num 1 p!"True" else .num 0 p!"False")))
  | torch {a : Reply} : ¬ Mentions m p!"sklearn" → ¬ Mentions m p!"tensorflow" → ¬ Mentions m p!"keras" →
      Mentions m p!"torch" → m.call X = .ok a → Predictions X m none a
  | other {a : Reply} : ¬ Mentions m p!"sklearn" → ¬ Mentions m p!"tensorflow" → ¬ Mentions m p!"keras" →
      ¬ Mentions m p!"torch" → m.predict X = .ok a → Predictions X m none a
end Spec

theorem pyIn_iff {s t : PStr} : pyIn s t = true ↔ ∃ before rest, t = before ++ s ++ rest := by
  induction t with
  | nil => cases s <;> simp [pyIn]
  | cons ch t ih =>
    unfold pyIn
    rw [Bool.or_eq_true, List.isPrefixOf_iff_prefix, ih]
    constructor
    · rintro (⟨rest, h⟩ | ⟨a, rest, h⟩)
      · exact ⟨[], rest, h.symm⟩
      · exact ⟨ch :: a, rest, by rw [h]; rfl⟩
    · rintro ⟨a, rest, h⟩
      cases a with
      | nil => exact Or.inl ⟨rest, h.symm⟩
      | cons b a =>
        simp only [List.cons_append, List.cons.injEq] at h
        exact Or.inr ⟨a, rest, by simpa using h.2⟩

theorem inPackage_iff {m : Foreign} {s : PStr} : m.inPackage s = true ↔ Mentions m s := pyIn_iff

theorem inPackage_false {m : Foreign} {s : PStr} : m.inPackage s = false ↔ ¬ Mentions m s := by
  rw [← inPackage_iff]; simp

theorem overHalf_ok {v w : Val} : v.overHalf = .ok w ↔ (∀ s, v ≠ .str s) ∧ w = Val.ofBool (match v with
    | .num q _ => decide (1 / 2 < q) | _ => false) := by
  cases v with
  | str s => simp [Val.overHalf]
  | num q t => simp [Val.overHalf, eq_comm]
  | nan => simp [Val.overHalf, eq_comm]

/-- The booleans of a keras answer. -/
def half (v : Val) : Bool := match v with | .num q _ => decide (1 / 2 < q) | _ => false

theorem half_iff {v : Val} : half v = true ↔ AboveHalf v := by
  unfold half AboveHalf
  cases v with
  | str s => simp
  | nan => simp
  | num q t => simp

theorem mapM_overHalf {vs ws : List Val} : vs.mapM Val.overHalf = .ok ws ↔
    (∀ v ∈ vs, ∀ s, v ≠ .str s) ∧ ws = vs.map (fun v => Val.ofBool (half v)) := by
  induction vs generalizing ws with
  | nil => simp [pure_eq_ok, eq_comm]
  | cons v vs ih =>
    rw [List.mapM_cons]
    cases hv : v.overHalf with
    | error e =>
      simp only [error_bind]
      constructor
      · intro h; cases h
      · rintro ⟨h, _⟩
        have := (overHalf_ok (v := v) (w := _)).mpr ⟨h v (by simp), rfl⟩
        rw [hv] at this; cases this
    | ok w =>
      obtain ⟨h1, rfl⟩ := overHalf_ok.mp hv
      simp only [ok_bind]
      cases hr : vs.mapM Val.overHalf with
      | error e =>
        simp only [error_bind]
        constructor
        · intro h; cases h
        · rintro ⟨h, _⟩
          have := (ih (ws := vs.map (fun v => Val.ofBool (half v)))).mpr ⟨fun v hv => h v (by simp [hv]), rfl⟩
          rw [hr] at this; cases this
      | ok ws' =>
        obtain ⟨h2, rfl⟩ := ih.mp hr
        simp only [ok_bind, pure_eq_ok, Except.ok.injEq]
        constructor
        · rintro rfl
          refine ⟨?_, by cases v <;> rfl⟩
          intro u hu
          rcases List.mem_cons.mp hu with rfl | hu
          · exact h1
          · exact h2 u hu
        · rintro ⟨_, rfl⟩
          cases v <;> rfl

/-- C77. Which predictions of the other model are used: exactly those of `Predictions`. -/
theorem C77_model_predictions (X : TFrame) (m : Foreign) (fn : Option (TFrame → Foreign → Except PyErr Reply)) (a : Reply) :
    modelPredict X m fn = .ok a ↔ Predictions X m fn a := by
  cases fn with
  | some fn => exact ⟨fun h => .custom h, fun h => by cases h with | custom h => exact h⟩
  | none =>
    unfold modelPredict
    simp only []
    by_cases h1 : Mentions m p!"sklearn"
    · rw [if_pos (inPackage_iff.mpr h1)]
      refine ⟨fun h => .sklearn h1 h, fun h => ?_⟩
      cases h with
      | sklearn _ h => exact h
      | keras n => exact absurd h1 n
      | torch n => exact absurd h1 n
      | other n => exact absurd h1 n
    · rw [if_neg (by rw [inPackage_iff]; exact h1)]
      by_cases h2 : Mentions m p!"tensorflow" ∨ Mentions m p!"keras"
      · rw [if_pos (by rw [Bool.or_eq_true, inPackage_iff, inPackage_iff]; exact h2)]
        unfold kerasPredict
        constructor
        · intro h
          obtain ⟨b, hb, h⟩ := bind_ok_iff.mp h
          cases b with
          | list vs => cases h
          | array vs =>
            obtain ⟨ws, hw, h⟩ := bind_ok_iff.mp h
            cases h
            obtain ⟨h3, rfl⟩ := mapM_overHalf.mp hw
            have : vs.map (fun v => Val.ofBool (half v)) =
                (vs.map half).map (fun b => if b then Val.num 1 p!"True" else .num 0 p!"False") := by
              simp [Val.ofBool, Function.comp_def]
            rw [this]
            refine .keras h1 h2 hb (by simp) h3 (fun i v hv => ?_)
            rw [List.getElem?_map, hv, Option.map_some, Option.some.injEq, half_iff]
        · intro h
          cases h with
          | sklearn n => exact absurd n h1
          | torch _ n n' => exact absurd h2 (by simp [n, n'])
          | other _ n n' => exact absurd h2 (by simp [n, n'])
          | keras n1 n2 hp hl ht hb =>
            rename_i vs bs
            rw [hp]
            simp only [ok_bind]
            have : bs = vs.map half := by
              refine List.ext_getElem? (fun i => ?_)
              rw [List.getElem?_map]
              rcases hv : vs[i]? with _ | v
              · rw [List.getElem?_eq_none_iff] at hv
                rw [List.getElem?_eq_none_iff.mpr (by omega)]; rfl
              · have hi : i < bs.length := by rw [hl]; exact (List.getElem?_eq_some_iff.mp hv).1
                have := hb i v hv
                rw [← half_iff, List.getElem?_eq_getElem hi, Option.some.injEq] at this
                rw [List.getElem?_eq_getElem hi, Option.map_some]
                cases hbi : bs[i] <;> cases hh : half v <;> simp_all
            rw [mapM_overHalf.mpr ⟨ht, rfl⟩]
            simp [this, Val.ofBool, pure_eq_ok, ok_bind]
      · push Not at h2
        rw [if_neg (by rw [Bool.or_eq_true, inPackage_iff, inPackage_iff]; simp [h2.1, h2.2])]
        by_cases h3 : Mentions m p!"torch"
        · rw [if_pos (inPackage_iff.mpr h3)]
          refine ⟨fun h => .torch h1 h2.1 h2.2 h3 h, fun h => ?_⟩
          cases h with
          | sklearn n => exact absurd n h1
          | keras _ n => exact absurd n (by simp [h2.1, h2.2])
          | torch _ _ _ _ h => exact h
          | other _ _ _ n => exact absurd h3 n
        · rw [if_neg (by rw [inPackage_iff]; exact h3)]
          have he : (if m.inPackage p!"wittgenstein" = true then m.predict X else m.predict X) = m.predict X := by split <;> rfl
          rw [he]
          refine ⟨fun h => .other h1 h2.1 h2.2 h3 h, fun h => ?_⟩
          cases h with
          | sklearn n => exact absurd n h1
          | keras _ n => exact absurd n (by simp [h2.1, h2.2])
          | torch _ _ _ n => exact absurd n h3
          | other _ _ _ _ h => exact h

/-! ### interpret_model -/

theorem toNum_forRows {r : Reply} {n : Nat} (h : r.values.length = n) : r.toNum.forRows n = r.values := by
  cases r with
  | list vs => rfl
  | array vs =>
    match vs, h with
    | [], _ => rfl
    | [v], h => subst h; rfl
    | v :: w :: vs, _ => rfl

/-- C77. `interpret_model(X, model, interpreter)` is `interpreter.fit(X, predictions of the model)`, class inferred:
same object afterwards, same exception; it returns the fitted ruleset. If the model raises, `interpret_model` raises
that, and the interpreter is untouched. -/
theorem C77_interpret_is_fit [Arith] (a : Method) (fuel : Nat) (R : PyRandom) (F : PyFloat) (P : PandasCut) (X : TFrame) (m : Foreign)
    (fn : Option (TFrame → Foreign → Except PyErr Reply)) (g : R.G) (c : Clf) :
    (∀ e, modelPredict X m fn = .error e →
      interpretModel (fun d => a.fit fuel R F P d .nothing g) X m fn c = .error e c) ∧
    (∀ r, Predictions X m fn r → r.values.length = X.rows.length →
      (∀ g' c', a.fit fuel R F P { X := X, y := some (.list r.values) } .nothing g c = .ok g' c' →
        ∃ rs, c'.ruleset = some rs ∧ interpretModel (fun d => a.fit fuel R F P d .nothing g) X m fn c = .ok (g', rs) c') ∧
      (∀ e c', a.fit fuel R F P { X := X, y := some (.list r.values) } .nothing g c = .error e c' →
        interpretModel (fun d => a.fit fuel R F P d .nothing g) X m fn c = .error e c')) := by
  constructor
  · intro e h
    unfold interpretModel
    rw [h, bind_error (by rw [pureCode_run]; rfl)]
  · intro r hr hl
    have hp := (C77_model_predictions X m fn r).mpr hr
    have hrun : interpretModel (fun d => a.fit fuel R F P d .nothing g) X m fn c =
        (a.fit fuel R F P { X := X, y := some (.list r.values) } .nothing g >>= fun g => self Clf.ruleset >>= fun rs =>
          pure (g, rs)) c := by
      unfold interpretModel
      rw [hp, bind_ok (by rw [pureCode_run]; rfl)]
      simp only [toNum_forRows hl]
    constructor
    · intro g' c' h
      obtain ⟨df, cf, pc, b, start, mm, _, _, _, rfl⟩ := Method.fit_ok h
      refine ⟨mm.ruleset, rfl, ?_⟩
      rw [hrun, bind_ok h, bind_ok (a := mm.ruleset) (c' := c.fitted mm b cf pc) (by rw [self_run]; rfl)]
      rfl
    · intro e c' h
      rw [hrun, bind_error h]

/-- C77. A model that answers an array of one value is taken to answer that value for every row. -/
theorem C77_single_answer [Arith] (a : Method) (fuel : Nat) (R : PyRandom) (F : PyFloat) (P : PandasCut) (X : TFrame) (m : Foreign)
    (fn : Option (TFrame → Foreign → Except PyErr Reply)) (g : R.G) (c : Clf) (v : Val) (hp : Predictions X m fn (.array [v])) :
    returned (interpretModel (fun d => a.fit fuel R F P d .nothing g) X m fn c) =
      (returned (a.fit fuel R F P { X := X, y := some (.list (List.replicate X.rows.length v)) } .nothing g c)).bind
        (fun g' => match (after (a.fit fuel R F P { X := X, y := some (.list (List.replicate X.rows.length v)) } .nothing g c)).ruleset with
          | some rs => .ok (g', rs)
          | none => .error .attributeError) := by
  have hp := (C77_model_predictions X m fn _).mpr hp
  unfold interpretModel
  rw [hp, bind_ok (by rw [pureCode_run]; rfl)]
  simp only [Reply.toNum, Labels.forRows]
  rw [bind_run]
  cases h : a.fit fuel R F P { X := X, y := some (.list (List.replicate X.rows.length v)) } .nothing g c with
  | error e c' => rfl
  | ok g' c' =>
    dsimp only
    obtain ⟨df, cf, pc, b, start, mm, _, _, _, rfl⟩ := Method.fit_ok h
    rw [bind_ok (a := mm.ruleset) (c' := c.fitted mm b cf pc) (by rw [self_run]; rfl)]
    rfl

namespace Spec
/-- Every answer is 0/False or 1/True. -/
def ZeroOne (vs : List Val) : Prop := ∀ v ∈ vs, IsZero v ∨ IsOne v
end Spec

theorem answers_toTraining {X : TFrame} {vs : List Val} (hl : vs.length = X.rows.length) :
    toTraining X (some (.list vs)) (.name p!"Class") none = .ok (X.setCol (.name p!"Class") vs) := by
  unfold toTraining attachY
  simp [hl, ok_bind]

theorem setCol_labels {X : TFrame} {f : Feat} {vs : List Val} {row : Row} (h : row ∈ (X.setCol f vs).rows) : row.cell f ∈ vs := by
  obtain ⟨⟨r, v⟩, hm, rfl⟩ := List.mem_map.mp h
  simp only [if_pos]
  exact (List.of_mem_zip hm).2

theorem answers_valid {X : TFrame} {vs : List Val} (hX : X.rows ≠ []) (hl : vs.length = X.rows.length) (hz : ZeroOne vs) :
    ValidInput { X := X, y := some (.list vs) } where
  rows := hX
  names := by intro ns h; cases h
  labels := Or.inl ⟨vs, rfl, hl⟩
  positive := Or.inr (fun df0 h => by
    have h' : toTraining X (some (.list vs)) (.name p!"Class") none = .ok df0 := h
    rw [answers_toTraining hl] at h'
    injection h' with h'
    subst h'
    exact Or.inl (fun row hr => hz _ (setCol_labels hr)))

theorem answers_class [Arith] {X : TFrame} {vs : List Val} (hX : X.rows ≠ []) (hl : vs.length = X.rows.length) (hz : ZeroOne vs)
    {a : Method} {fuel : Nat} {R : PyRandom} {F : PyFloat} {P : PandasCut} {init : ModelArg} {g g' : R.G} {c c' : Clf}
    (h : a.fit fuel R F P { X := X, y := some (.list vs) } init g c = .ok g' c') : ∃ pc, c'.posClass = some pc ∧ IsOne pc := by
  obtain ⟨df, cf, pc, b, start, mm, h1, _, _, rfl⟩ := Method.fit_ok h
  refine ⟨pc, rfl, ?_⟩
  obtain ⟨_, rfl, df0, ht, hpc, _⟩ := preprocessTraining_ok h1
  have h' : toTraining X (some (.list vs)) (.name p!"Class") none = .ok df0 := ht
  rw [answers_toTraining hl] at h'
  injection h' with h'
  subst h'
  have hne : (X.setCol (.name p!"Class") vs).rows ≠ [] := by
    intro he
    have := congrArg List.length he
    simp only [TFrame.setCol, List.length_map, List.length_zip, List.length_nil, hl, min_self] at this
    exact hX (List.eq_nil_of_length_eq_zero this)
  obtain ⟨v, hv, hone⟩ := (C53_class_inference (X.setCol (.name p!"Class") vs).toFrame (.name p!"Class") hne).1
    (fun row hr => hz _ (setCol_labels hr))
  have hpc' : posClassOf ((X.setCol (.name p!"Class") vs).unique (.name p!"Class")) none = .ok pc := hpc
  rw [hv] at hpc'
  injection hpc' with hpc'
  rw [← hpc']; exact hone

/-- C77. An IREP object interprets, without raising, every model that answers 0/False or 1/True for each row of `X`, on
every non-empty `X`, if `prune_size` is None, 0 or leaves something to prune on (C35_prune_sizes) and `alpha` is positive. -/
theorem C77_irep_interprets [Arith] [Arith.Lawful] (R : PyRandom) (hR : R.Lawful) (F : PyFloat) (hF : F.Lawful) (P : PandasCut) (hP : P.Lawful F)
    (X : TFrame) (hX : X.rows ≠ []) (m : Foreign) (fn : Option (TFrame → Foreign → Except PyErr Reply)) (r : Reply)
    (hr : Predictions X m fn r) (hl : r.values.length = X.rows.length) (hz : ZeroOne r.values) (c : Clf)
    (hp : c.hyper.irepPrune = 0 ∨ Arith.LeavesSome c.hyper.irepPrune) (ha : 0 < c.hyper.alpha) (fuel : Nat)
    (hfuel : X.rows.length < fuel) (g : R.G) :
    ∃ g' rs c', interpretModel (fun d => Clf.irepFit fuel R F P d .nothing g) X m fn c = .ok (g', rs) c' ∧
      c'.ruleset = some rs := by
  obtain ⟨g', c', h⟩ := C35_irep_fit_on_valid_data R hR F hF P hP { X := X, y := some (.list r.values) }
    (answers_valid hX hl hz) .nothing { rules := [] } rfl (by rintro f ⟨r, hr, _⟩; simp at hr) c hp ha fuel hfuel g
  obtain ⟨rs, h2, h3⟩ := ((C77_interpret_is_fit .irep fuel R F P X m fn g c).2 r hr hl).1 g' c' h
  exact ⟨g', rs, c', h3, h2⟩

/-- C77. So does a RIPPER object (the default interpreter), if the row labels are distinct and `prune_size` leaves something
to prune on. -/
theorem C77_ripper_interprets [Arith] [Arith.Lawful] (R : PyRandom) (hR : R.Lawful) (F : PyFloat) (hF : F.Lawful) (P : PandasCut) (hP : P.Lawful F)
    (X : TFrame) (hX : X.rows ≠ []) (hu : X.UniqueIndex) (m : Foreign) (fn : Option (TFrame → Foreign → Except PyErr Reply))
    (r : Reply) (hr : Predictions X m fn r) (hl : r.values.length = X.rows.length) (hz : ZeroOne r.values) (c : Clf)
    (ps : Rat) (hps : c.hyper.pruneSize = some ps) (hp : Arith.LeavesSome ps) (ha : 0 < c.hyper.alpha) (fuel : Nat)
    (hfuel : X.rows.length < fuel) (g : R.G) :
    ∃ g' rs c', interpretModel (fun d => Clf.ripperFit fuel R F P d .nothing g) X m fn c = .ok (g', rs) c' ∧
      c'.ruleset = some rs := by
  obtain ⟨g', c', h⟩ := C35_ripper_fit_on_valid_data R hR F hF P hP { X := X, y := some (.list r.values) }
    (answers_valid hX hl hz) hu c ps hps hp ha fuel hfuel g
  obtain ⟨rs, h2, h3⟩ := ((C77_interpret_is_fit .ripper fuel R F P X m fn g c).2 r hr hl).1 g' c' h
  exact ⟨g', rs, c', h3, h2⟩

theorem interpret_completed [Arith] (a : Method) (fuel : Nat) (R : PyRandom) (F : PyFloat) (P : PandasCut) (X : TFrame) (m : Foreign)
    (fn : Option (TFrame → Foreign → Except PyErr Reply)) (g : R.G) (c : Clf) :
    (completed (interpretModel (fun d => a.fit fuel R F P d .nothing g) X m fn c)).map (fun p => (p.1.2, p.2)) =
      (modelPredict X m fn).bind (fun r =>
        ((completed (a.fit fuel R F P { X := X, y := some (.list (r.toNum.forRows X.rows.length)) } .nothing g c)).map Prod.snd).bind
          (fun c' => match c'.ruleset with
            | some rs => .ok (rs, c')
            | none => .error .attributeError)) := by
  unfold interpretModel
  cases modelPredict X m fn with
  | error e => rw [bind_error (by rw [pureCode_run]; rfl)]; rfl
  | ok r =>
    rw [bind_ok (by rw [pureCode_run]; rfl), bind_run]
    simp only [Except.bind]
    cases h : a.fit fuel R F P { X := X, y := some (.list (r.toNum.forRows X.rows.length)) } .nothing g c with
    | error e c' => rfl
    | ok g' c' =>
      dsimp only
      rw [bind_run, self_run]
      cases hr : c'.ruleset <;> simp [attr, completed, Except.map, hr]

/-- C77. The interpreter's past does not matter (the default interpreter is one object shared by all calls): with a seed,
two calls on interpreters with the same parameters give the same ruleset, the same object and the same exceptions,
whatever either had learned before and whatever the state of the global generator. -/
theorem C77_interpreter_history [Arith] (a : Method) (fuel : Nat) (R : PyRandom) (hR : R.SeedResets) (F : PyFloat) (P : PandasCut)
    (X : TFrame) (m : Foreign) (fn : Option (TFrame → Foreign → Except PyErr Reply)) (g g' : R.G) (c c' : Clf)
    (hh : c'.hyper = c.hyper) (hn : c'.nBins = c.nBins) (s : Int) (hs : c.hyper.randomState = some s) :
    (completed (interpretModel (fun d => a.fit fuel R F P d .nothing g) X m fn c)).map (fun p => (p.1.2, p.2)) =
      (completed (interpretModel (fun d => a.fit fuel R F P d .nothing g') X m fn c')).map (fun p => (p.1.2, p.2)) := by
  rw [interpret_completed, interpret_completed]
  congr 1
  funext r
  rw [C36_fit_reproducible a fuel R hR F P _ .nothing g g' c c' hh hn s hs]

/-! ### score_fidelity -/

/-- C77. `score_fidelity` needs a model or its predictions: without either it is a ValueError. Given predictions, the model
is not asked. -/
theorem C77_fidelity_needs {α : Type} (F : PyFloat) (X : TFrame) (fn : Option (TFrame → Foreign → Except PyErr Reply))
    (score : List Bool → List Bool → Except PyErr α) (c : Clf) :
    scoreFidelity F X none none fn score c = .error .valueError c ∧
    ∀ model vs, scoreFidelity F X model (some vs) fn score c = Clf.score F X vs score c := by
  constructor
  · unfold scoreFidelity fidelityLabels
    rw [bind_error (by rw [pureCode_run]; rfl)]
  · intro model vs
    unfold scoreFidelity fidelityLabels
    rw [bind_ok (by rw [pureCode_run]; rfl)]
    rfl

/-- C77. Passing the model is passing its predictions, unless it answers an array of one value; and if the model raises,
`score_fidelity` raises that. -/
theorem C77_fidelity_of_model {α : Type} (F : PyFloat) (X : TFrame) (m : Foreign)
    (fn : Option (TFrame → Foreign → Except PyErr Reply)) (score : List Bool → List Bool → Except PyErr α) (c : Clf) :
    (∀ e, modelPredict X m fn = .error e → scoreFidelity F X (some m) none fn score c = .error e c) ∧
    ∀ r, Predictions X m fn r → (∀ v, r ≠ .array [v]) →
      scoreFidelity F X (some m) none fn score c = Clf.score F X r.values score c := by
  constructor
  · intro e h
    unfold scoreFidelity fidelityLabels
    simp only [h]
    rw [bind_error (by rw [pureCode_run]; rfl)]
  · intro r hr hne
    have hp := (C77_model_predictions X m fn r).mpr hr
    unfold scoreFidelity fidelityLabels
    simp only [hp]
    rw [bind_ok (by rw [pureCode_run]; rfl)]
    cases r with
    | list vs => rfl
    | array vs =>
      match vs, hne with
      | [], _ => rfl
      | [v], h => exact absurd rfl (h v)
      | v :: w :: vs, _ => rfl

/-- C77. With the default score and answers 0/False or 1/True, fidelity is the fraction of rows on which the interpreter
(whose positive class is 1/True) and the model agree. -/
theorem C77_fidelity_is_agreement (F : PyFloat) (X : TFrame) (m : Foreign)
    (fn : Option (TFrame → Foreign → Except PyErr Reply)) (r : Reply) (hr : Predictions X m fn r) (hne : ∀ v, r ≠ .array [v])
    (h1 : r.values ≠ []) (hz : ZeroOne r.values) (c : Clf) (pc : Val) (hpc : c.posClass = some pc) (hone : IsOne pc)
    (preds : List Bool) (hp : returned (Clf.predict F X none c) = .ok preds) (hl : r.values.length = preds.length) :
    ∃ agree : List Nat, agree.Nodup ∧
      (∀ i : Nat, i ∈ agree ↔ ∃ v b, r.values[i]? = some v ∧ preds[i]? = some b ∧
        ((IsOne v ∧ b = true) ∨ (IsZero v ∧ b = false))) ∧
      returned (scoreFidelity F X (some m) none fn scoreAccuracy c) = .ok (some ((agree.length : Rat) / r.values.length)) := by
  rw [(C77_fidelity_of_model F X m fn scoreAccuracy c).2 r hr hne]
  obtain ⟨right, hn, hmem, hs⟩ := (C68_accuracy F X r.values c pc hpc preds hp h1).1 hl
  refine ⟨right, hn, fun i => ?_, hs⟩
  rw [hmem]
  constructor <;> rintro ⟨v, b, hv, hb, h⟩ <;> refine ⟨v, b, hv, hb, ?_⟩
  · obtain ⟨t, rfl⟩ := hone
    rcases hz v (List.mem_of_getElem? hv) with ⟨u, rfl⟩ | ⟨u, rfl⟩
    · right
      refine ⟨⟨u, rfl⟩, ?_⟩
      cases b with
      | false => rfl
      | true =>
        rcases h.mp rfl with ⟨s, h, _⟩ | ⟨q, _, _, h, h'⟩
        · cases h
        · cases h; cases h'
    · exact Or.inl ⟨⟨u, rfl⟩, h.mpr (Or.inr ⟨1, u, t, rfl, rfl⟩)⟩
  · obtain ⟨t, rfl⟩ := hone
    rcases h with ⟨⟨u, rfl⟩, rfl⟩ | ⟨⟨u, rfl⟩, rfl⟩
    · simp only [true_iff]
      exact Or.inr ⟨1, u, t, rfl, rfl⟩
    · constructor
      · intro h; cases h
      · rintro (⟨s, h, _⟩ | ⟨q, _, _, h, h'⟩)
        · cases h
        · cases h; cases h'

theorem scoreLabels_after {α : Type} (F : PyFloat) (X : TFrame) (y : Labels) (score : List Bool → List Bool → Except PyErr α)
    {c : Clf} {pc : Val} (hpc : c.posClass = some pc) (hc : after (Clf.predict F X none c) = c) :
    after (scoreLabels F X y score c) = c := by
  unfold scoreLabels
  cases y.iterate with
  | ok vs =>
    simp only []
    rw [(C68_score_is_of_predict F X vs score c pc hpc).2.2, hc]
  | error e =>
    simp only []
    rw [bind_run, self_run]
    cases hr : c.ruleset with
    | none => rfl
    | some rs =>
      simp only [attr, outcome_ok]
      rw [bind_run]
      cases hp : Clf.predict F X none c with
      | error e' c' => rw [hp] at hc; exact hc
      | ok ps c' => rw [hp] at hc; exact hc

/-- C77. An iterable of score functions gives the list of their single scores (or the first exception), if predict leaves
the interpreter as it is (as it does once fitted). -/
theorem C77_fidelity_of_each {α : Type} (F : PyFloat) (X : TFrame) (model : Option Foreign) (preds : Option (List Val))
    (fn : Option (TFrame → Foreign → Except PyErr Reply)) (scores : List (List Bool → List Bool → Except PyErr α)) (c : Clf)
    (hs : scores ≠ []) (pc : Val) (hpc : c.posClass = some pc) (hc : after (Clf.predict F X none c) = c) :
    returned (scoreFidelityAll F X model preds fn scores c) =
      scores.mapM (fun score => returned (scoreFidelity F X model preds fn score c)) := by
  have key : ∀ (y : Labels) (l : List (List Bool → List Bool → Except PyErr α)),
      returned (scoreEach F X y l c) = l.mapM (fun score => returned (scoreLabels F X y score c)) := by
    intro y l
    induction l with
    | nil => rfl
    | cons score l ih =>
      unfold scoreEach
      rw [bind_run, List.mapM_cons]
      have ha := scoreLabels_after F X y score hpc hc
      cases h : scoreLabels F X y score c with
      | error e c' => rfl
      | ok v c' =>
        rw [h] at ha
        have ha : c' = c := ha
        subst ha
        dsimp only
        rw [bind_run]
        rw [show returned (EStateM.Result.ok v c' : EStateM.Result PyErr Clf α) = .ok v from rfl, ok_bind, ← ih]
        cases scoreEach F X y l c' <;> rfl
  unfold scoreFidelityAll
  rw [bind_run, pureCode_run]
  cases h : fidelityLabels X model preds fn with
  | error e =>
    have hall : ∀ score : List Bool → List Bool → Except PyErr α, returned (scoreFidelity F X model preds fn score c) = .error e := by
      intro score
      unfold scoreFidelity
      rw [h, bind_error (by rw [pureCode_run]; rfl)]
      rfl
    cases scores with
    | nil => exact absurd rfl hs
    | cons sc l => rw [List.mapM_cons, hall]; rfl
  | ok y =>
    simp only [outcome_ok]
    rw [key]
    congr 1
    funext score
    unfold scoreFidelity
    rw [h, bind_ok (by rw [pureCode_run]; rfl)]

/-! ### faithful surrogates -/

theorem text_class {f : Feat} (h : f.text = p!"Class") : f = .name p!"Class" := by
  cases f with
  | name s => exact congrArg Feat.name h
  | idx n =>
    exfalso
    have hd : ∀ k : Nat, Nat.toDigits 10 k ≠ p!"Class" := by
      intro k hk
      have : 'C' ∈ Nat.toDigits 10 k := by rw [hk]; decide
      have := Nat.isDigit_of_mem_toDigits (by decide) (by decide) this
      revert this; decide
    cases n with
    | ofNat k => exact hd k h
    | negSucc k =>
      have : '-' = 'C' := by injection h
      revert this; decide

theorem setCol_readsApart {X : TFrame} {vs : List Val} (h : ReadsApart X.toFrame (.name p!"Class")) :
    ReadsApart (X.setCol (.name p!"Class") vs).toFrame (.name p!"Class") := by
  have hcols : ∀ f ∈ (X.setCol (.name p!"Class") vs).cols, f ∈ X.cols ∨ f = .name p!"Class" := by
    intro f hf
    unfold TFrame.setCol at hf
    simp only at hf
    split at hf
    · exact Or.inl hf
    · rcases List.mem_append.mp hf with hf | hf
      · exact Or.inl hf
      · exact Or.inr (by simpa using hf)
  refine ⟨fun f hf => ?_, fun f hf f' hf' he => ?_, fun f hf hne row hr row' hr' h1 h2 he => ?_⟩
  · rcases hcols f hf with hf | rfl
    · exact h.noEq f hf
    · decide
  · rcases hcols f hf with hf | rfl
    · rcases hcols f' hf' with hf' | rfl
      · exact h.cols f hf f' hf' he
      · exact text_class he
    · exact (text_class he.symm).symm
  · have hX := (hcols f hf).resolve_right hne
    obtain ⟨⟨r, v⟩, hm, rfl⟩ := List.mem_map.mp hr
    obtain ⟨⟨r', v'⟩, hm', rfl⟩ := List.mem_map.mp hr'
    simp only [if_neg hne] at h1 h2 he ⊢
    exact h.cells f hX hne r (List.of_mem_zip hm).1 r' (List.of_mem_zip hm').1 h1 h2 he

/-- C77. A faithful surrogate. `IREP(prune_size=None)` without limits interprets a model that answers 0/False or 1/True for
each row of `X`, where row labels are distinct and nothing prints like something else. If rows the model calls positive miss
no value, and rows that look alike after discretisation get the same answer, then the interpreter's predictions on `X` are the
model's, and `score_fidelity(X, interpreter, model)` is 1 (if there is more than one row). -/
theorem C77_faithful_surrogate [Arith] [Arith.Lawful] (R : PyRandom) (hR : R.Lawful) (F : PyFloat) (hF : F.Lawful) (P : PandasCut) (hP : P.Lawful F)
    (X : TFrame) (hX : X.rows ≠ []) (hu : X.UniqueIndex) (hd : X.cols.Nodup) (hra : ReadsApart X.toFrame (.name p!"Class"))
    (m : Foreign) (fn : Option (TFrame → Foreign → Except PyErr Reply)) (r : Reply) (hr : Predictions X m fn r)
    (hl : r.values.length = X.rows.length) (hz : ZeroOne r.values) (c : Clf) (hprune : c.hyper.irepPrune = 0)
    (hlim : c.hyper.lim = {}) (hs : Arith.SharpUpTo X.rows.length) (fuel : Nat) (g g' : R.G) (rs : Ruleset) (c' : Clf)
    (h : interpretModel (fun d => Clf.irepFit fuel R F P d .nothing g) X m fn c = .ok (g', rs) c')
    (b : Binner) (hb : c'.binner = some b)
    (hm : ∀ (i : Nat) (row : Row) (v : Val), X.rows[i]? = some row → r.values[i]? = some v → IsOne v →
      ∀ f ∈ X.cols, f ≠ .name p!"Class" → ∃ w, RawMeets F b X row ⟨f, w⟩)
    (hc : ∀ (i j : Nat) (row row' : Row) (v w : Val), X.rows[i]? = some row → r.values[i]? = some v →
      X.rows[j]? = some row' → r.values[j]? = some w → RawAlike F b X (.name p!"Class") row row' → IsOne v → IsOne w) :
    ∃ ps, Clf.predict F X none c' = .ok ps c' ∧ ps.length = X.rows.length ∧
      (∀ (i : Nat) (v : Val), r.values[i]? = some v → (ps[i]? = some true ↔ IsOne v)) ∧
      ((∀ v, r ≠ .array [v]) → returned (scoreFidelity F X (some m) none fn scoreAccuracy c') = .ok (some 1)) := by
  have hfit : Clf.irepFit fuel R F P { X := X, y := some (.list r.values) } .nothing g c = .ok g' c' := by
    obtain ⟨h1, h2⟩ := (C77_interpret_is_fit .irep fuel R F P X m fn g c).2 r hr hl
    have he : ∀ d, Method.irep.fit fuel R F P d .nothing g = Clf.irepFit fuel R F P d .nothing g := fun _ => rfl
    simp only [he] at h1 h2
    cases hf : Clf.irepFit fuel R F P { X := X, y := some (.list r.values) } .nothing g c with
    | error e c'' => rw [h2 e c'' hf] at h; cases h
    | ok g'' c'' =>
      obtain ⟨rs', _, h3⟩ := h1 g'' c'' hf
      rw [h3] at h
      cases h
      rfl
  have hv := answers_valid hX hl hz
  obtain ⟨pc, hpc, hone⟩ := answers_class (a := .irep) hX hl hz hfit
  have ht : toTraining X (some (.list r.values)) (.name p!"Class") none = .ok (X.setCol (.name p!"Class") r.values) :=
    answers_toTraining hl
  obtain ⟨hkind, hrows⟩ := toTraining_kind hv rfl ht
  have hsame : ∀ {v : Val}, (IsZero v ∨ IsOne v) → (Same v pc ↔ IsOne v) := by
    obtain ⟨t, rfl⟩ := hone
    rintro v (⟨u, rfl⟩ | ⟨u, rfl⟩)
    · constructor
      · rintro (⟨s, h, _⟩ | ⟨q, _, _, h, h'⟩)
        · cases h
        · cases h; cases h'
      · rintro ⟨w, h⟩; cases h
    · exact ⟨fun _ => ⟨u, rfl⟩, fun _ => Or.inr ⟨1, u, t, rfl, rfl⟩⟩
  -- a row of the labelled frame comes from a row of `X`
  have hfrom : ∀ row0 ∈ (X.setCol (.name p!"Class") r.values).rows, ∃ (i : Nat) (row : Row) (v : Val), X.rows[i]? = some row ∧
      r.values[i]? = some v ∧ row0.cell (.name p!"Class") = v ∧ ∀ f, f ≠ .name p!"Class" → row0.cell f = row.cell f := by
    intro row0 h0
    obtain ⟨i, hi, he⟩ := List.mem_iff_getElem.mp h0
    have hi' : i < X.rows.length := by
      have : (X.setCol (.name p!"Class") r.values).rows.length = X.rows.length := by simp [TFrame.setCol, hl]
      omega
    obtain ⟨row1, h1, h2, h3⟩ := hrows i X.rows[i] (List.getElem?_eq_getElem hi')
    rw [List.getElem?_eq_getElem hi, Option.some.injEq, he] at h1
    subst h1
    exact ⟨i, X.rows[i], row0.cell (.name p!"Class"), List.getElem?_eq_getElem hi', h3.symm, rfl, h2⟩
  have hcolX : ∀ f ∈ (X.setCol (.name p!"Class") r.values).cols, f ≠ .name p!"Class" → f ∈ X.cols := by
    intro f hf hne
    have := ((toTraining_ok ht).2.1 f).mp hf
    simpa [hne] using this
  have hcolX' : ∀ f ∈ X.cols, f ∈ (X.setCol (.name p!"Class") r.values).cols := by
    intro f hf
    exact ((toTraining_ok ht).2.1 f).mpr (Or.inl hf)
  obtain ⟨ps, hps, hlen, hans⟩ := C69_irep_fit_reproduces_training_data R hR F hF P hP { X := X, y := some (.list r.values) }
    hv rfl hd hu hu c c' ⟨fuel, g, g', hfit⟩ _ ht (setCol_readsApart hra) pc hpc b hb
    (by
      intro row0 h0 hpos f hf hne
      obtain ⟨i, row, v, h1, h2, h3, h4⟩ := hfrom row0 h0
      have hv1 : IsOne v := (hsame (hz v (List.mem_of_getElem? h2))).mp (h3 ▸ hpos)
      obtain ⟨w, hw⟩ := hm i row v h1 h2 hv1 f (hcolX f hf hne) hne
      exact ⟨w, (rawMeets_congr (hkind f hne) (h4 f hne)).mpr hw⟩)
    (by
      intro row0 h0 row0' h0' hpos hal
      obtain ⟨i, row, v, h1, h2, h3, h4⟩ := hfrom row0 h0
      obtain ⟨j, row', w, h1', h2', h3', h4'⟩ := hfrom row0' h0'
      have hv1 : IsOne v := (hsame (hz v (List.mem_of_getElem? h2))).mp (h3 ▸ hpos)
      have hw1 : IsOne w := hc i j row row' v w h1 h2 h1' h2' (fun cond hcol hne => by
        have := hal cond (hcolX' _ hcol) hne
        rwa [rawMeets_congr (hkind _ hne) (h4 _ hne), rawMeets_congr (hkind _ hne) (h4' _ hne)] at this) hv1
      show Same _ _
      have h3'' : row0'.cell (classFeatName none (some (YArg.list r.values))) = w := h3'
      rw [h3'']
      exact (hsame (hz w (List.mem_of_getElem? h2'))).mpr hw1)
    hprune hlim hs
  have hans' : ∀ (i : Nat) (v : Val), r.values[i]? = some v → (ps[i]? = some true ↔ IsOne v) := by
    intro i v hvi
    have hi : i < X.rows.length := by rw [← hl]; exact (List.getElem?_eq_some_iff.mp hvi).1
    rw [hans i hi]
    simp only [trueLabel]
    rw [← hsame (hz v (List.mem_of_getElem? hvi))]
    constructor
    · rintro ⟨w, hw, hs⟩; rw [hvi] at hw; cases hw; exact hs
    · intro hs; exact ⟨v, hvi, hs⟩
  have hlen : ps.length = X.rows.length := hlen
  refine ⟨ps, hps, hlen, hans', fun hne => ?_⟩
  have hne0 : r.values ≠ [] := by
    intro he; rw [he] at hl; exact hX (List.eq_nil_of_length_eq_zero hl.symm)
  obtain ⟨agree, hn, hmem, hs⟩ := C77_fidelity_is_agreement F X m fn r hr hne hne0 hz c' pc hpc hone ps
    (by have hps : Clf.predict F X none c' = .ok ps c' := hps
        rw [hps]; rfl) (by omega)
  rw [hs]
  have hperm : agree.Perm (List.range r.values.length) := by
    refine (List.perm_ext_iff_of_nodup hn List.nodup_range).mpr (fun i => ?_)
    rw [hmem, List.mem_range]
    constructor
    · rintro ⟨v, _, hvi, _⟩; exact (List.getElem?_eq_some_iff.mp hvi).1
    · intro hi
      have hvi := List.getElem?_eq_getElem hi
      have hi' : i < ps.length := by omega
      refine ⟨_, ps[i], hvi, List.getElem?_eq_getElem hi', ?_⟩
      have h1 := hans' i _ hvi
      rw [List.getElem?_eq_getElem hi', Option.some.injEq] at h1
      rcases hz _ (List.mem_of_getElem? hvi) with ⟨u, h0⟩ | h0
      · right
        refine ⟨⟨u, h0⟩, ?_⟩
        cases hb : ps[i] with
        | false => rfl
        | true =>
          obtain ⟨u', h'⟩ := h1.mp hb
          rw [h0] at h'; cases h'
      · exact Or.inl ⟨h0, h1.mpr h0⟩
  rw [hperm.length_eq, List.length_range, div_self]
  have : r.values.length ≠ 0 := by simpa using hne0
  exact_mod_cast this

/-! ### one answer, and rulesets as models -/

/-- C77, refuted: "`score_fidelity(X, interpreter, model)` scores the model's predictions". If the model answers an array of
one number (one row of data), it is a TypeError; if it answers an array of one text, the labels are the characters of the
text. -/
theorem C77_refuted_one_answer (F : PyFloat) (X : TFrame) (m : Foreign) (fn : Option (TFrame → Foreign → Except PyErr Reply))
    (v : Val) (hp : Predictions X m fn (.array [v])) (c : Clf) (preds : List Bool)
    (hq : Clf.predict F X none c = .ok preds c) :
    ((∀ s, v ≠ .str s) → ∀ score : List Bool → List Bool → Except PyErr (Option Rat),
      returned (scoreFidelity F X (some m) none fn score c) = .error .typeError) ∧
    (∀ s, v = .str s → ∀ score : List Bool → List Bool → Except PyErr (Option Rat),
      scoreFidelity F X (some m) none fn score c = Clf.score F X (s.map (fun ch => .str [ch])) score c) := by
  have hp := (C77_model_predictions X m fn _).mpr hp
  have hrun : ∀ score : List Bool → List Bool → Except PyErr (Option Rat),
      scoreFidelity F X (some m) none fn score c = scoreLabels F X (.one v) score c := by
    intro score
    unfold scoreFidelity fidelityLabels
    simp only [hp]
    rw [bind_ok (by rw [pureCode_run]; rfl)]
    rfl
  have hr : ∃ rs, c.ruleset = some rs := by
    cases h : c.ruleset with
    | some rs => exact ⟨rs, rfl⟩
    | none => rw [predict_eq_query, query_unfit h] at hq; cases hq
  obtain ⟨rs, hr⟩ := hr
  constructor
  · intro hv score
    rw [hrun]
    have hi : (Labels.one v).iterate = .error .typeError := by
      cases v with
      | str s => exact absurd rfl (hv s)
      | num q t => rfl
      | nan => rfl
    unfold scoreLabels
    rw [hi]
    simp only []
    rw [bind_ok (a := rs) (c' := c) (by rw [self_run]; simp [hr, attr]), bind_ok hq, pureCode_run]
    rfl
  · rintro s rfl score
    rw [hrun]
    rfl

/-- C77. A fitted IREP or RIPPER object can be the model: its predictions are its `predict`, as True and False, one per row. -/
theorem C77_rulesets_as_models (F : PyFloat) (X : TFrame) (c : Clf) (typeText : PStr)
    (h1 : ∀ s ∈ [p!"sklearn", p!"tensorflow", p!"keras", p!"torch"], ¬ Mentions (Foreign.ofClf F c typeText) s)
    (ps : List Bool) (hp : returned (Clf.predict F X none c) = .ok ps) :
    ∃ r, Predictions X (Foreign.ofClf F c typeText) none r ∧ ZeroOne r.values ∧ (∀ v, r ≠ .array [v]) ∧
      r.values.length = ps.length ∧ ∀ (i : Nat) (b : Bool), ps[i]? = some b →
        ∃ v, r.values[i]? = some v ∧ (IsOne v ↔ b = true) := by
  refine ⟨.list (ps.map Val.ofBool), .other (h1 _ (by simp)) (h1 _ (by simp)) (h1 _ (by simp)) (h1 _ (by simp)) ?_, ?_, ?_, ?_, ?_⟩
  · show (match Clf.predict F X none c with
      | .ok ps _ => Except.ok (Reply.list (ps.map Val.ofBool))
      | .error e _ => .error e) = _
    cases h : Clf.predict F X none c with
    | error e c' => rw [h] at hp; cases hp
    | ok ps' c' => rw [h] at hp; cases hp; rfl
  · intro v hv
    obtain ⟨b, _, rfl⟩ := List.mem_map.mp hv
    cases b
    · exact Or.inl ⟨_, rfl⟩
    · exact Or.inr ⟨_, rfl⟩
  · intro v h; cases h
  · simp [Reply.values]
  · intro i b hb
    refine ⟨Val.ofBool b, by simp [Reply.values, hb], ?_⟩
    cases b
    · constructor
      · rintro ⟨t, h⟩; cases h
      · intro h; cases h
    · exact ⟨fun _ => rfl, fun _ => ⟨_, rfl⟩⟩

namespace Demo
/-- A model of exclusive or from sklearn: it answers 1 where the two columns agree. -/
def xorModel : Foreign where
  typeText := p!"<class 'sklearn.tree.DecisionTreeClassifier'>"
  predict := fun X => .ok (.array (X.rows.map (fun row => if row.cell fa = row.cell fb then .num 1 p!"1" else .num 0 p!"0")))
  call := fun _ => .error .typeError
def xorReply : Reply := .array [.num 1 p!"1", .num 1 p!"1", .num 0 p!"0", .num 0 p!"0"]
/-- A keras model of the same, which answers probabilities. -/
def xorNet : Foreign where
  typeText := p!"<class 'keras.engine.sequential.Sequential'>"
  predict := fun X => .ok (.array (X.rows.map (fun row => if row.cell fa = row.cell fb then .num (9/10) p!"0.9" else .num (1/10) p!"0.1")))
  call := fun _ => .error .typeError
theorem xorReply_of_model : Predictions xorX xorModel none xorReply :=
  (C77_model_predictions xorX xorModel none xorReply).mp (by decide +kernel)
/-- One row of data. -/
def oneX : TFrame := { Frame.ofTable [fa, fb] [(0, [vx, vx])] with kind := fun _ => .text }
end Demo

/-- Predictions are those of the right function: the keras model's are thresholded, and a model from torch is called. -/
example : modelPredict Demo.xorX Demo.xorModel none = .ok Demo.xorReply ∧
    modelPredict Demo.xorX Demo.xorNet none = .ok (.array [.num 1 p!"True", .num 1 p!"True", .num 0 p!"False", .num 0 p!"False"]) ∧
    modelPredict Demo.xorX { Demo.xorModel with typeText := p!"<class 'torch.nn.Linear'>" } none = .error .typeError := by
  decide +kernel

/-- The hypotheses of `C77_irep_interprets`, `C77_ripper_interprets` and `C77_faithful_surrogate` hold of the model of exclusive
or, and the conclusion is visible. -/
example : Demo.xorX.rows ≠ [] ∧ Demo.xorX.UniqueIndex ∧ Demo.xorX.cols.Nodup ∧ ReadsApart Demo.xorX.toFrame (.name p!"Class") ∧
    Predictions Demo.xorX Demo.xorModel none Demo.xorReply ∧ ZeroOne Demo.xorReply.values ∧
    ∃ g' rs c' b, interpretModel (fun d => Clf.irepFit 5 Demo.R0 Demo.F Demo.P d .nothing ()) Demo.xorX Demo.xorModel none Demo.newIrep
        = .ok (g', rs) c' ∧ c'.binner = some b ∧
      rs.rules.map Rule.conds = [[⟨Demo.fa, Demo.vx⟩, ⟨Demo.fb, Demo.vx⟩], [⟨Demo.fa, Demo.vy⟩, ⟨Demo.fb, Demo.vy⟩]] ∧
      returned (scoreFidelity Demo.F Demo.xorX (some Demo.xorModel) none none scoreAccuracy c') = .ok (some 1) ∧
      (∀ row ∈ Demo.xorX.rows, ∀ f ∈ Demo.xorX.cols, ∃ w, RawMeets Demo.F b Demo.xorX row ⟨f, w⟩) ∧
      (∀ (i j : Nat) (row row' : Row) (v w : Val), Demo.xorX.rows[i]? = some row → Demo.xorReply.values[i]? = some v →
        Demo.xorX.rows[j]? = some row' → Demo.xorReply.values[j]? = some w →
        RawAlike Demo.F b Demo.xorX (.name p!"Class") row row' → IsOne v → IsOne w) := by
  have hz : ZeroOne Demo.xorReply.values := by
    intro v hv
    have : v ∈ [Val.num 1 p!"1", .num 1 p!"1", .num 0 p!"0", .num 0 p!"0"] := hv
    simp only [List.mem_cons, List.not_mem_nil, or_false] at this
    rcases this with rfl | rfl | rfl | rfl
    · exact Or.inr ⟨_, rfl⟩
    · exact Or.inr ⟨_, rfl⟩
    · exact Or.inl ⟨_, rfl⟩
    · exact Or.inl ⟨_, rfl⟩
  refine ⟨by decide +kernel, by unfold Frame.UniqueIndex; decide +kernel, by decide +kernel, ?_, Demo.xorReply_of_model, hz, ?_⟩
  · refine ⟨by decide +kernel, by decide +kernel, ?_⟩
    intro f hf hne row hr row' hr' _ _ he
    have hall : ∀ f ∈ Demo.xorX.cols, ∀ row ∈ Demo.xorX.rows, ∀ row' ∈ Demo.xorX.rows,
        (row.cell f).text = (row'.cell f).text → (row.cell f).pyEq (row'.cell f) = true := by decide +kernel
    exact Val.pyEq_iff.mp (hall f hf row hr row' hr' he)
  · obtain ⟨g', rs, c', h, hrs⟩ := C77_irep_interprets Demo.R0 Demo.R0_lawful Demo.F Demo.F_lawful Demo.P Demo.P_lawful Demo.xorX
      (by decide +kernel) Demo.xorModel none Demo.xorReply Demo.xorReply_of_model (by decide +kernel) hz Demo.newIrep
      (Or.inl (by decide +kernel)) (by decide +kernel) 5 (by decide +kernel) ()
    have hc' : c' = after (interpretModel (fun d => Clf.irepFit 5 Demo.R0 Demo.F Demo.P d .nothing ()) Demo.xorX Demo.xorModel none
      Demo.newIrep) := by rw [h]; rfl
    have hb : (after (interpretModel (fun d => Clf.irepFit 5 Demo.R0 Demo.F Demo.P d .nothing ()) Demo.xorX Demo.xorModel none
      Demo.newIrep)).binner.map Binner.bins = some [] := by decide +kernel
    have hrules : (after (interpretModel (fun d => Clf.irepFit 5 Demo.R0 Demo.F Demo.P d .nothing ()) Demo.xorX Demo.xorModel none
      Demo.newIrep)).ruleset.map (fun rs => rs.rules.map Rule.conds) =
        some [[⟨Demo.fa, Demo.vx⟩, ⟨Demo.fb, Demo.vx⟩], [⟨Demo.fa, Demo.vy⟩, ⟨Demo.fb, Demo.vy⟩]] := by decide +kernel
    rw [← hc'] at hb hrules
    obtain ⟨b, hb1, hb2⟩ := Option.map_eq_some_iff.mp hb
    rw [hrs] at hrules
    have hraw : ∀ row cond, RawMeets Demo.F b Demo.xorX row cond ↔ Meets row cond := by
      intro row cond
      unfold RawMeets
      rw [hb2]
      simp
    have hself : ∀ f ∈ Demo.xorX.cols, ∀ row ∈ Demo.xorX.rows, (row.cell f).pyEq (row.cell f) = true := by decide +kernel
    refine ⟨g', rs, c', b, h, hb1, by simpa using hrules, by rw [hc']; decide +kernel, ?_, ?_⟩
    · intro row hrow f hf
      exact ⟨row.cell f, (hraw _ _).mpr (Val.pyEq_iff.mp (hself f hf row hrow))⟩
    · intro i j row row' v w h1 h2 h3 h4 hal hv
      have hall : ∀ i < 4, ∀ j < 4, ∀ row ∈ Demo.xorX.rows[i]?, ∀ row' ∈ Demo.xorX.rows[j]?, ∀ v ∈ Demo.xorReply.values[i]?,
          ∀ w ∈ Demo.xorReply.values[j]?, (∀ f ∈ [Demo.fa, Demo.fb], (row'.cell f).pyEq (row.cell f) = true) →
            v = w := by decide +kernel
      have hi : i < 4 := (List.getElem?_eq_some_iff.mp h1).1
      have hj : j < 4 := (List.getElem?_eq_some_iff.mp h3).1
      rw [← hall i hi j hj row h1 row' h3 v h2 w h4 (fun f hf => ?_)]
      · exact hv
      · have hcol : ∀ f ∈ [Demo.fa, Demo.fb], f ∈ Demo.xorX.cols ∧ f ≠ .name p!"Class" := by decide +kernel
        obtain ⟨h5, h6⟩ := hcol f hf
        have := hal ⟨f, row.cell f⟩ h5 h6
        rw [hraw, hraw] at this
        exact Val.pyEq_iff.mpr (this.mp (Val.pyEq_iff.mp (hself f h5 row (List.mem_of_getElem? h1))))

/-- `C77_refuted_one_answer` has an instance: one row, the right rules, and a TypeError; with the same predictions as a
list the fidelity is 1. -/
example : (match interpretModel (fun d => Clf.irepFit 5 Demo.R0 Demo.F Demo.P d .nothing ()) Demo.xorX Demo.xorModel none Demo.newIrep with
      | .ok _ c' => (returned (Clf.predict Demo.F Demo.oneX none c'),
        returned (scoreFidelity Demo.F Demo.oneX (some Demo.xorModel) none none scoreAccuracy c'),
        returned (scoreFidelity Demo.F Demo.oneX none (some [.num 1 p!"1"]) none scoreAccuracy c'),
        returned (scoreFidelityAll Demo.F Demo.xorX (some Demo.xorNet) none none [scoreAccuracy, scoreRecall] c'))
      | .error e _ => (.error e, .error e, .error e, .error e)) =
    (.ok [true], .error .typeError, .ok (some 1), .ok [some 1, some 1]) := by decide +kernel

/-- `C77_rulesets_as_models` and `C77_single_answer` have instances. -/
example : (∀ s ∈ [p!"sklearn", p!"tensorflow", p!"keras", p!"torch"],
      ¬ Mentions (Foreign.ofClf Demo.F Demo.clf p!"<class 'wittgenstein.ripper.RIPPER'>") s) ∧
    Predictions Demo.xorX Demo.xorModel (some (fun _ _ => .ok (.array [.num 1 p!"1"]))) (.array [.num 1 p!"1"]) := by
  refine ⟨?_, .custom rfl⟩
  intro s hs
  rw [← inPackage_iff]
  have : ∀ s ∈ [p!"sklearn", p!"tensorflow", p!"keras", p!"torch"],
      ¬ (Foreign.ofClf Demo.F Demo.clf p!"<class 'wittgenstein.ripper.RIPPER'>").inPackage s = true := by decide +kernel
  exact this s hs

end Witt
