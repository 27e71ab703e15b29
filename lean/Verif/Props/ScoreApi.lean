import Verif.Props.Columns
import Verif.Props.Scores
/-
C68: the `score` method.
-/
namespace Witt
open Spec

/-- C68: `score(X, y, fn)` raises whatever `predict(X)` raises; otherwise it is `fn(actuals, predictions)`, where the
predictions are those of `predict(X)` and the i-th actual is true iff the i-th label equals the positive class.
It leaves the object as `predict` does. -/
theorem C68_score_is_of_predict {α : Type} (F : PyFloat) (X : TFrame) (y : List Val)
    (fn : List Bool → List Bool → Except PyErr α) (c : Clf) (pc : Val) (hpc : c.posClass = some pc) :
    (∀ e, returned (Clf.predict F X none c) = .error e → returned (Clf.score F X y fn c) = .error e) ∧
    (∀ preds, returned (Clf.predict F X none c) = .ok preds → ∃ actuals : List Bool,
      returned (Clf.score F X y fn c) = fn actuals preds ∧ actuals.length = y.length ∧
      ∀ (i : Nat) (v : Val), y[i]? = some v → ∃ b, actuals[i]? = some b ∧ (b = true ↔ Same v pc)) ∧
    after (Clf.score F X y fn c) = after (Clf.predict F X none c) := by
  cases hr : c.ruleset with
  | none =>
    have h1 : Clf.predict F X none c = .error .attributeError c := by rw [predict_eq_query, query_unfit hr]
    have h2 : Clf.score F X y fn c = .error .attributeError c := by rw [score_eq_query, query_unfit hr]
    rw [h1, h2]
    refine ⟨fun e h => by cases h; rfl, fun preds h => ?_, rfl⟩
    simp [returned] at h
  | some rs =>
    have hs : Clf.score F X y fn c = (Clf.predict F X none >>= fun preds =>
        self Clf.posClass >>= fun pc => pureCode (fn (y.map (fun yi => yi.pyEq pc)) preds)) c := by
      show (self Clf.ruleset >>= _) c = _
      rw [bind_ok (a := rs) (c' := c) (by rw [self_run]; simp [hr, attr])]
    have hkeep : (after (Clf.predict F X none c)).posClass = some pc := by
      have h2 := (C63_queries_are_read_only F [.predict X none] c).1.rest
      have h3 : after (Call.run F (Call.predict X none) c) = after (Clf.predict F X none c) := by
        simp only [Call.run]
        rw [bind_run]
        cases Clf.predict F X none c <;> rfl
      have h4 : afterAll F [.predict X none] c = after (Clf.predict F X none c) := h3
      rw [← h4, h2]
      exact hpc
    rw [hs, bind_run]
    cases hp : Clf.predict F X none c with
    | error e c' =>
      refine ⟨fun e' h => by cases h; rfl, fun preds h => ?_, rfl⟩
      simp [returned] at h
    | ok preds c' =>
      rw [hp] at hkeep
      have hc' : c'.posClass = some pc := hkeep
      dsimp only
      rw [bind_ok (a := pc) (c' := c') (by rw [self_run]; simp [hc', attr]), pureCode_run]
      refine ⟨fun e h => by simp [returned] at h, fun preds' h => ?_, after_outcome _ _⟩
      cases h
      refine ⟨_, returned_outcome _ _, List.length_map _, fun i v hv => ⟨v.pyEq pc, ?_, Val.pyEq_iff⟩⟩
      rw [List.getElem?_map, hv]; rfl

/-- C68: the default score is the fraction of rows whose prediction agrees with their label. -/
theorem C68_accuracy (F : PyFloat) (X : TFrame) (y : List Val) (c : Clf) (pc : Val) (hpc : c.posClass = some pc)
    (preds : List Bool) (hp : returned (Clf.predict F X none c) = .ok preds) (hn : y ≠ []) :
    (y.length = preds.length → ∃ right : List Nat, right.Nodup ∧
      (∀ i : Nat, i ∈ right ↔ ∃ v b, y[i]? = some v ∧ preds[i]? = some b ∧ (b = true ↔ Same v pc)) ∧
      returned (Clf.score F X y scoreAccuracy c) = .ok (some ((right.length : Rat) / y.length))) ∧
    (y.length ≠ preds.length → returned (Clf.score F X y scoreAccuracy c) = .error .valueError) := by
  obtain ⟨actuals, hs, hlen, hact⟩ := (C68_score_is_of_predict F X y scoreAccuracy c pc hpc).2.1 preds hp
  rw [hs]
  constructor
  · intro hl
    refine ⟨(List.range y.length).filter (fun i => preds[i]? == actuals[i]?), List.nodup_range.filter _, ?_, ?_⟩
    · intro i
      rw [List.mem_filter, List.mem_range, beq_iff_eq]
      constructor
      · rintro ⟨hi, he⟩
        have hv := List.getElem?_eq_getElem hi
        obtain ⟨b, hb, hbs⟩ := hact i _ hv
        exact ⟨_, b, hv, he.trans hb, hbs⟩
      · rintro ⟨v, b, hv, hb, hbs⟩
        obtain ⟨b', hb', hbs'⟩ := hact i v hv
        refine ⟨(List.getElem?_eq_some_iff.mp hv).1, ?_⟩
        rw [hb, hb']
        have : b = true ↔ b' = true := hbs.trans hbs'.symm
        cases b <;> cases b' <;> simp_all
    · unfold scoreAccuracy
      rw [if_neg (by omega)]
      have hne : actuals.length ≠ 0 := by rw [hlen]; simpa using hn
      dsimp only
      rw [if_neg hne, hlen]
      congr 3
      have key : ∀ (ps as : List Bool), ps.length = as.length →
          ((ps.zip as).filter (fun pa => pa.1 == pa.2)).length =
            ((List.range as.length).filter (fun i => ps[i]? == as[i]?)).length := by
        intro ps
        induction ps with
        | nil => intro as h; cases as with
          | nil => rfl
          | cons => simp at h
        | cons p ps ih =>
          intro as h
          cases as with
          | nil => simp at h
          | cons a as =>
            have h' : ps.length = as.length := by simpa using h
            have := ih as h'
            rw [List.zip_cons_cons, List.length_cons, List.range_succ_eq_map, List.filter_cons, List.filter_cons,
              List.filter_map]
            have hcomp : ((fun i => (p :: ps)[i]? == (a :: as)[i]?) ∘ Nat.succ) = fun i => ps[i]? == as[i]? := by
              funext i; simp
            rw [hcomp]
            cases p <;> cases a <;> simp [this]
      rw [key preds actuals (by omega), hlen]
  · intro hl
    unfold scoreAccuracy
    rw [if_pos (by omega)]

/-- Both outcomes occur. -/
example : returned (Clf.score Demo.F Demo.mixed [Demo.vp, Demo.vp, Demo.vn, Demo.vp, Demo.vn, Demo.vn] scoreAccuracy
      (after (Method.irep.fit 7 Demo.R0 Demo.F Demo.P Demo.mixedData .nothing () Demo.newIrep))) = .ok (some (5 / 6)) ∧
    returned (Clf.score Demo.F Demo.mixed [Demo.vp] scoreAccuracy
      (after (Method.irep.fit 7 Demo.R0 Demo.F Demo.P Demo.mixedData .nothing () Demo.newIrep))) = .error .valueError := by
  decide +kernel

end Witt
