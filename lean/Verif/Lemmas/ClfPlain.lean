import Verif.Lemmas.ClfFit
import Verif.Plain
/-
`fit(..., cn_optimize=False)` on the classifier objects.
-/
namespace Witt
open Spec
variable [Arith] [Arith.Lawful]

omit [Arith.Lawful] in
theorem Clf.irepFitPlain_run (fuel : Nat) (R : PyRandom) (S : SetOps) (F : PyFloat) (P : PandasCut) (d : FitData)
    (init : ModelArg) (g : R.G) (c : Clf) :
    returned (Clf.irepFitPlain fuel R S F P d init g c) = (do
      let _ ← init.early
      let (df, cf, pc, _) ← preprocessTraining F P c.nBins d
      let start ← init.toRuleset
      let (_, g') ← Witt.irepFitPlain fuel R S c.hyper start.possible (start.rules.map Rule.conds) df.toFrame cf pc g
      return g') ∧
    ∀ g' c', Clf.irepFitPlain fuel R S F P d init g c = .ok g' c' →
      ∃ df cf pc b start m, preprocessTraining F P c.nBins d = .ok (df, cf, pc, b) ∧
        init.toRuleset = .ok start ∧
        Witt.irepFitPlain fuel R S c.hyper start.possible (start.rules.map Rule.conds) df.toFrame cf pc g = .ok (m, g') ∧
        c' = c.fitted m b cf pc := by
  unfold Clf.irepFitPlain
  rw [bind_pureCode]
  cases h1 : init.early with
  | error e => exact ⟨rfl, fun _ _ h => (by cases h)⟩
  | ok first =>
    simp only [ok_bind]
    rw [bind_ok (modify_run _ _), bind_ok (get_run _), bind_pureCode]
    cases h2 : preprocessTraining F P c.nBins d with
    | error e => exact ⟨rfl, fun _ _ h => (by cases h)⟩
    | ok q =>
      obtain ⟨df, cf, pc, b⟩ := q
      obtain ⟨hne, hcf⟩ := preprocessTraining_frame h2
      simp only [ok_bind]
      rw [bind_ok (modify_run _ _), bind_ok (get_run _), bind_pureCode]
      cases h3 : init.toRuleset with
      | error e => exact ⟨rfl, fun _ _ h => (by cases h)⟩
      | ok start =>
        simp only [ok_bind]
        rw [bind_pureCode]
        have hfit : Witt.irepFitPlain fuel R S c.hyper start.possible (start.rules.map Rule.conds) df.toFrame cf pc g = (do
            let cands := updatedConds S start.possible (posExamples df.toFrame cf pc) (negExamples df.toFrame cf pc)
            let st ← irepGrow fuel R cands c.hyper (start.rules.map Rule.conds) (posExamples df.toFrame cf pc)
              (negExamples df.toFrame cf pc) g
            let rs : Ruleset := { rules := st.rules.map (fun c => { conds := c }), possible := some cands }
            let sel := rs.selectedFeatures
            let rs ← (match Witt.recalibrate rs df.toFrame cf pc c.hyper.alpha with | (rs, e) => raiseIf rs e)
            let rs : Ruleset := { rs with rules := removeDups Rule.sameKey rs.rules }
            let rs := rs.trimConds c.hyper.lim.maxTotalConds
            return ({ ruleset := rs, selected := sel, trainFeats := (df.toFrame.dropCol cf).cols }, st.g)) := by
          unfold Witt.irepFitPlain
          rw [if_neg hne, if_neg (not_not.mpr hcf)]
        simp only [] at hfit ⊢
        generalize irepGrow fuel R _ c.hyper (start.rules.map Rule.conds) (posExamples df.toFrame cf pc)
          (negExamples df.toFrame cf pc) g = out at hfit ⊢
        cases out with
        | error e => rw [hfit]; exact ⟨rfl, fun _ _ h => (by cases h)⟩
        | ok st =>
          simp only [ok_bind] at hfit ⊢
          rw [bind_ok (modify_run _ _)]
          rw [bind_run, Clf.fitProbas_run rfl]
          simp only []
          rcases hr : Witt.recalibrate _ df.toFrame cf pc c.hyper.alpha with ⟨rs', o⟩
          rw [hr] at hfit
          cases o with
          | some e => rw [hfit]; exact ⟨rfl, fun _ _ h => (by cases h)⟩
          | none =>
            simp only [raiseIf, ok_bind, pure_eq_ok] at hfit ⊢
            rw [bind_ok (modify_run _ _), bind_run, Clf.tidy_run rfl, hfit]
            simp only [ok_bind, pure_run]
            refine ⟨rfl, fun g' c' h => ?_⟩
            simp only [EStateM.Result.ok.injEq] at h
            obtain ⟨rfl, rfl⟩ := h
            exact ⟨df, cf, pc, b, start, _, rfl, rfl, hfit, rfl⟩

omit [Arith.Lawful] in
/-- Stage 2 on the object: the rules are those of `stage2Df`; only `ruleset_` changes. -/
theorem Clf.stage2Df_run (fuel : Nat) (R : PyRandom) (cands : List Cond) (pos neg : Frame) :
    ∀ (n : Nat) (rules : List (List Cond)) (g : R.G) (c : Clf),
      returned (Clf.stage2Df fuel R cands pos neg n rules g c) = Witt.stage2Df fuel R cands c.hyper pos neg n rules g ∧
      ∃ rs, after (Clf.stage2Df fuel R cands pos neg n rules g c) = { c with ruleset := rs } := by
  intro n
  induction n with
  | zero => intro rules g c; exact ⟨rfl, c.ruleset, rfl⟩
  | succ n ih =>
    intro rules g c
    unfold Clf.stage2Df Witt.stage2Df
    rw [bind_ok (get_run _), bind_pureCode]
    cases h : optimizeDf fuel R cands c.hyper (c.hyper.randomState.map (· + 100)) rules pos neg g with
    | error e => exact ⟨rfl, c.ruleset, rfl⟩
    | ok p =>
      obtain ⟨new, g'⟩ := p
      simp only [ok_bind]
      by_cases hb : (decide (n ≠ 0) && condsRulesetEq rules new) = true
      · rw [if_pos hb, if_pos hb]; exact ⟨rfl, c.ruleset, rfl⟩
      · rw [if_neg hb, if_neg hb]
        unfold Clf.setRules
        rw [bind_ok (modify_run _ _)]
        obtain ⟨h1, rs, h2⟩ := ih new g' { c with ruleset := some { rules := new.map (fun r => { conds := r }), possible := some cands } }
        exact ⟨h1, rs, h2⟩

omit [Arith.Lawful] in
theorem Clf.ripperFitPlain_run (fuel : Nat) (R : PyRandom) (S : SetOps) (F : PyFloat) (P : PandasCut) (d : FitData)
    (init : ModelArg) (g : R.G) (c : Clf) :
    returned (Clf.ripperFitPlain fuel R S F P d init g c) = (do
      let (df, cf, pc, _) ← preprocessTraining F P c.nBins d
      let start ← init.toRuleset
      let (_, g') ← Witt.ripperFitPlain fuel R S c.hyper start.possible (start.rules.map Rule.conds) df.toFrame cf pc g
      return g') ∧
    ∀ g' c', Clf.ripperFitPlain fuel R S F P d init g c = .ok g' c' →
      ∃ df cf pc b start m, preprocessTraining F P c.nBins d = .ok (df, cf, pc, b) ∧
        init.toRuleset = .ok start ∧
        Witt.ripperFitPlain fuel R S c.hyper start.possible (start.rules.map Rule.conds) df.toFrame cf pc g = .ok (m, g') ∧
        c' = c.fitted m b cf pc := by
  unfold Clf.ripperFitPlain
  rw [bind_ok (get_run _), bind_pureCode]
  cases h2 : preprocessTraining F P c.nBins d with
  | error e => exact ⟨rfl, fun _ _ h => (by cases h)⟩
  | ok q =>
    obtain ⟨df, cf, pc, b⟩ := q
    obtain ⟨hne, hcf⟩ := preprocessTraining_frame h2
    simp only [ok_bind]
    rw [bind_ok (modify_run _ _), bind_ok (get_run _), bind_pureCode]
    cases h3 : init.toRuleset with
    | error e => exact ⟨rfl, fun _ _ h => (by cases h)⟩
    | ok start =>
      simp only [ok_bind]
      rw [bind_pureCode]
      have hfit : Witt.ripperFitPlain fuel R S c.hyper start.possible (start.rules.map Rule.conds) df.toFrame cf pc g = (do
          let (rules, g) ← ripperStagesDf fuel R S c.hyper start.possible (start.rules.map Rule.conds)
            (posExamples df.toFrame cf pc) (negExamples df.toFrame cf pc) g
          let rs : Ruleset := { rules := rules.map (fun c => { conds := c }) }
          let sel := rs.selectedFeatures
          let rs : Ruleset := { rs with rules := removeDups Rule.sameKey rs.rules }
          let rs := rs.trimConds c.hyper.lim.maxTotalConds
          let rs ← (match Witt.recalibrate rs df.toFrame cf pc c.hyper.alpha with | (rs, e) => raiseIf rs e)
          return ({ ruleset := rs, selected := sel, trainFeats := (df.toFrame.dropCol cf).cols }, g)) := by
        unfold Witt.ripperFitPlain
        rw [if_neg hne, if_neg (not_not.mpr hcf)]
      simp only [ripperStagesDf] at hfit
      generalize posExamples df.toFrame cf pc = pos at hfit ⊢
      generalize negExamples df.toFrame cf pc = neg at hfit ⊢
      generalize updatedConds S start.possible pos neg = cands at hfit ⊢
      generalize ripperGrow fuel R cands c.hyper (start.rules.map Rule.conds) pos neg g = out at hfit ⊢
      cases out with
      | error e => rw [hfit]; exact ⟨rfl, fun _ _ h => (by cases h)⟩
      | ok st =>
        simp only [ok_bind] at hfit ⊢
        rw [show Clf.setRules cands st.rules = modify _ from rfl, bind_ok (modify_run _ _), bind_run]
        obtain ⟨hs1, rsx, hs2⟩ := Clf.stage2Df_run fuel R cands pos neg c.hyper.k.toNat st.rules st.g
          { c with ruleset := some { rules := st.rules.map (fun r => { conds := r }), possible := some cands }, binner := some b, classFeat := some cf, posClass := some pc }
        simp only [] at hs1
        rw [← hs1] at hfit
        generalize Clf.stage2Df fuel R cands pos neg c.hyper.k.toNat st.rules st.g _ = res at hs1 hs2 hfit ⊢
        cases res with
        | error e c1 => rw [hfit]; exact ⟨rfl, fun _ _ h => (by cases h)⟩
        | ok a c1 =>
          simp only [after] at hs2
          subst hs2
          obtain ⟨rules2, g2⟩ := a
          simp only [returned, ok_bind] at hfit ⊢
          rw [bind_pureCode]
          generalize coverRemainingDf fuel R S cands c.hyper rules2 pos neg g2 = out at hfit ⊢
          cases out with
          | error e => rw [hfit]; exact ⟨rfl, fun _ _ h => (by cases h)⟩
          | ok a3 =>
            obtain ⟨rules3, cands3, g3⟩ := a3
            simp only [ok_bind] at hfit ⊢
            rw [show Clf.setRules cands3 rules3 = modify _ from rfl, bind_ok (modify_run _ _), bind_pureCode]
            generalize bestSubsetDf cands3.length rules3 pos neg = out at hfit ⊢
            cases out with
            | error e => rw [hfit]; exact ⟨rfl, fun _ _ h => (by cases h)⟩
            | ok a4 =>
              obtain ⟨rules4, dl⟩ := a4
              simp only [ok_bind, pure_eq_ok] at hfit ⊢
              rw [bind_ok (modify_run _ _), bind_ok (Clf.tidy_run rfl), bind_run, Clf.fitProbas_run rfl]
              simp only []
              rcases hr : Witt.recalibrate _ df.toFrame cf pc c.hyper.alpha with ⟨rs', o⟩
              rw [hr] at hfit
              cases o with
              | some e => rw [hfit]; exact ⟨rfl, fun _ _ h => (by cases h)⟩
              | none =>
                simp only [raiseIf, ok_bind] at hfit ⊢
                rw [hfit, bind_ok (modify_run _ _)]
                refine ⟨rfl, fun g' c' h => ?_⟩
                simp only [pure_run, EStateM.Result.ok.injEq] at h
                obtain ⟨rfl, rfl⟩ := h
                exact ⟨df, cf, pc, b, start, _, rfl, rfl, hfit, rfl⟩

end Witt
