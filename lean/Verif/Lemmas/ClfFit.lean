import Verif.Props.Classifier
import Verif.Props.Api
import Verif.Props.Irep
import Verif.Props.Ripper
/-
`fit` on the classifier objects: preprocessing, then the training functions, then the attributes.
-/
namespace Witt
open Spec
variable [Arith] [Arith.Lawful]

/-! ### what preprocessing returns -/

omit [Arith] [Arith.Lawful] in
theorem transformLoop_shape {F : PyFloat} {b : Binner} {done : List Feat} :
    ∀ {bins : List (Feat × List PStr)} {df df' : TFrame}, transformLoop F b done bins df = .ok df' →
      df'.cols = df.cols ∧ df'.index = df.index ∧
        ∀ f, f ∉ bins.map Prod.fst → df'.rows.map (·.cell f) = df.rows.map (·.cell f) := by
  intro bins
  induction bins with
  | nil => intro df df' h; cases h; exact ⟨rfl, rfl, fun _ _ => rfl⟩
  | cons p rest ih =>
    obtain ⟨f0, labels⟩ := p
    intro df df' h
    unfold transformLoop at h
    split at h
    · obtain ⟨g, _, h⟩ := bind_ok_iff.mp h
      obtain ⟨h1, h2, h3⟩ := ih h
      refine ⟨h1, ?_, fun f hf => ?_⟩
      · rw [h2]; simp [Frame.index, TFrame.mapCol, Function.comp_def]
      · simp only [List.map_cons, List.mem_cons, not_or] at hf
        rw [h3 f hf.2]
        simp [TFrame.mapCol, Function.comp_def, hf.1]
    · obtain ⟨h1, h2, h3⟩ := ih h
      refine ⟨h1, h2, fun f hf => ?_⟩
      simp only [List.map_cons, List.mem_cons, not_or] at hf
      exact h3 f hf.2

omit [Arith] [Arith.Lawful] in
theorem fit_bins_ignore {F : PyFloat} {P : PandasCut} {n : Option Nat} {df : TFrame} {ignore : List Feat} {f : Feat}
    (hf : f ∈ ignore) : f ∉ (Binner.fit F P n df ignore).bins.map Prod.fst := by
  intro h
  obtain ⟨⟨f', ls⟩, hm, rfl⟩ := List.mem_map.mp h
  simp only [Binner.fit, List.mem_filterMap] at hm
  obtain ⟨a, ha, hs⟩ := hm
  split at hs
  · simp only [Option.some.injEq, Prod.mk.injEq] at hs
    obtain ⟨rfl, rfl⟩ := hs
    unfold continuousFeats at ha
    split at ha
    · simp at ha
    · simp at ha
    · simp only [List.mem_filter, Bool.and_eq_true, Bool.not_eq_true', List.contains_eq_mem, decide_eq_false_iff_not] at ha
      exact ha.2.2 hf
  · simp at hs

omit [Arith] [Arith.Lawful] in
/-- The labelled frame `_convert_to_training_df` makes. -/
theorem toTraining_ok {X : TFrame} {y : Option YArg} {cf : Feat} {names : Option (List Feat)} {df : TFrame}
    (h : toTraining X y cf names = .ok df) :
    df.rows.length = X.rows.length ∧
      (∀ f, f ∈ df.cols ↔ f ∈ names.getD X.cols ∨ (f = cf ∧ y ≠ none)) ∧
      ((names.getD X.cols).Nodup → df.cols.Nodup) := by
  unfold toTraining at h
  obtain ⟨X1, h1, h⟩ := bind_ok_iff.mp h
  have hX1 : X1.rows.length = X.rows.length ∧ X1.cols = names.getD X.cols := by
    cases names with
    | none => simp only [Except.ok.injEq] at h1; subst h1; exact ⟨rfl, rfl⟩
    | some ns =>
      simp only [TFrame.rename] at h1
      split at h1
      · cases h1
      · cases h1; exact ⟨by simp, rfl⟩
  rw [← hX1.1, ← hX1.2]
  cases y with
  | none =>
    simp only [pure_eq_ok, Except.ok.injEq] at h
    subst h
    exact ⟨rfl, fun f => by simp, id⟩
  | some y =>
    have key : ∀ (Z : TFrame) (vs : List Val), Z.cols = X1.cols → Z.rows.length = X1.rows.length →
        vs.length = X1.rows.length → df = Z.setCol cf vs →
        df.rows.length = X1.rows.length ∧ (∀ f, f ∈ df.cols ↔ f ∈ X1.cols ∨ (f = cf ∧ (some y) ≠ none)) ∧
          (X1.cols.Nodup → df.cols.Nodup) := by
      intro Z vs hc hl hv hd
      subst hd
      refine ⟨by simp [TFrame.setCol, hl, hv], fun f => ?_, fun hn => ?_⟩
      · rw [(setCol_spec Z cf vs (by omega)).2.2.2.1 f, hc]; simp
      · simp only [TFrame.setCol, hc]
        split
        · exact hn
        · rename_i hcf
          simp only [List.contains_eq_mem, decide_eq_true_eq] at hcf
          rw [List.nodup_append]
          exact ⟨hn, by simp, by rintro a ha b hb rfl; simp at hb; exact hcf (hb ▸ ha)⟩
    simp only [attachY] at h
    cases y with
    | list vs =>
      simp only at h
      split at h
      · cases h
      · rename_i hl; cases h; exact key X1 vs rfl rfl (by simpa using hl) rfl
    | series nm lvs =>
      simp only at h
      split at h
      · rename_i hl
        cases h
        exact key { X1 with rows := (X1.rows.zip lvs).map (fun rl => { rl.1 with label := rl.2.1 }) }
          (lvs.map Prod.snd) rfl (by simp [hl]) (by simp [hl]) rfl
      · split at h
        · cases h
        · cases h; exact key X1 _ rfl rfl (by simp) rfl

omit [Arith] [Arith.Lawful] in
/-- What `preprocess_training_data` returns when it does not raise. -/
theorem preprocessTraining_ok {F : PyFloat} {P : PandasCut} {n : Option Nat} {d : FitData} {df : TFrame} {cf : Feat}
    {pc : Val} {b : Binner} (h : preprocessTraining F P n d = .ok (df, cf, pc, b)) :
    d.X.rows ≠ [] ∧ cf = classFeatName d.classFeat d.y ∧
      ∃ df0, toTraining d.X d.y cf d.names = .ok df0 ∧ posClassOf (df0.unique cf) d.posClass = .ok pc ∧
        b = Binner.fit F P n df0 [cf] ∧ b.transform F df0 = .ok df ∧ df0.rows.length = d.X.rows.length ∧
        cf ∈ df0.cols ∧ df.cols = df0.cols ∧ df.index = df0.index ∧
        df.rows.map (·.cell cf) = df0.rows.map (·.cell cf) := by
  unfold preprocessTraining at h
  obtain ⟨u, hc, h⟩ := bind_ok_iff.mp h
  obtain ⟨df0, ht, h⟩ := bind_ok_iff.mp h
  obtain ⟨pc0, hp, h⟩ := bind_ok_iff.mp h
  obtain ⟨⟨b0, df1⟩, hb, h⟩ := bind_ok_iff.mp h
  unfold Binner.fitTransform at hb
  obtain ⟨df2, htr, hb'⟩ := bind_ok_iff.mp hb
  simp only [pure_eq_ok, Except.ok.injEq, Prod.mk.injEq] at hb' h
  obtain ⟨rfl, rfl⟩ := hb'
  obtain ⟨rfl, rfl, rfl, rfl⟩ := h
  have hne : d.X.rows ≠ [] := by
    intro he
    unfold checkInput at hc
    rw [if_pos he] at hc
    cases hc
  obtain ⟨h1, h2, _⟩ := toTraining_ok ht
  have hcf : classFeatName d.classFeat d.y ∈ df0.cols := by
    rw [h2]
    cases hy : d.y with
    | some y => exact Or.inr ⟨rfl, by simp⟩
    | none =>
      left
      unfold checkInput at hc
      rw [if_neg hne, hy] at hc
      cases hcl : d.classFeat with
      | none => rw [hcl] at hc; cases hc
      | some c =>
        rw [hcl] at hc
        simp only at hc
        split at hc
        · rename_i hm; exact hm
        · cases hc
  have hb2 := htr
  unfold Binner.transform at hb2
  obtain ⟨done, _, hl⟩ := bind_ok_iff.mp hb2
  obtain ⟨g1, g2, g3⟩ := transformLoop_shape hl
  exact ⟨hne, rfl, df0, ht, hp, rfl, htr, h1, hcf, g1, g2, g3 _ (fit_bins_ignore (by simp))⟩

omit [Arith] [Arith.Lawful] in
theorem preprocessTraining_frame {F : PyFloat} {P : PandasCut} {n : Option Nat} {d : FitData} {df : TFrame} {cf : Feat}
    {pc : Val} {b : Binner} (h : preprocessTraining F P n d = .ok (df, cf, pc, b)) :
    df.rows ≠ [] ∧ cf ∈ df.cols := by
  obtain ⟨h0, _, df0, _, _, _, _, hlen, hcf, hc, hi, _⟩ := preprocessTraining_ok h
  refine ⟨fun he => h0 ?_, hc ▸ hcf⟩
  have := congrArg List.length hi
  simp only [Frame.index, List.length_map, he, List.length_nil] at this
  exact List.eq_nil_of_length_eq_zero (by omega)

/-! ### fit -/

/-- The object after a successful fit. -/
def Clf.fitted (c : Clf) (m : Fitted) (b : Binner) (cf : Feat) (pc : Val) : Clf :=
  { c with ruleset := some m.ruleset, binner := some b, classFeat := some cf, posClass := some pc,
           selected := some m.selected, trainFeats := some m.trainFeats, classes := some .codes }

omit [Arith] [Arith.Lawful] in
theorem Clf.fitProbas_run {df : Frame} {cf : Feat} {pc : Val} {c : Clf} {rs : Ruleset} (h : c.ruleset = some rs) :
    Clf.fitProbas df cf pc c = match Witt.recalibrate rs df cf pc c.hyper.alpha with
      | (rs', none) => .ok () { c with ruleset := some rs' }
      | (rs', some e) => .error e { c with ruleset := some rs' } := by
  unfold Clf.fitProbas
  rw [bind_ok (a := rs) (c' := c) (by rw [self_run]; simp [h, attr]), bind_ok (get_run _)]
  rcases Witt.recalibrate rs df cf pc c.hyper.alpha with ⟨rs', o⟩
  cases o <;> rfl

omit [Arith] [Arith.Lawful] in
theorem Clf.tidy_run {c : Clf} {rs : Ruleset} (h : c.ruleset = some rs) :
    Clf.tidy c = .ok () { c with ruleset := some (Ruleset.trimConds { rs with rules := removeDups Rule.sameKey rs.rules } c.hyper.lim.maxTotalConds) } := by
  unfold Clf.tidy
  rw [bind_ok (a := rs) (c' := c) (by rw [self_run]; simp [h, attr]), bind_ok (get_run _)]
  rfl

omit [Arith.Lawful] in
theorem Clf.irepFit_run (fuel : Nat) (R : PyRandom) (F : PyFloat) (P : PandasCut) (d : FitData) (init : ModelArg)
    (g : R.G) (c : Clf) :
    returned (Clf.irepFit fuel R F P d init g c) = (do
      let _ ← init.early
      let (df, cf, pc, _) ← preprocessTraining F P c.nBins d
      let start ← init.toRuleset
      let (_, g') ← Witt.irepFit fuel R c.hyper (start.rules.map Rule.conds) df.toFrame cf pc g
      return g') ∧
    ∀ g' c', Clf.irepFit fuel R F P d init g c = .ok g' c' →
      ∃ df cf pc b start m, preprocessTraining F P c.nBins d = .ok (df, cf, pc, b) ∧
        init.toRuleset = .ok start ∧
        Witt.irepFit fuel R c.hyper (start.rules.map Rule.conds) df.toFrame cf pc g = .ok (m, g') ∧
        c' = c.fitted m b cf pc := by
  unfold Clf.irepFit
  rw [bind_pureCode]
  cases h1 : init.early with
  | error e => exact ⟨rfl, fun _ _ h => (by cases h)⟩
  | ok first =>
    simp only [ok_bind]
    rw [bind_ok (modify_run _ _), bind_ok (get_run _), bind_pureCode]
    cases h2 : preprocessTraining F P c.nBins d with
    | error e => exact ⟨rfl, fun _ _ h => (by cases h)⟩
    | ok q =>
      obtain ⟨df, cf, pc, b⟩ := q
      obtain ⟨hne, hcf⟩ := preprocessTraining_frame h2
      simp only [ok_bind]
      rw [bind_ok (modify_run _ _), bind_ok (get_run _), bind_pureCode, CatNap.build_ok hcf]
      simp only []
      rw [bind_pureCode]
      cases h3 : init.toRuleset with
      | error e => exact ⟨rfl, fun _ _ h => (by cases h)⟩
      | ok start =>
        simp only [ok_bind]
        rw [bind_pureCode]
        have hfit : Witt.irepFit fuel R c.hyper (start.rules.map Rule.conds) df.toFrame cf pc g = (do
            let cn ← CatNap.build df.toFrame cf
            let st ← irepGrowCn fuel R cn c.hyper (start.rules.map Rule.conds) (labelSet (posRows df.toFrame cf pc).index)
              (labelSet (negRows df.toFrame cf pc).index) g
            let rs : Ruleset := { rules := st.rules.map (fun c => { conds := c }), possible := some cn.conds }
            let sel := rs.selectedFeatures
            let rs ← (match Witt.recalibrate rs df.toFrame cf pc c.hyper.alpha with | (rs, e) => raiseIf rs e)
            let rs : Ruleset := { rs with rules := removeDups Rule.sameKey rs.rules }
            let rs := rs.trimConds c.hyper.lim.maxTotalConds
            return ({ ruleset := rs, selected := sel, trainFeats := (df.toFrame.dropCol cf).cols }, st.g)) := by
          unfold Witt.irepFit
          rw [if_neg hne, if_neg (not_not.mpr hcf)]
        rw [CatNap.build_ok hcf] at hfit
        simp only [ok_bind] at hfit
        generalize irepGrowCn fuel R _ c.hyper (start.rules.map Rule.conds) (labelSet (posRows df.toFrame cf pc).index)
          (labelSet (negRows df.toFrame cf pc).index) g = out at hfit ⊢
        cases out with
        | error e => rw [hfit]; exact ⟨rfl, fun _ _ h => (by cases h)⟩
        | ok st =>
          simp only [ok_bind] at hfit ⊢
          rw [bind_ok (modify_run _ _)]
          rw [bind_run, Clf.fitProbas_run rfl]
          simp only []
          rcases hr : Witt.recalibrate _ df.toFrame cf pc c.hyper.alpha with ⟨rs', o⟩
          rw [hr] at hfit
          cases o with
          | some e => rw [hfit]; exact ⟨rfl, fun _ _ h => (by cases h)⟩
          | none =>
            simp only [raiseIf, ok_bind, pure_eq_ok] at hfit ⊢
            rw [bind_ok (modify_run _ _), bind_run, Clf.tidy_run rfl, hfit]
            simp only [ok_bind, pure_run]
            refine ⟨rfl, fun g' c' h => ?_⟩
            simp only [EStateM.Result.ok.injEq] at h
            obtain ⟨rfl, rfl⟩ := h
            exact ⟨df, cf, pc, b, start, _, rfl, rfl, hfit, rfl⟩

omit [Arith.Lawful] in
/-- Stage 2 on the object: the rules are those of `stage2`; only `ruleset_` changes. -/
theorem Clf.stage2_run (fuel : Nat) (R : PyRandom) (cn : CatNap) (pos neg : List Label) :
    ∀ (n : Nat) (rules : List (List Cond)) (g : R.G) (c : Clf),
      returned (Clf.stage2 fuel R cn pos neg n rules g c) = Witt.stage2 fuel R cn c.hyper pos neg n rules g ∧
      ∃ rs, after (Clf.stage2 fuel R cn pos neg n rules g c) = { c with ruleset := rs } := by
  intro n
  induction n with
  | zero => intro rules g c; exact ⟨rfl, c.ruleset, rfl⟩
  | succ n ih =>
    intro rules g c
    unfold Clf.stage2 Witt.stage2
    rw [bind_ok (get_run _), bind_pureCode]
    cases h : optimizeCn fuel R cn c.hyper (c.hyper.randomState.map (· + 100)) rules pos neg g with
    | error e => exact ⟨rfl, c.ruleset, rfl⟩
    | ok p =>
      obtain ⟨new, g'⟩ := p
      simp only [ok_bind]
      by_cases hb : (decide (n ≠ 0) && condsRulesetEq rules new) = true
      · rw [if_pos hb, if_pos hb]; exact ⟨rfl, c.ruleset, rfl⟩
      · rw [if_neg hb, if_neg hb]
        unfold Clf.setRules
        rw [bind_ok (modify_run _ _)]
        obtain ⟨h1, rs, h2⟩ := ih new g' { c with ruleset := some { rules := new.map (fun r => { conds := r }), possible := some cn.conds } }
        exact ⟨h1, rs, h2⟩

omit [Arith.Lawful] in
theorem Clf.ripperFit_run (fuel : Nat) (R : PyRandom) (F : PyFloat) (P : PandasCut) (d : FitData) (init : ModelArg)
    (g : R.G) (c : Clf) :
    returned (Clf.ripperFit fuel R F P d init g c) = (do
      let (df, cf, pc, _) ← preprocessTraining F P c.nBins d
      let start ← init.toRuleset
      let (_, g') ← Witt.ripperFit fuel R c.hyper (start.rules.map Rule.conds) df.toFrame cf pc g
      return g') ∧
    ∀ g' c', Clf.ripperFit fuel R F P d init g c = .ok g' c' →
      ∃ df cf pc b start m, preprocessTraining F P c.nBins d = .ok (df, cf, pc, b) ∧
        init.toRuleset = .ok start ∧
        Witt.ripperFit fuel R c.hyper (start.rules.map Rule.conds) df.toFrame cf pc g = .ok (m, g') ∧
        c' = c.fitted m b cf pc := by
  unfold Clf.ripperFit
  rw [bind_ok (get_run _), bind_pureCode]
  cases h2 : preprocessTraining F P c.nBins d with
  | error e => exact ⟨rfl, fun _ _ h => (by cases h)⟩
  | ok q =>
    obtain ⟨df, cf, pc, b⟩ := q
    obtain ⟨hne, hcf⟩ := preprocessTraining_frame h2
    simp only [ok_bind]
    rw [bind_ok (modify_run _ _), bind_ok (get_run _), bind_pureCode, CatNap.build_ok hcf]
    simp only []
    rw [bind_pureCode]
    cases h3 : init.toRuleset with
    | error e => exact ⟨rfl, fun _ _ h => (by cases h)⟩
    | ok start =>
      simp only [ok_bind]
      rw [bind_pureCode]
      have hfit : Witt.ripperFit fuel R c.hyper (start.rules.map Rule.conds) df.toFrame cf pc g = (do
          let cn ← CatNap.build df.toFrame cf
          let (rules, g) ← ripperStages fuel R cn c.hyper (start.rules.map Rule.conds) (labelSet (posRows df.toFrame cf pc).index)
            (labelSet (negRows df.toFrame cf pc).index) g
          let rs : Ruleset := { rules := rules.map (fun c => { conds := c }) }
          let sel := rs.selectedFeatures
          let rs : Ruleset := { rs with rules := removeDups Rule.sameKey rs.rules }
          let rs := rs.trimConds c.hyper.lim.maxTotalConds
          let rs ← (match Witt.recalibrate rs df.toFrame cf pc c.hyper.alpha with | (rs, e) => raiseIf rs e)
          return ({ ruleset := rs, selected := sel, trainFeats := (df.toFrame.dropCol cf).cols }, g)) := by
        unfold Witt.ripperFit
        rw [if_neg hne, if_neg (not_not.mpr hcf)]
      rw [CatNap.build_ok hcf] at hfit
      simp only [ok_bind, ripperStages] at hfit
      generalize labelSet (posRows df.toFrame cf pc).index = pos at hfit ⊢
      generalize labelSet (negRows df.toFrame cf pc).index = neg at hfit ⊢
      generalize CatNap.mk _ _ _ = cn at hfit ⊢
      generalize ripperGrowCn fuel R cn c.hyper (start.rules.map Rule.conds) pos neg g = out at hfit ⊢
      cases out with
      | error e => rw [hfit]; exact ⟨rfl, fun _ _ h => (by cases h)⟩
      | ok st =>
        simp only [ok_bind] at hfit ⊢
        rw [show Clf.setRules (possibleConds (df.toFrame.dropCol cf)) st.rules = modify _ from rfl, bind_ok (modify_run _ _), bind_run]
        obtain ⟨hs1, rsx, hs2⟩ := Clf.stage2_run fuel R cn pos neg c.hyper.k.toNat st.rules st.g
          { c with ruleset := some { rules := st.rules.map (fun r => { conds := r }), possible := some (possibleConds (df.toFrame.dropCol cf)) }, binner := some b, classFeat := some cf, posClass := some pc }
        simp only [] at hs1
        rw [← hs1] at hfit
        generalize Clf.stage2 fuel R cn pos neg c.hyper.k.toNat st.rules st.g _ = res at hs1 hs2 hfit ⊢
        cases res with
        | error e c1 => rw [hfit]; exact ⟨rfl, fun _ _ h => (by cases h)⟩
        | ok a c1 =>
          simp only [after] at hs2
          subst hs2
          obtain ⟨rules2, g2⟩ := a
          simp only [returned, ok_bind] at hfit ⊢
          rw [bind_pureCode]
          generalize coverRemainingCn fuel R cn c.hyper rules2 pos neg g2 = out at hfit ⊢
          cases out with
          | error e => rw [hfit]; exact ⟨rfl, fun _ _ h => (by cases h)⟩
          | ok a3 =>
            obtain ⟨rules3, g3⟩ := a3
            simp only [ok_bind] at hfit ⊢
            rw [show Clf.setRules (possibleConds (df.toFrame.dropCol cf)) rules3 = modify _ from rfl, bind_ok (modify_run _ _), bind_pureCode]
            generalize bestSubsetCn cn rules3 pos neg = out at hfit ⊢
            cases out with
            | error e => rw [hfit]; exact ⟨rfl, fun _ _ h => (by cases h)⟩
            | ok a4 =>
              obtain ⟨rules4, dl⟩ := a4
              simp only [ok_bind, pure_eq_ok] at hfit ⊢
              rw [bind_ok (modify_run _ _), bind_ok (Clf.tidy_run rfl), bind_run, Clf.fitProbas_run rfl]
              simp only []
              rcases hr : Witt.recalibrate _ df.toFrame cf pc c.hyper.alpha with ⟨rs', o⟩
              rw [hr] at hfit
              cases o with
              | some e => rw [hfit]; exact ⟨rfl, fun _ _ h => (by cases h)⟩
              | none =>
                simp only [raiseIf, ok_bind] at hfit ⊢
                rw [hfit, bind_ok (modify_run _ _)]
                refine ⟨rfl, fun g' c' h => ?_⟩
                simp only [pure_run, EStateM.Result.ok.injEq] at h
                obtain ⟨rfl, rfl⟩ := h
                exact ⟨df, cf, pc, b, start, _, rfl, rfl, hfit, rfl⟩

end Witt
