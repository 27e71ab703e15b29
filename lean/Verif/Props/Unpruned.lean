import Verif.Lemmas.Unpruned
import Verif.Props.Weight
/-
C86: IREP without pruning is deterministic.
-/
namespace Witt
open Spec

namespace Spec
/-- Pruning is switched off. -/
def Unpruned (hp : Hyper) : Prop := hp.pruneSize = none ∨ hp.pruneSize = some 0

/-- The same classifier with another `random_state`. -/
def withSeed (c : Clf) (rs : Option Int) : Clf := { c with hyper := { c.hyper with randomState := rs } }
end Spec

theorem irepPrune_zero {hp : Hyper} (h : Unpruned hp) : hp.irepPrune = 0 := by
  unfold Hyper.irepPrune
  rcases h with h | h <;> rw [h] <;> rfl

theorem irepFit_unpruned [Arith] [Arith.Lawful] {R R' : PyRandom} (hR : R.Lawful) (hR' : R'.Lawful) (fuel : Nat) {hp : Hyper}
    (h0 : Unpruned hp) (rs : Option Int) (init : List (List Cond)) (df : Frame) (cf : Feat) (pc : Val) (g : R.G) (g' : R'.G) :
    (irepFit fuel R hp init df cf pc g).map Prod.fst =
      (irepFit fuel R' { hp with randomState := rs } init df cf pc g').map Prod.fst := by
  unfold irepFit
  split
  · rfl
  split
  · rfl
  cases hb : CatNap.build df cf with
  | error e => rfl
  | ok cn =>
    simp only [ok_bind]
    have := irepGrowCn_unpruned hR hR' fuel cn (hp' := { hp with randomState := rs }) (irepPrune_zero h0) rfl rfl init
      (labelSet (posRows df cf pc).index) (labelSet (negRows df cf pc).index) g g'
    revert this
    generalize irepGrowCn fuel R cn hp init _ _ g = o
    generalize irepGrowCn fuel R' cn _ init _ _ g' = o'
    intro h
    cases h with
    | err e => rfl
    | ok h =>
      simp only [ok_bind]
      rw [h.1, map_bind, map_bind]
      rfl

theorem irepFitPlain_unpruned [Arith] [Arith.Lawful] {R R' : PyRandom} (hR : R.Lawful) (hR' : R'.Lawful) (fuel : Nat)
    (S : SetOps) {hp : Hyper} (h0 : Unpruned hp) (rs : Option Int) (old : Option (List Cond)) (init : List (List Cond))
    (df : Frame) (cf : Feat) (pc : Val) (g : R.G) (g' : R'.G) :
    (irepFitPlain fuel R S hp old init df cf pc g).map Prod.fst =
      (irepFitPlain fuel R' S { hp with randomState := rs } old init df cf pc g').map Prod.fst := by
  unfold irepFitPlain
  split
  · rfl
  split
  · rfl
  simp only
  have := irepGrow_unpruned hR hR' fuel (updatedConds S old (posExamples df cf pc) (negExamples df cf pc))
    (hp' := { hp with randomState := rs }) (irepPrune_zero h0) rfl rfl init (posExamples df cf pc) (negExamples df cf pc) g g'
  revert this
  generalize irepGrow fuel R _ hp init _ _ g = o
  generalize irepGrow fuel R' _ _ init _ _ g' = o'
  intro h
  cases h with
  | err e => rfl
  | ok h =>
    simp only [ok_bind]
    rw [h.1, map_bind, map_bind]
    rfl

/-- C86. Without pruning, what IREP learns from preprocessed data (the model, or the exception raised) involves no chance:
whatever the generator, its state and the seed, it is the same. -/
theorem C86_unpruned_deterministic [Arith] [Arith.Lawful] (a : Method) (ha : a = .irep ∨ ∃ S, a = .irepPlain S) (fuel : Nat)
    (R R' : PyRandom) (hR : R.Lawful) (hR' : R'.Lawful) (hp : Hyper) (h0 : Unpruned hp) (rs : Option Int)
    (old : Option (List Cond)) (init : List (List Cond)) (df : Frame) (cf : Feat) (pc : Val) (g : R.G) (g' : R'.G) :
    (a.train fuel R hp old init df cf pc g).map Prod.fst =
      (a.train fuel R' { hp with randomState := rs } old init df cf pc g').map Prod.fst := by
  rcases ha with rfl | ⟨S, rfl⟩
  · exact irepFit_unpruned hR hR' fuel h0 rs init df cf pc g g'
  · exact irepFitPlain_unpruned hR hR' fuel S h0 rs old init df cf pc g g'

/-- C86 for the API. `IREP(prune_size=None).fit` gives the same object, or the same exception, for every generator, state of
the generator and `random_state`: only the attribute `random_state` itself differs. -/
theorem C86_fit_unpruned [Arith] [Arith.Lawful] (a : Method) (ha : a = .irep ∨ ∃ S, a = .irepPlain S) (fuel : Nat)
    (R R' : PyRandom) (hR : R.Lawful) (hR' : R'.Lawful) (F : PyFloat) (P : PandasCut) (d : FitData) (init : ModelArg)
    (g : R.G) (g' : R'.G) (c : Clf) (h0 : Unpruned c.hyper) (rs : Option Int) :
    (completed (a.fit fuel R' F P d init g' (withSeed c rs))).map Prod.snd =
      (completed (a.fit fuel R F P d init g c)).map (fun r => withSeed r.2 rs) := by
  simp only [Method.fit_completed]
  generalize a.early init = x
  cases x with
  | error e => rfl
  | ok rs' =>
    simp only [ok_bind]
    have hn : (withSeed c rs).nBins = c.nBins := rfl
    rw [hn]
    cases preprocessTraining F P c.nBins d with
    | error e => rfl
    | ok q =>
      simp only [ok_bind]
      cases init.toRuleset with
      | error e => rfl
      | ok start =>
        simp only [ok_bind]
        have := C86_unpruned_deterministic a ha fuel R R' hR hR' c.hyper h0 rs start.possible (start.rules.map Rule.conds)
          q.1.toFrame q.2.1 q.2.2.1 g g'
        have hh : (withSeed c rs).hyper = { c.hyper with randomState := rs } := rfl
        rw [hh]
        revert this
        generalize a.train fuel R c.hyper start.possible (start.rules.map Rule.conds) q.1.toFrame q.2.1 q.2.2.1 g = o
        generalize a.train fuel R' _ start.possible (start.rules.map Rule.conds) q.1.toFrame q.2.1 q.2.2.1 g' = o'
        intro h
        cases o with
        | error e =>
          cases o' with
          | error e' => cases h; rfl
          | ok v => cases h
        | ok u =>
          cases o' with
          | error e' => cases h
          | ok v =>
            have : u.1 = v.1 := by simpa [Except.map] using h
            simp [Except.map, this, ok_bind, pure_eq_ok, withSeed, Clf.fitted]

/-- C86 needs the hypothesis: with pruning, IREP's model does depend on the shuffles. -/
theorem C86_refuted_pruned :
    (Method.train .irep 9 Demo.R1 { pruneSize := some (1 / 2) } none [] Demo.train Demo.fc Demo.vp (0 : Nat)).map
      (fun m => m.1.ruleset.rules.map Rule.conds) ≠
    (Method.train .irep 9 Demo.R1 { pruneSize := some (1 / 2) } none [] Demo.train Demo.fc Demo.vp (1 : Nat)).map
      (fun m => m.1.ruleset.rules.map Rule.conds) := by decide +kernel

/-- The hypotheses hold of two generators and a run that learns two rules. -/
example : Demo.R0.Lawful ∧ Demo.R1.Lawful ∧ Unpruned { pruneSize := none } ∧ Unpruned { pruneSize := some 0 } ∧
    (Method.train .irep 9 Demo.R1 { pruneSize := none, randomState := some 7 } none [] Demo.xor Demo.fc Demo.vp (3 : Nat)).map
      (fun m => m.1.ruleset.rules.map Rule.conds) =
      .ok [[⟨Demo.fa, Demo.vx⟩, ⟨Demo.fb, Demo.vx⟩], [⟨Demo.fa, Demo.vy⟩, ⟨Demo.fb, Demo.vy⟩]] :=
  ⟨Demo.R0_lawful, Demo.R1_lawful, Or.inl rfl, Or.inr rfl, by decide +kernel⟩

end Witt
