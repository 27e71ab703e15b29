import Verif.Lemmas.RipperFit
import Verif.Plain
/-
Seeded runs without the coverage index do not look at the generator's state.
-/
namespace Witt
open Spec
variable [Arith] [Arith.Lawful]

variable {fuel : Nat} {R : PyRandom} {cands : List Cond} {hp : Hyper} {allPos allNeg : Frame}

omit [Arith.Lawful] in
theorem dfShuffledSplit_seeded (hR : R.SeedResets) (g g' : R.G) (df : Frame) (q : Rat) (s : Int) :
    dfShuffledSplit R g df q (some s) = dfShuffledSplit R g' df q (some s) := by
  unfold dfShuffledSplit
  rw [randomSplit_seeded hR g g' df.index q s]

omit [Arith.Lawful] in
theorem irepGrow_seeded (hR : R.SeedResets) {s : Int} (hs : hp.randomState = some s)
    (init : List (List Cond)) (pos neg : Frame) (g g' : R.G) :
    (irepGrow fuel R cands hp init pos neg g).map FrameSt.rules =
      (irepGrow fuel R cands hp init pos neg g').map FrameSt.rules := by
  unfold irepGrow
  cases fuel with
  | zero => rfl
  | succ n =>
    rw [pyWhile_succ, pyWhile_succ]
    by_cases h1 : pos.rows = []
    · simp [irepStep, h1, Except.map, pure_eq_ok]
    by_cases h2 : stopEarly hp.lim init pos.rows.length neg.rows.length = true
    · simp [irepStep, h1, h2, Except.map, pure_eq_ok]
    have : irepStep (n + 1) R cands hp ⟨init, pos, neg, g⟩ = irepStep (n + 1) R cands hp ⟨init, pos, neg, g'⟩ := by
      unfold irepStep
      simp only [h1, if_false, h2]
      rw [hs, dfShuffledSplit_seeded hR g g' pos _ s]
      rfl
    rw [this]

omit [Arith.Lawful] in
theorem ripperGrow_seeded (hR : R.SeedResets) {s : Int} (hs : hp.randomState = some s)
    (init : List (List Cond)) (pos neg : Frame) (g g' : R.G) :
    (ripperGrow fuel R cands hp init pos neg g).map FrameRipSt.rules =
      (ripperGrow fuel R cands hp init pos neg g').map FrameRipSt.rules := by
  unfold ripperGrow
  cases fuel with
  | zero => rfl
  | succ n =>
    rw [pyWhile_succ, pyWhile_succ]
    by_cases h1 : pos.rows = [] ∨ (!Arith.within Arith.zeroDl hp.dlAllowance) = true
    · have : ∀ g, ripperStep (n + 1) R cands hp pos neg ⟨init, pos, neg, none, Arith.zeroDl, g⟩ =
          .ok (.done ⟨init, pos, neg, none, Arith.zeroDl, g⟩) := by
        intro g
        unfold ripperStep
        simp only
        rw [if_pos h1]; rfl
      rw [this, this]; rfl
    by_cases h2 : stopEarly hp.lim init pos.rows.length neg.rows.length = true
    · have : ∀ g, ripperStep (n + 1) R cands hp pos neg ⟨init, pos, neg, none, Arith.zeroDl, g⟩ =
          .ok (.done ⟨init, pos, neg, none, Arith.zeroDl, g⟩) := by
        intro g
        unfold ripperStep
        simp only
        rw [if_neg h1, if_pos h2]; rfl
      rw [this, this]; rfl
    have : ripperStep (n + 1) R cands hp pos neg ⟨init, pos, neg, none, Arith.zeroDl, g⟩ =
        ripperStep (n + 1) R cands hp pos neg ⟨init, pos, neg, none, Arith.zeroDl, g'⟩ := by
      unfold ripperStep
      simp only [h1, if_false, h2]
      cases hp.pruneSize with
      | none => rfl
      | some ps =>
        simp only
        rw [hs, dfShuffledSplit_seeded hR g g' pos _ s]
        rfl
    rw [this]

omit [Arith.Lawful] in
theorem optimizeLoopDf_seeded (hR : R.SeedResets) {s : Int} {ps : Rat} {original : List (List Cond)}
    {odl : Rat} (i : Nat) (rest new : List (List Cond)) (pos neg : Frame) (g g' : R.G) :
    (optimizeLoopDf fuel R cands hp ps (some s) original odl allPos allNeg i rest new pos neg g).map Prod.fst =
    (optimizeLoopDf fuel R cands hp ps (some s) original odl allPos allNeg i rest new pos neg g').map Prod.fst := by
  cases rest with
  | nil => rfl
  | cons r rest =>
    rw [optimizeLoopDf, optimizeLoopDf, dfShuffledSplit_seeded hR g g' pos _ s]

omit [Arith.Lawful] in
theorem optimizeDf_seeded (hR : R.SeedResets) {s : Int} (rules : List (List Cond)) (g g' : R.G) :
    (optimizeDf fuel R cands hp (some s) rules allPos allNeg g).map Prod.fst =
    (optimizeDf fuel R cands hp (some s) rules allPos allNeg g').map Prod.fst := by
  unfold optimizeDf
  rw [map_bind, map_bind]
  congr 1
  funext x
  obtain ⟨mdl, odl⟩ := x
  simp only
  cases hp.pruneSize with
  | none => simp only; split <;> rfl
  | some ps => exact optimizeLoopDf_seeded hR _ _ _ _ _ _ _

omit [Arith.Lawful] in
theorem stage2Df_seeded (hR : R.SeedResets) {s : Int} (hs : hp.randomState = some s) :
    ∀ (n : Nat) (rules : List (List Cond)) (g g' : R.G),
    (stage2Df fuel R cands hp allPos allNeg n rules g).map Prod.fst =
    (stage2Df fuel R cands hp allPos allNeg n rules g').map Prod.fst := by
  intro n
  induction n with
  | zero => intros; rfl
  | succ n ih =>
    intro rules g g'
    rw [stage2Df, stage2Df, map_bind, map_bind]
    refine bind_map_congr (f := Prod.fst) ?_ ?_
    · rw [hs]
      exact optimizeDf_seeded hR _ _ _
    · rintro ⟨a, ga⟩ ⟨b, gb⟩ hab
      simp only at hab
      subst hab
      simp only
      split
      · rfl
      · exact ih _ _ _

omit [Arith.Lawful] in
theorem coverRemainingDf_seeded {S : SetOps} (hR : R.SeedResets) {s : Int} (hs : hp.randomState = some s)
    (rules : List (List Cond)) (pos neg : Frame) (g g' : R.G) :
    (coverRemainingDf fuel R S cands hp rules pos neg g).map (fun x => (x.1, x.2.1)) =
    (coverRemainingDf fuel R S cands hp rules pos neg g').map (fun x => (x.1, x.2.1)) := by
  unfold coverRemainingDf
  rw [map_bind, map_bind]
  congr 1
  funext x
  obtain ⟨pos', neg'⟩ := x
  simp only
  split
  · rw [map_bind, map_bind]
    refine bind_map_congr (f := FrameRipSt.rules) (ripperGrow_seeded hR hs _ _ _ _ _) ?_
    intro a b hab
    simp [Except.map, hab, pure_eq_ok]
  · rfl

omit [Arith.Lawful] in
theorem ripperStagesDf_seeded {S : SetOps} {old : Option (List Cond)} (hR : R.SeedResets) {s : Int}
    (hs : hp.randomState = some s) (init : List (List Cond)) (pos neg : Frame) (g g' : R.G) :
    (ripperStagesDf fuel R S hp old init pos neg g).map Prod.fst =
    (ripperStagesDf fuel R S hp old init pos neg g').map Prod.fst := by
  unfold ripperStagesDf
  simp only
  rw [map_bind, map_bind]
  refine bind_map_congr (f := FrameRipSt.rules) (ripperGrow_seeded hR hs _ _ _ _ _) ?_
  intro a b hab
  rw [map_bind, map_bind, hab]
  refine bind_map_congr (f := Prod.fst) (stage2Df_seeded hR hs _ _ _ _) ?_
  rintro ⟨a, ga⟩ ⟨b, gb⟩ hab
  simp only at hab
  subst hab
  simp only
  rw [map_bind, map_bind]
  refine bind_map_congr (f := fun x => (x.1, x.2.1)) (coverRemainingDf_seeded hR hs _ _ _ _ _) ?_
  rintro ⟨a, ca, ga⟩ ⟨b, cb, gb⟩ hab
  simp only [Prod.mk.injEq] at hab
  obtain ⟨rfl, rfl⟩ := hab
  simp only
  rw [map_bind, map_bind]
  rfl

end Witt
