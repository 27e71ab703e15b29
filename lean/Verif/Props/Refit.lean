import Verif.Lemmas.Refit
import Verif.Props.Unpruned
import Verif.Props.FitApi
import Verif.Props.Irrelevant
/-
C99: IREP from an initial model.
-/
namespace Witt
open Spec

namespace Spec
/-- Two rules that print the same up to the order of conditions, which `fit` takes for one rule. -/
def SamePrint (a b : List Cond) : Prop := (a.map Cond.text).Perm (b.map Cond.text)

instance (a b : List Cond) : Decidable (SamePrint a b) := inferInstanceAs (Decidable (List.Perm _ _))
end Spec

theorem condsSameKey_alike {a b : List Cond} : condsSameKey a b = true ↔ SamePrint a b := condsSameKey_iff

theorem finish_none_start {init : List (List Cond)} (hd : init.Pairwise (fun a b => ¬ SamePrint a b)) (l : List (List Cond)) :
    finish none (init ++ l) = init ++ (finish none l).filter (fun r => decide (∀ i ∈ init, ¬ SamePrint i r)) := by
  have hd' : init.Pairwise (fun a b => condsSameKey a b = false) :=
    hd.imp (fun {a b} h => by
      cases hh : condsSameKey a b
      · rfl
      · exact absurd (condsSameKey_alike.mp hh) h)
  have := removeDups_start (same := condsSameKey) (fun _ _ => condsSameKey_symm) (fun _ _ _ => condsSameKey_trans) hd' l
  unfold finish trimRules
  dsimp only
  rw [this]
  congr 1
  apply List.filter_congr
  intro r _
  rw [Bool.eq_iff_iff]
  simp only [Bool.not_eq_true', List.any_eq_false, decide_eq_true_eq]
  exact forall₂_congr fun p _ => not_congr condsSameKey_alike

/-- C99. IREP does not take the initial model into account when it learns: started from rules, it learns exactly the rules it
would learn from scratch (in the same order, with the same counts and the same use of the generator), puts them behind the
initial rules and drops those that repeat an initial rule. (When neither `max_rules` nor `max_total_conds` is set: those count the
initial rules.) -/
theorem C99_new_rules [Arith] (a : Method) (hi : a = .irep ∨ ∃ S, a = .irepPlain S) (fuel : Nat) (R : PyRandom) (hp : Hyper)
    (hl : hp.lim.maxRules = none ∧ hp.lim.maxTotalConds = none) (ha : 0 < hp.alpha) (old : Option (List Cond))
    (init : List (List Cond)) (hd : init.Pairwise (fun r s => ¬ SamePrint r s)) (df : Frame)
    (hf : ∀ r ∈ init, ∀ c ∈ r, c.feature ∈ df.cols) (cf : Feat) (pc : Val) (g g' : R.G) (scratch : Fitted)
    (h : a.train fuel R hp old [] df cf pc g = .ok (scratch, g')) :
    ∃ m, a.train fuel R hp old init df cf pc g = .ok (m, g') ∧
      ∃ kept : List Rule, kept.map Rule.conds = init ∧
        m.ruleset.rules = kept ++ scratch.ruleset.rules.filter (fun r => decide (∀ i ∈ init, ¬ SamePrint i r.conds)) := by
  obtain ⟨hne, hcf, rules, cands, hloop, hfeat, rfl⟩ := loop_of_train hi h ha
  have hloop' : a.irepLoop fuel R hp old init df cf pc g = .ok (init ++ rules, cands, g') := by
    rw [irepLoop_from fuel hp hl, hloop]; rfl
  have hfeat' : HasFeatures df ((init ++ rules).map (fun c => ({ conds := c } : Rule))) := by
    intro r hr c hc
    rw [List.map_append, List.mem_append] at hr
    rcases hr with hr | hr
    · obtain ⟨x, hx, rfl⟩ := List.mem_map.mp hr
      exact hf x hx c hc
    · exact hfeat r hr c hc
  refine ⟨_, train_of_loop hi hne hcf hloop' ha hfeat', init.map (countedRule df cf pc hp.alpha), ?_, ?_⟩
  · rw [List.map_map]
    exact List.map_id _
  · unfold irepModel
    dsimp only
    rw [hl.2, finish_none_start hd, List.map_append, List.filter_map]
    rfl

theorem rowUncovered_mem {rs rs' : List Rule} (h : ∀ r, r ∈ rs ↔ r ∈ rs') (df : Frame) : rowUncovered rs df = rowUncovered rs' df := by
  funext row
  unfold rowUncovered
  congr 2
  funext row'
  congr 1
  rw [Bool.eq_iff_iff, rulesMet_iff, rulesMet_iff]
  unfold FiresAny
  simp only [h]

/-- C99. Fitting IREP again, on the same data with the same random choices, from the model it has just learned changes nothing:
the rules and their counts are those of that model. Without limits on the number of rules and conditions the counts of the examples
that no rule covers are the same too. -/
theorem C99_train_again [Arith] (a : Method) (hi : a = .irep ∨ ∃ S, a = .irepPlain S) (fuel : Nat) (R : PyRandom) (hp : Hyper)
    (ha : 0 < hp.alpha) (df : Frame) (cf : Feat) (pc : Val) (g g' : R.G) (m : Fitted)
    (h : a.train fuel R hp none [] df cf pc g = .ok (m, g')) :
    ∃ m' g2, a.train fuel R hp m.ruleset.possible (m.ruleset.rules.map Rule.conds) df cf pc g = .ok (m', g2) ∧
      m'.ruleset.rules = m.ruleset.rules ∧
      (hp.lim.maxRules = none ∧ hp.lim.maxTotalConds = none → m'.ruleset.uncov = m.ruleset.uncov ∧ g2 = g') := by
  obtain ⟨hne, hcf, rules, cands, hloop, hfeat, rfl⟩ := loop_of_train hi h ha
  have hconds : (irepModel hp df cf pc cands rules).ruleset.rules.map Rule.conds = finish hp.lim.maxTotalConds rules := by
    unfold irepModel
    dsimp only
    rw [List.map_map]
    exact List.map_id _
  rw [hconds]
  have hposs : (irepModel hp df cf pc cands rules).ruleset.possible = some cands := rfl
  rw [hposs]
  obtain ⟨t, ht⟩ : ∃ t, t = finish hp.lim.maxTotalConds rules := ⟨_, rfl⟩
  rw [← ht]
  have htsub : ∀ r ∈ t, r ∈ rules := fun r hr => (finish_sublist hp.lim.maxTotalConds rules).subset (ht ▸ hr)
  obtain ⟨q, g2, hq, hpre⟩ := irepLoop_early fuel hp none t df cf pc g g' hloop
  have hag := irepLoop_again fuel hp t df cf pc g g hloop
  rw [hq] at hag
  obtain ⟨cands', hq'⟩ : ∃ cands', a.irepLoop fuel R hp (some cands) t df cf pc g = .ok (t ++ q, cands', g2) := by
    revert hag
    cases a.irepLoop fuel R hp (some cands) t df cf pc g with
    | error e => intro hh; cases hh
    | ok x =>
      intro hh
      simp only [Except.map, Except.ok.injEq, Prod.mk.injEq] at hh
      exact ⟨x.2.1, by rw [← hh.1, ← hh.2]⟩
  have hfeat' : HasFeatures df ((t ++ q).map (fun c => ({ conds := c } : Rule))) := by
    intro r hr c hc
    obtain ⟨x, hx, rfl⟩ := List.mem_map.mp hr
    refine hfeat _ (List.mem_map_of_mem (?_ : x ∈ rules)) c hc
    rcases List.mem_append.mp hx with hx | hx
    · exact htsub x hx
    · exact hpre.subset hx
  refine ⟨_, g2, train_of_loop hi hne hcf hq' ha hfeat', ?_, ?_⟩
  · unfold irepModel
    dsimp only
    rw [ht, finish_again _ hpre]
  · intro hl
    have hfrom : a.irepLoop fuel R hp none t df cf pc g = .ok (t ++ rules, cands, g') := by
      rw [irepLoop_from fuel hp hl, hloop]; rfl
    rw [hq] at hfrom
    simp only [Except.ok.injEq, Prod.mk.injEq, List.append_cancel_left_eq] at hfrom
    refine ⟨?_, hfrom.2.2⟩
    have : rowUncovered ((t ++ q).map (fun c => ({ conds := c } : Rule))) df =
        rowUncovered (rules.map (fun c => ({ conds := c } : Rule))) df := by
      apply rowUncovered_mem
      intro r
      rw [hfrom.1]
      simp only [List.mem_map, List.mem_append]
      constructor
      · rintro ⟨x, hx | hx, rfl⟩
        · exact ⟨x, htsub x hx, rfl⟩
        · exact ⟨x, hx, rfl⟩
      · rintro ⟨x, hx, rfl⟩
        exact ⟨x, Or.inr hx, rfl⟩
    unfold irepModel
    dsimp only
    rw [this]

theorem train_seedless [Arith] [Arith.Lawful] {a : Method} (hi : a = .irep ∨ ∃ S, a = .irepPlain S) {fuel : Nat} {R : PyRandom} {hp : Hyper}
    (hs : (R.SeedResets ∧ ∃ s, hp.randomState = some s) ∨ R.Lawful ∧ Unpruned hp) (old : Option (List Cond))
    (init : List (List Cond)) (df : Frame) (cf : Feat) (pc : Val) (g g' : R.G) :
    (a.train fuel R hp old init df cf pc g).map Prod.fst = (a.train fuel R hp old init df cf pc g').map Prod.fst := by
  rcases hs with ⟨hR, s, hs⟩ | ⟨hR, h0⟩
  · rcases hi with rfl | ⟨S, rfl⟩
    · exact C36_irep_reproducible R hR hp s hs init df cf pc fuel g g'
    · exact C36_irep_plain_reproducible R hR S hp s hs old init df cf pc fuel g g'
  · exact C86_unpruned_deterministic a hi fuel R R hR hR hp h0 hp.randomState old init df cf pc g g'

/-- C99 for the API. Fit an IREP classifier, and fit one with the same parameters (the same object, say) on the same data with the
first as `initial_model`. If `random_state` is set, or nothing is pruned, the second fit succeeds too and ends with the same rules
and counts. -/
theorem C99_fit_again [Arith] [Arith.Lawful] (a : Method) (hi : a = .irep ∨ ∃ S, a = .irepPlain S) (fuel : Nat) (R : PyRandom)
    (F : PyFloat) (P : PandasCut) (d : FitData) (g g1 g2 : R.G) (c c1 c2 : Clf) (hh : c2.hyper = c.hyper) (hn : c2.nBins = c.nBins)
    (hs : (R.SeedResets ∧ ∃ s, c.hyper.randomState = some s) ∨ R.Lawful ∧ Unpruned c.hyper) (ha : 0 < c.hyper.alpha)
    (h : a.fit fuel R F P d .nothing g c = .ok g1 c1) :
    ∃ g3 c3, a.fit fuel R F P d (.clf c1) g2 c2 = .ok g3 c3 ∧
      c3.ruleset.map Ruleset.rules = c1.ruleset.map Ruleset.rules := by
  obtain ⟨df, cf, pc, b, start, m, hp, hst, htr, rfl⟩ := Method.fit_ok h
  cases hst
  obtain ⟨m', g2', h1, h2, _⟩ := C99_train_again a hi fuel R c.hyper ha df.toFrame cf pc g g1 m htr
  have h3 := train_seedless hi hs m.ruleset.possible (m.ruleset.rules.map Rule.conds) df.toFrame cf pc g g2
    (fuel := fuel)
  rw [h1] at h3
  obtain ⟨g3, h4⟩ : ∃ g3, a.train fuel R c.hyper m.ruleset.possible (m.ruleset.rules.map Rule.conds) df.toFrame cf pc g2 =
      .ok (m', g3) := by
    revert h3
    cases a.train fuel R c.hyper m.ruleset.possible (m.ruleset.rules.map Rule.conds) df.toFrame cf pc g2 with
    | error e => intro hx; cases hx
    | ok x =>
      intro hx
      simp only [Except.map, Except.ok.injEq] at hx
      exact ⟨x.2, by rw [hx]⟩
  refine ⟨g3, c2.fitted m' b cf pc, ?_, ?_⟩
  · have hto : (ModelArg.clf (c.fitted m b cf pc)).toRuleset = .ok m.ruleset := rfl
    obtain ⟨rs', he⟩ := Method.early_of (a := a) hto
    have hc := Method.fit_completed a fuel R F P d (.clf (c.fitted m b cf pc)) g2 c2
    rw [he, hn, hp, hto, hh] at hc
    simp only [ok_bind] at hc
    rw [h4] at hc
    revert hc
    cases a.fit fuel R F P d (.clf (c.fitted m b cf pc)) g2 c2 with
    | error e s => intro hc; cases hc
    | ok x s =>
      intro hc
      simp only [completed, ok_bind, pure_eq_ok, Except.ok.injEq, Prod.mk.injEq] at hc
      rw [hc.1, hc.2]
  · show Option.map _ (some m'.ruleset) = Option.map _ (some m.ruleset)
    rw [Option.map_some, Option.map_some, h2]

/-! ### examples -/
namespace Demo
/-- Ten examples of which RIPPER learns two rules. -/
def ten : Frame := Frame.ofTable [fa, fb, fc] [(0, [vy, vx, vp]), (1, [vy, vx, vn]), (2, [vy, vx, vp]), (3, [vy, vy, vp]),
  (4, [vx, vy, vn]), (5, [vy, vx, vn]), (6, [vx, vx, vp]), (7, [vy, vy, vp]), (8, [vx, vy, vn]), (9, [vx, vx, vp])]
end Demo

/-- The hypotheses hold of an initial rule that repeats (in another order) the first of the two rules learned from scratch. -/
example : let init : List (List Cond) := [[⟨Demo.fb, Demo.vx⟩, ⟨Demo.fa, Demo.vx⟩], [⟨Demo.fa, Demo.vy⟩]]
    init.Pairwise (fun r s => ¬ SamePrint r s) ∧ (∀ r ∈ init, ∀ c ∈ r, c.feature ∈ Demo.xor.cols) ∧
    Demo.rulesLearnt (irepFit 9 Demo.R0 { pruneSize := none } [] Demo.xor Demo.fc Demo.vp ()) =
      some [[⟨Demo.fa, Demo.vx⟩, ⟨Demo.fb, Demo.vx⟩], [⟨Demo.fa, Demo.vy⟩, ⟨Demo.fb, Demo.vy⟩]] ∧
    Demo.rulesLearnt (irepFit 9 Demo.R0 { pruneSize := none } init Demo.xor Demo.fc Demo.vp ()) =
      some [[⟨Demo.fb, Demo.vx⟩, ⟨Demo.fa, Demo.vx⟩], [⟨Demo.fa, Demo.vy⟩], [⟨Demo.fa, Demo.vy⟩, ⟨Demo.fb, Demo.vy⟩]] := by
  refine ⟨?_, ?_, ?_, ?_⟩ <;> decide +kernel

/-- Fitting again, with pruning and a limit, from the model learned. -/
example : let hp : Hyper := { pruneSize := some (1 / 3), lim := { maxTotalConds := some 2 } }
    let rules : List (List Cond) := [[⟨Demo.fa, Demo.vy⟩], [⟨Demo.fb, Demo.vx⟩]]
    Demo.rulesLearnt (irepFit 12 Demo.R1 hp [] Demo.ten Demo.fc Demo.vp (0 : Nat)) = some rules ∧
    Demo.rulesLearnt (irepFit 12 Demo.R1 hp rules Demo.ten Demo.fc Demo.vp (0 : Nat)) = some rules := by
  refine ⟨?_, ?_⟩ <;> decide +kernel

/-- A classifier fitted on data with numbers and names, then fitted again from itself. -/
example : ∃ fuel c1 g3 c3, (∃ g1, Method.fit .irep fuel Demo.R0 Demo.F Demo.P Demo.mixedData .nothing () Demo.newIrep = .ok g1 c1) ∧
    Method.fit .irep fuel Demo.R0 Demo.F Demo.P Demo.mixedData (.clf c1) () c1 = .ok g3 c3 ∧
    c3.ruleset.map Ruleset.rules = c1.ruleset.map Ruleset.rules := by
  obtain ⟨c1, fuel, g, g1, h⟩ := Demo.mixed_fit_irep
  obtain ⟨df, cf, pc, b, start, m, _, _, _, hc⟩ := Method.fit_ok h
  obtain ⟨g3, c3, h1, h2⟩ := C99_fit_again .irep (Or.inl rfl) fuel Demo.R0 Demo.F Demo.P Demo.mixedData () g1 () Demo.newIrep c1 c1
    (by rw [hc]; rfl) (by rw [hc]; rfl) (Or.inr ⟨Demo.R0_lawful, Or.inl rfl⟩) (by decide +kernel) h
  exact ⟨fuel, c1, g3, c3, ⟨g1, h⟩, h1, h2⟩

/-- C99 needs no limit on the number of rules: with `max_rules` the initial rules use up the allowance, and fewer are learned. -/
theorem C99_refuted_max_rules :
    let hp : Hyper := { pruneSize := none, lim := { maxRules := some 2 } }
    let init : List (List Cond) := [[⟨Demo.fa, Demo.vy⟩]]
    Demo.rulesLearnt (irepFit 9 Demo.R0 hp [] Demo.xor Demo.fc Demo.vp ()) =
      some [[⟨Demo.fa, Demo.vx⟩, ⟨Demo.fb, Demo.vx⟩], [⟨Demo.fa, Demo.vy⟩, ⟨Demo.fb, Demo.vy⟩]] ∧
    Demo.rulesLearnt (irepFit 9 Demo.R0 hp init Demo.xor Demo.fc Demo.vp ()) =
      some [[⟨Demo.fa, Demo.vy⟩], [⟨Demo.fa, Demo.vx⟩, ⟨Demo.fb, Demo.vx⟩]] := by
  refine ⟨?_, ?_⟩ <;> decide +kernel

/-- C99 needs the same random choices: with pruning and no seed, fitting again can add a rule. -/
theorem C99_refuted_unseeded : ∃ (g g' : Demo.R1.G) (hp : Hyper) (rules rules' : List (List Cond)),
    Demo.rulesLearnt (irepFit 12 Demo.R1 hp [] Demo.ten Demo.fc Demo.vp g) = some rules ∧
    Demo.rulesLearnt (irepFit 12 Demo.R1 hp rules Demo.ten Demo.fc Demo.vp g') = some rules' ∧ rules' ≠ rules := by
  refine ⟨(1 : Nat), (0 : Nat), { pruneSize := some (1 / 3) }, [[⟨Demo.fa, Demo.vy⟩, ⟨Demo.fb, Demo.vy⟩]],
    [[⟨Demo.fa, Demo.vy⟩, ⟨Demo.fb, Demo.vy⟩], [⟨Demo.fa, Demo.vy⟩], [⟨Demo.fb, Demo.vx⟩]], ?_, ?_, ?_⟩ <;> decide +kernel

/-- C99 is false of RIPPER: of the two rules it has learned it keeps one when fitted again from them (the description length of a
ruleset that repeats a rule is another). -/
theorem C99_refuted_ripper :
    let hp : Hyper := { pruneSize := some (1 / 3), k := 0, dlAllowance := 2 }
    ∃ rules : List (List Cond), rules.length = 2 ∧
      Demo.rulesLearnt (ripperFit 12 Demo.R0 hp [] Demo.ten Demo.fc Demo.vp ()) = some rules ∧
      (Demo.rulesLearnt (ripperFit 12 Demo.R0 hp rules Demo.ten Demo.fc Demo.vp ())).map List.length = some 1 := by
  refine ⟨[[⟨Demo.fa, Demo.vy⟩, ⟨Demo.fb, Demo.vy⟩], [⟨Demo.fb, Demo.vx⟩]], ?_, ?_, ?_⟩ <;> decide +kernel

end Witt
