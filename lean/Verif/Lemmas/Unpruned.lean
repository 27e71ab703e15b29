import Mathlib.Data.List.Perm.Basic
import Verif.Lemmas.PlainGrow
import Verif.Lemmas.RipperFit
import Verif.Plain
/-
IREP without pruning grows on all remaining examples, so shuffling them cannot matter.
-/
namespace Witt
open Spec
variable [Arith] [Arith.Lawful]

/-! ### related loops -/

/-- Two outcomes of a loop body: the same exception, related states to go on with, or related results. -/
inductive StepRel {S S' A A' : Type} (rs : S → S' → Prop) (ra : A → A' → Prop) :
    Except PyErr (Step S A) → Except PyErr (Step S' A') → Prop
  | err (e : PyErr) : StepRel rs ra (.error e) (.error e)
  | more {s s'} (h : rs s s') : StepRel rs ra (.ok (.more s)) (.ok (.more s'))
  | done {a a'} (h : ra a a') : StepRel rs ra (.ok (.done a)) (.ok (.done a'))

/-- Two outcomes of a loop: the same exception or related results. -/
inductive OutRel {A A' : Type} (ra : A → A' → Prop) : Except PyErr A → Except PyErr A' → Prop
  | err (e : PyErr) : OutRel ra (.error e) (.error e)
  | ok {a a'} (h : ra a a') : OutRel ra (.ok a) (.ok a')

omit [Arith] [Arith.Lawful] in
theorem pyWhile_rel {S S' A A' : Type} {rs : S → S' → Prop} {ra : A → A' → Prop}
    {body : S → Except PyErr (Step S A)} {body' : S' → Except PyErr (Step S' A')}
    (h : ∀ s s', rs s s' → StepRel rs ra (body s) (body' s')) :
    ∀ n s s', rs s s' → OutRel ra (pyWhile body n s) (pyWhile body' n s') := by
  intro n
  induction n with
  | zero => intro s s' _; exact .err _
  | succ n ih =>
    intro s s' hs
    rw [pyWhile_succ, pyWhile_succ]
    have := h s s' hs
    revert this
    generalize body s = o
    generalize body' s' = o'
    intro this
    cases this with
    | err e => exact .err e
    | more h => exact ih _ _ h
    | done h => exact .ok h

/-! ### growth looks at numbers of examples only -/

omit [Arith] [Arith.Lawful] in
theorem setInter_length {X s s' : List Label} (h : s.Perm s') : (setInter X s).length = (setInter X s').length :=
  (h.filter _).length_eq

omit [Arith] [Arith.Lawful] in
theorem ruleCovers_perm (cn : CatNap) (r : List Cond) {s s' : List Label} (h : s.Perm s') :
    (cn.ruleCovers r (some s)).Perm (cn.ruleCovers r (some s')) := by
  unfold CatNap.ruleCovers
  split
  · exact h.filter _
  · exact h.filter _

omit [Arith.Lawful] in
theorem growRuleCn_perm (fuel : Nat) (cn : CatNap) (lim : Limits) {pos pos' neg neg' : List Label} (hp : pos.Perm pos')
    (hn : neg.Perm neg') (r : List Cond) : growRuleCn fuel cn lim pos neg r = growRuleCn fuel cn lim pos' neg' r := by
  have : growStepCn cn lim pos neg = growStepCn cn lim pos' neg' := by
    funext rule
    have h1 := ruleCovers_perm cn rule hp
    have h2 := ruleCovers_perm cn rule hn
    have hg : (fun c => gainCn cn c (cn.ruleCovers rule (some pos)) (cn.ruleCovers rule (some neg))) =
        fun c => gainCn cn c (cn.ruleCovers rule (some pos')) (cn.ruleCovers rule (some neg')) := by
      funext c
      unfold gainCn
      rw [h1.length_eq, h2.length_eq]
      simp only [CatNap.condCovers, setInter_length h1, setInter_length h2]
    unfold growStepCn bestRuleSuccessorCn
    simp only [h1.length_eq, h2.length_eq, hg]
  unfold growRuleCn
  rw [this]

omit [Arith] [Arith.Lawful] in
theorem rowHits_perm (r : List Cond) {d d' : Frame} (h : d.rows.Perm d'.rows) : rowHits r d = rowHits r d' :=
  (h.filter _).length_eq

omit [Arith] [Arith.Lawful] in
theorem numCoveredC_perm (r : List Cond) {d d' : Frame} (hc : d.cols = d'.cols) (h : d.rows.Perm d'.rows) :
    numCoveredC r d = numCoveredC r d' := by
  rcases numCoveredC_cases r d with ⟨h1, h2⟩ | ⟨h1, h2⟩ <;> rcases numCoveredC_cases r d' with ⟨h3, h4⟩ | ⟨h3, h4⟩
  · rw [h1, h3, rowHits_perm r h]
  · rw [hc] at h2; exact absurd h2 h4
  · rw [hc] at h2; exact absurd h4 h2
  · rw [h1, h3]

omit [Arith.Lawful] in
theorem growRule_perm (fuel : Nat) (cands : List Cond) (lim : Limits) {pos pos' neg neg' : Frame}
    (hpc : pos.cols = pos'.cols) (hp : pos.rows.Perm pos'.rows) (hnc : neg.cols = neg'.cols) (hn : neg.rows.Perm neg'.rows)
    (r : List Cond) : growRule fuel cands lim pos neg r = growRule fuel cands lim pos' neg' r := by
  have h1 : ∀ r, numCoveredC r pos = numCoveredC r pos' := fun r => numCoveredC_perm r hpc hp
  have h2 : ∀ r, numCoveredC r neg = numCoveredC r neg' := fun r => numCoveredC_perm r hnc hn
  have hg : ∀ a b, gainDf a b pos neg = gainDf a b pos' neg' := by
    intro a b
    unfold gainDf
    simp only [h1, h2]
  have hb : ∀ r, bestSuccessor r cands pos neg = bestSuccessor r cands pos' neg' := by
    intro r
    unfold bestSuccessor
    simp only [hg]
  have : growStep cands lim pos neg = growStep cands lim pos' neg' := by
    funext rule
    unfold growStep
    simp only [h1, h2, hb]
  unfold growRule
  rw [this]

omit [Arith] [Arith.Lawful] in
theorem loc_perm (d : Frame) {a b : List Label} (h : a.Perm b) : (d.loc a).rows.Perm (d.loc b).rows :=
  h.flatMap_right _

/-! ### the whole loop -/

/-- The same up to the generator. -/
def SameGrow {R R' : PyRandom} (s : GrowSt R) (s' : GrowSt R') : Prop :=
  s.rules = s'.rules ∧ s.pos = s'.pos ∧ s.neg = s'.neg

/-- The same up to the generator. -/
def SameFrames {R R' : PyRandom} (s : FrameSt R) (s' : FrameSt R') : Prop :=
  s.rules = s'.rules ∧ s.pos = s'.pos ∧ s.neg = s'.neg

variable {R R' : PyRandom}

theorem irepStepCn_unpruned (hR : R.Lawful) (hR' : R'.Lawful) (fuel : Nat) (cn : CatNap) {hp hp' : Hyper}
    (h0 : hp.irepPrune = 0) (hps : hp'.pruneSize = hp.pruneSize) (hl : hp'.lim = hp.lim) (s : GrowSt R) (s' : GrowSt R')
    (h : SameGrow s s') : StepRel SameGrow SameGrow (irepStepCn fuel R cn hp s) (irepStepCn fuel R' cn hp' s') := by
  obtain ⟨rules, pos, neg, g⟩ := s
  obtain ⟨rules', pos', neg', g'⟩ := s'
  obtain ⟨h1, h2, h3⟩ := h
  dsimp only at h1 h2 h3
  subst h1 h2 h3
  have h0' : hp'.irepPrune = 0 := by unfold Hyper.irepPrune at h0 ⊢; rw [hps]; exact h0
  unfold irepStepCn
  simp only [h0, h0', hl, Arith.Lawful.complement_zero, if_true]
  split
  · exact .done ⟨rfl, rfl, rfl⟩
  split
  · exact .done ⟨rfl, rfl, rfl⟩
  have p1 := (randomSplit_one hR g pos hp.randomState).1
  have p1' := (randomSplit_one hR' g' pos hp'.randomState).1
  rcases e1 : randomSplit R g pos 1 hp.randomState with ⟨a, b, g1⟩
  rcases e1' : randomSplit R' g' pos 1 hp'.randomState with ⟨a', b', g1'⟩
  have p2 := (randomSplit_one hR g1 neg hp.randomState).1
  have p2' := (randomSplit_one hR' g1' neg hp'.randomState).1
  rcases e2 : randomSplit R g1 neg 1 hp.randomState with ⟨c, d, g2⟩
  rcases e2' : randomSplit R' g1' neg 1 hp'.randomState with ⟨c', d', g2'⟩
  simp only [e1, e1', e2, e2'] at p1 p1' p2 p2' ⊢
  rw [growRuleCn_perm fuel cn hp.lim (p1.trans p1'.symm) (p2.trans p2'.symm) []]
  cases growRuleCn fuel cn hp.lim a' c' [] with
  | error e => exact .err e
  | ok grown => exact .more ⟨rfl, rfl, rfl⟩

theorem irepStep_unpruned (hR : R.Lawful) (hR' : R'.Lawful) (fuel : Nat) (cands : List Cond) {hp hp' : Hyper}
    (h0 : hp.irepPrune = 0) (hps : hp'.pruneSize = hp.pruneSize) (hl : hp'.lim = hp.lim) (s : FrameSt R) (s' : FrameSt R')
    (h : SameFrames s s') : StepRel SameFrames SameFrames (irepStep fuel R cands hp s) (irepStep fuel R' cands hp' s') := by
  obtain ⟨rules, pos, neg, g⟩ := s
  obtain ⟨rules', pos', neg', g'⟩ := s'
  obtain ⟨h1, h2, h3⟩ := h
  dsimp only at h1 h2 h3
  subst h1 h2 h3
  have h0' : hp'.irepPrune = 0 := by unfold Hyper.irepPrune at h0 ⊢; rw [hps]; exact h0
  unfold irepStep
  simp only [h0, h0', hl, Arith.Lawful.complement_zero, if_true]
  split
  · exact .done ⟨rfl, rfl, rfl⟩
  split
  · exact .done ⟨rfl, rfl, rfl⟩
  unfold dfShuffledSplit
  have p1 := (randomSplit_one hR g pos.index hp.randomState).1
  have p1' := (randomSplit_one hR' g' pos.index hp'.randomState).1
  rcases e1 : randomSplit R g pos.index 1 hp.randomState with ⟨a, b, g1⟩
  rcases e1' : randomSplit R' g' pos.index 1 hp'.randomState with ⟨a', b', g1'⟩
  have p2 := (randomSplit_one hR g1 neg.index hp.randomState).1
  have p2' := (randomSplit_one hR' g1' neg.index hp'.randomState).1
  rcases e2 : randomSplit R g1 neg.index 1 hp.randomState with ⟨c, d, g2⟩
  rcases e2' : randomSplit R' g1' neg.index 1 hp'.randomState with ⟨c', d', g2'⟩
  simp only [e1, e1', e2, e2'] at p1 p1' p2 p2' ⊢
  rw [growRule_perm fuel cands hp.lim (pos := pos.loc a) (pos' := pos.loc a') (neg := neg.loc c) (neg' := neg.loc c') rfl
    (loc_perm pos (p1.trans p1'.symm)) rfl (loc_perm neg (p2.trans p2'.symm)) []]
  cases growRule fuel cands hp.lim (pos.loc a') (neg.loc c') [] with
  | error e => exact .err e
  | ok grown =>
    simp only [ok_bind]
    cases condsCover grown pos with
    | error e => exact .err e
    | ok v => exact .more ⟨rfl, rfl, rfl⟩

omit [Arith] [Arith.Lawful] in
theorem OutRel.map_eq {A A' B : Type} {ra : A → A' → Prop} {f : A → B} {f' : A' → B} {o : Except PyErr A}
    {o' : Except PyErr A'} (h : OutRel ra o o') (hf : ∀ a a', ra a a' → f a = f' a') : o.map f = o'.map f' := by
  cases h with
  | err e => rfl
  | ok h => simp only [Except.map, hf _ _ h]

theorem irepGrowCn_unpruned (hR : R.Lawful) (hR' : R'.Lawful) (fuel : Nat) (cn : CatNap) {hp hp' : Hyper}
    (h0 : hp.irepPrune = 0) (hps : hp'.pruneSize = hp.pruneSize) (hl : hp'.lim = hp.lim) (init : List (List Cond))
    (pos neg : List Label) (g : R.G) (g' : R'.G) :
    OutRel SameGrow (irepGrowCn fuel R cn hp init pos neg g) (irepGrowCn fuel R' cn hp' init pos neg g') :=
  pyWhile_rel (irepStepCn_unpruned hR hR' fuel cn h0 hps hl) fuel _ _ ⟨rfl, rfl, rfl⟩

theorem irepGrow_unpruned (hR : R.Lawful) (hR' : R'.Lawful) (fuel : Nat) (cands : List Cond) {hp hp' : Hyper}
    (h0 : hp.irepPrune = 0) (hps : hp'.pruneSize = hp.pruneSize) (hl : hp'.lim = hp.lim) (init : List (List Cond))
    (pos neg : Frame) (g : R.G) (g' : R'.G) :
    OutRel SameFrames (irepGrow fuel R cands hp init pos neg g) (irepGrow fuel R' cands hp' init pos neg g') :=
  pyWhile_rel (irepStep_unpruned hR hR' fuel cands h0 hps hl) fuel _ _ ⟨rfl, rfl, rfl⟩

end Witt
