import Verif.Props.RoundedGrow
import Verif.Lemmas.Unpruned
import Verif.Props.Relabel
import Verif.Lemmas.OneVsRest
/-
Property C105, continued: rounding the quotients that training computes (prune metrics and precisions) changes nothing in
what it learns.
-/
namespace Witt
open Spec

/-- The same computations but with exact quotients. -/
@[reducible] def Arith.exactQuots (A : Arith) : Arith := { A with quot := fun a b => (a : Rat) / b }

theorem pyWhile_agree {S A : Type} {I : S → Prop} {body body' : S → Except PyErr (Step S A)}
    (hb : ∀ s, I s → body s = body' s) (hmore : ∀ s s', I s → body s = .ok (.more s') → I s') :
    ∀ n s, I s → pyWhile body n s = pyWhile body' n s := by
  intro n
  induction n with
  | zero => intro s _; rfl
  | succ n ih =>
    intro s hs
    rw [pyWhile_succ, pyWhile_succ, ← hb s hs]
    cases h : body s with
    | error e => rfl
    | ok st =>
      cases st with
      | done a => rfl
      | more s' => exact ih s' (hmore s s' hs h)

theorem bind_congr_ok {α β : Type} {o : Except PyErr α} {k k' : α → Except PyErr β} (h : ∀ x, o = .ok x → k x = k' x) : o >>= k = o >>= k' := by
  cases o with
  | error e => rfl
  | ok x => exact h x rfl

theorem setDiff_length_le (a b : List Label) : (setDiff a b).length ≤ a.length := List.length_filter_le _ _

theorem randomSplit_prune_length [Arith] {R : PyRandom} (hR : R.Lawful) (g : R.G) (l : List Label) (q : Rat) (rs : Option Int) :
    (randomSplit R g l q rs).2.1.length ≤ l.length := by
  have := (randomSplit_perm hR g l q rs).length_eq
  rw [List.length_append] at this
  omega

theorem precision_test [A : Arith] {m : Nat} (ha : Arith.QuotsUpTo m) (cn : CatNap) (r : List Cond) (pos neg : List Label)
    (hm : pos.length + neg.length ≤ m) :
    (rulePrecisionCn cn r pos neg = none ∧ @rulePrecisionCn (Arith.exactQuots A) cn r pos neg = none) ∨
    ∃ q q', rulePrecisionCn cn r pos neg = some q ∧ @rulePrecisionCn (Arith.exactQuots A) cn r pos neg = some q' ∧
      ((q = 0 ∨ q < 1 / 2) ↔ (q' = 0 ∨ q' < 1 / 2)) := by
  unfold rulePrecisionCn
  dsimp only
  have h1 := ruleCovers_length_le (cn := cn) (r := r) (s := pos)
  have h2 := ruleCovers_length_le (cn := cn) (r := r) (s := neg)
  split
  · exact Or.inl ⟨rfl, rfl⟩
  · rename_i h0
    refine Or.inr ⟨_, _, rfl, rfl, ?_⟩
    have hb : (0 : Int) < ((cn.ruleCovers r (some pos)).length : Int) + (cn.ruleCovers r (some neg)).length := by omega
    have hbm : ((cn.ruleCovers r (some pos)).length : Int) + (cn.ruleCovers r (some neg)).length ≤ m := by omega
    have hab : |((cn.ruleCovers r (some pos)).length : Int)| ≤ ((cn.ruleCovers r (some pos)).length : Int) + (cn.ruleCovers r (some neg)).length := by
      rw [abs_le]; omega
    rw [ha.zero _ _ hb hbm hab, ha.half _ _ hb hbm hab]
    exact Iff.rfl

theorem irepStepCn_quots [A : Arith] {m : Nat} (ha : Arith.QuotsUpTo m) {R : PyRandom} (hR : R.Lawful) (fuel : Nat) (cn : CatNap) (hp : Hyper)
    (st : GrowSt R) (hm : st.pos.length + st.neg.length ≤ m) :
    irepStepCn fuel R cn hp st = @irepStepCn (Arith.exactQuots A) fuel R cn hp st := by
  unfold irepStepCn
  split
  · rfl
  split
  · rfl
  have l1 := randomSplit_prune_length hR st.g st.pos (Arith.complement hp.irepPrune) hp.randomState
  rcases hp1 : randomSplit R st.g st.pos (Arith.complement hp.irepPrune) hp.randomState with ⟨a, b, g1⟩
  have l2 := randomSplit_prune_length hR g1 st.neg (Arith.complement hp.irepPrune) hp.randomState
  rcases hp2 : randomSplit R g1 st.neg (Arith.complement hp.irepPrune) hp.randomState with ⟨c, d, g2⟩
  have hp1' : @randomSplit (Arith.exactQuots A) R st.g st.pos (@Arith.complement (Arith.exactQuots A) hp.irepPrune) hp.randomState = (a, b, g1) := hp1
  have hp2' : @randomSplit (Arith.exactQuots A) R g1 st.neg (@Arith.complement (Arith.exactQuots A) hp.irepPrune) hp.randomState = (c, d, g2) := hp2
  rw [hp1] at l1
  rw [hp2] at l2
  dsimp only at l1 l2
  simp only [hp1, hp2, hp1', hp2']
  refine bind_congr fun grown => ?_
  split
  · rfl
  rw [C105_irep_pruning m ha cn b d (by omega) grown]
  refine bind_congr fun o => ?_
  cases o with
  | none => rfl
  | some pruned =>
    rcases precision_test ha cn pruned b d (by omega) with ⟨h1, h2⟩ | ⟨q, q', h1, h2, hiff⟩
    · simp only [h1, h2]
    · simp only [h1, h2]
      by_cases hq : q = 0 ∨ q < 1 / 2
      · rw [if_pos hq, if_pos (hiff.mp hq)]
      · rw [if_neg hq, if_neg (fun h => hq (hiff.mpr h))]

theorem irepGrowCn_quots [A : Arith] {m : Nat} (ha : Arith.QuotsUpTo m) {R : PyRandom} (hR : R.Lawful) (fuel : Nat) (cn : CatNap) (hp : Hyper)
    (init : List (List Cond)) (pos neg : List Label) (hm : pos.length + neg.length ≤ m) (g : R.G) :
    irepGrowCn fuel R cn hp init pos neg g = @irepGrowCn (Arith.exactQuots A) fuel R cn hp init pos neg g := by
  unfold irepGrowCn
  refine pyWhile_agree (I := fun st => st.pos.length + st.neg.length ≤ m) (fun st h => irepStepCn_quots ha hR fuel cn hp st h) ?_ _ _ hm
  intro st st' h hstep
  obtain ⟨rule, hadd⟩ := irepStepCn_more hstep
  have h1 := hadd.pos
  obtain ⟨_, _, _, _, _, _, _, _, _, hw⟩ := hadd.how
  have l1 := setDiff_length_le st.pos (cn.ruleCovers rule (some st.pos))
  have l2 := setDiff_length_le st.neg (cn.ruleCovers rule (some st.neg))
  rw [← h1] at l1
  rcases hw with ⟨_, _, h2⟩ | ⟨_, _, h2, _⟩
  · rw [h2]; omega
  · rw [← h2] at l2; omega

/-- All examples together. -/
theorem classes_length (df : Frame) (cf : Feat) (pc : Val) :
    (labelSet (posRows df cf pc).index).length + (labelSet (negRows df cf pc).index).length ≤ df.rows.length := by
  have le : ∀ l : List Label, (labelSet l).length ≤ l.length := fun l =>
    ((labelSet_nodup l).subperm (fun x hx => mem_labelSet.mp hx)).length_le
  have h1 := le (posRows df cf pc).index
  have h2 := le (negRows df cf pc).index
  have h3 : (posRows df cf pc).rows.length + (negRows df cf pc).rows.length = df.rows.length := (C53_pos_neg_partition df cf pc).2.2.2.2
  simp only [Frame.index, List.length_map] at h1 h2
  simp only [Frame.index]
  omega

/-- C105. Rounding the quotients changes nothing in what IREP learns. -/
theorem C105_irep [A : Arith] (m : Nat) (ha : Arith.QuotsUpTo m) (R : PyRandom) (hR : R.Lawful) (hp : Hyper) (init : List (List Cond)) (df : Frame)
    (hm : df.rows.length ≤ m) (cf : Feat) (pc : Val) (fuel : Nat) (g : R.G) :
    irepFit fuel R hp init df cf pc g = @irepFit (Arith.exactQuots A) fuel R hp init df cf pc g := by
  unfold irepFit
  split
  · rfl
  split
  · rfl
  refine bind_congr fun cn => ?_
  rw [irepGrowCn_quots ha hR fuel cn hp init _ _ ((classes_length df cf pc).trans hm) g]

theorem ripperStepCn_quots [A : Arith] {m : Nat} (ha : Arith.QuotsUpTo m) {R : PyRandom} (hR : R.Lawful) (fuel : Nat) (cn : CatNap) (hp : Hyper)
    (allPos allNeg : List Label) (st : RipSt R) (hm : st.pos.length + st.neg.length < m) :
    ripperStepCn fuel R cn hp allPos allNeg st = @ripperStepCn (Arith.exactQuots A) fuel R cn hp allPos allNeg st := by
  unfold ripperStepCn
  by_cases hc : st.pos = [] ∨ (!Arith.within st.diff hp.dlAllowance) = true
  · rw [if_pos hc]; exact (if_pos hc).symm
  rw [if_neg hc]
  refine Eq.trans ?_ (if_neg hc).symm
  split
  · rfl
  cases hp.pruneSize with
  | none => rfl
  | some ps =>
    have l1 := randomSplit_prune_length hR st.g st.pos (Arith.complement ps) hp.randomState
    rcases hp1 : randomSplit R st.g st.pos (Arith.complement ps) hp.randomState with ⟨a, b, g1⟩
    have l2 := randomSplit_prune_length hR g1 st.neg (Arith.complement ps) hp.randomState
    rcases hp2 : randomSplit R g1 st.neg (Arith.complement ps) hp.randomState with ⟨c, d, g2⟩
    have hp1' : @randomSplit (Arith.exactQuots A) R st.g st.pos (@Arith.complement (Arith.exactQuots A) ps) hp.randomState = (a, b, g1) := hp1
    have hp2' : @randomSplit (Arith.exactQuots A) R g1 st.neg (@Arith.complement (Arith.exactQuots A) ps) hp.randomState = (c, d, g2) := hp2
    rw [hp1] at l1
    rw [hp2] at l2
    dsimp only at l1 l2
    simp only [hp1, hp2, hp1', hp2']
    split
    · rfl
    refine bind_congr fun grown => ?_
    split
    · rfl
    rw [C105_ripper_pruning m ha cn b d (by omega) grown]
    refine bind_congr fun o => ?_
    cases o with
    | none => rfl
    | some pruned => rfl

theorem ripperGrowCn_quots [A : Arith] {m : Nat} (ha : Arith.QuotsUpTo m) {R : PyRandom} (hR : R.Lawful) (fuel : Nat) (cn : CatNap) (hp : Hyper)
    (init : List (List Cond)) (pos neg : List Label) (hm : pos.length + neg.length < m) (g : R.G) :
    ripperGrowCn fuel R cn hp init pos neg g = @ripperGrowCn (Arith.exactQuots A) fuel R cn hp init pos neg g := by
  unfold ripperGrowCn
  refine pyWhile_agree (I := fun st => st.pos.length + st.neg.length < m) (fun st h => ripperStepCn_quots ha hR fuel cn hp pos neg st h) ?_ _ _ hm
  intro st st' h hstep
  obtain ⟨rule, hadd⟩ := ripperStepCn_more hstep
  have l1 := setDiff_length_le st.pos (cn.ruleCovers rule (some st.pos))
  have l2 := setDiff_length_le st.neg (cn.ruleCovers rule (some st.neg))
  rw [← hadd.pos] at l1
  rw [← hadd.neg] at l2
  omega

theorem theorySum_quots [A : Arith] (n : Nat) : ∀ (rules : List (List Cond)) (t : Rat),
    theorySum n t rules = @theorySum (Arith.exactQuots A) n t rules
  | [], _ => rfl
  | r :: rs, t => by
    unfold theorySum
    exact bind_congr fun x => theorySum_quots n rs _

theorem totalBitsCn_quots [A : Arith] (cn : CatNap) (rules : List (List Cond)) (pos neg : List Label) :
    totalBitsCn cn rules pos neg = @totalBitsCn (Arith.exactQuots A) cn rules pos neg := by
  unfold totalBitsCn rsTheory
  rw [theorySum_quots]
  rfl

theorem subsetDls_quots [A : Arith] (cn : CatNap) (pos neg : List Label) : ∀ (rules done : List (List Cond)) (t : Rat),
    subsetDls cn pos neg t done rules = @subsetDls (Arith.exactQuots A) cn pos neg t done rules
  | [], _, _ => rfl
  | r :: rs, done, t => by
    unfold subsetDls
    refine bind_congr fun x => bind_congr fun e => ?_
    rw [subsetDls_quots cn pos neg rs]
    rfl

theorem bestSubsetCn_quots [A : Arith] (cn : CatNap) (rules : List (List Cond)) (pos neg : List Label) :
    bestSubsetCn cn rules pos neg = @bestSubsetCn (Arith.exactQuots A) cn rules pos neg := by
  unfold bestSubsetCn
  rw [subsetDls_quots]
  refine bind_congr fun x => ?_
  dsimp only
  rw [totalBitsCn_quots]

theorem optimizeChoice_quots [A : Arith] {m : Nat} (ha : Arith.QuotsUpTo m) (fuel : Nat) (cn : CatNap) (hp : Hyper) (original : List (List Cond))
    (originalDl : Rat) (i : Nat) (rule : List Cond) (allPos allNeg posGrow posPrune negGrow negPrune : List Label)
    (hm : posPrune.length + negPrune.length ≤ m) :
    optimizeChoice fuel cn hp original originalDl i rule allPos allNeg posGrow posPrune negGrow negPrune =
      @optimizeChoice (Arith.exactQuots A) fuel cn hp original originalDl i rule allPos allNeg posGrow posPrune negGrow negPrune := by
  unfold optimizeChoice
  dsimp only
  refine bind_congr fun gRep => ?_
  rw [C105_optimisation_pruning m ha cn posPrune negPrune hm]
  refine bind_congr fun prRep => ?_
  refine bind_congr fun gRev => ?_
  rw [C105_optimisation_pruning m ha cn posPrune negPrune hm]
  refine bind_congr fun prRev => ?_
  have e : @totalBitsCn A = @totalBitsCn (Arith.exactQuots A) := by
    funext cn rules pos neg
    exact totalBitsCn_quots cn rules pos neg
  rw [e]

theorem optimizeLoop_quots [A : Arith] {m : Nat} (ha : Arith.QuotsUpTo m) {R : PyRandom} (hR : R.Lawful) (fuel : Nat) (cn : CatNap) (hp : Hyper)
    (ps : Rat) (rs : Option Int) (original : List (List Cond)) (originalDl : Rat) (allPos allNeg : List Label) :
    ∀ (rules : List (List Cond)) (i : Nat) (new : List (List Cond)) (pos neg : List Label) (g : R.G), pos.length + neg.length ≤ m →
      optimizeLoop fuel R cn hp ps rs original originalDl allPos allNeg i rules new pos neg g =
        @optimizeLoop (Arith.exactQuots A) fuel R cn hp ps rs original originalDl allPos allNeg i rules new pos neg g
  | [], _, _, _, _, _, _ => rfl
  | rule :: rest, i, new, pos, neg, g, hm => by
    unfold optimizeLoop
    have l1 := randomSplit_prune_length hR g pos (Arith.complement ps) rs
    rcases hp1 : randomSplit R g pos (Arith.complement ps) rs with ⟨a, b, g1⟩
    have l2 := randomSplit_prune_length hR g1 neg (Arith.complement ps) rs
    rcases hp2 : randomSplit R g1 neg (Arith.complement ps) rs with ⟨c, d, g2⟩
    have hp1' : @randomSplit (Arith.exactQuots A) R g pos (@Arith.complement (Arith.exactQuots A) ps) rs = (a, b, g1) := hp1
    have hp2' : @randomSplit (Arith.exactQuots A) R g1 neg (@Arith.complement (Arith.exactQuots A) ps) rs = (c, d, g2) := hp2
    rw [hp1] at l1
    rw [hp2] at l2
    dsimp only at l1 l2
    simp only [hp2, hp1', hp2']
    split
    · rfl
    split
    · rfl
    rw [optimizeChoice_quots ha fuel cn hp original originalDl i rule allPos allNeg a b c d (by omega)]
    refine bind_congr fun best => ?_
    split
    · rfl
    · refine optimizeLoop_quots ha hR fuel cn hp ps rs original originalDl allPos allNeg rest _ _ _ _ _ ?_
      have l3 := setDiff_length_le pos (cn.ruleCovers rule (some pos))
      have l4 := setDiff_length_le neg (cn.ruleCovers rule (some neg))
      unfold rmRuleCoversCn
      dsimp only
      omega

theorem optimizeCn_quots [A : Arith] {m : Nat} (ha : Arith.QuotsUpTo m) {R : PyRandom} (hR : R.Lawful) (fuel : Nat) (cn : CatNap) (hp : Hyper)
    (rs : Option Int) (rules : List (List Cond)) (pos neg : List Label) (hm : pos.length + neg.length ≤ m) (g : R.G) :
    optimizeCn fuel R cn hp rs rules pos neg g = @optimizeCn (Arith.exactQuots A) fuel R cn hp rs rules pos neg g := by
  unfold optimizeCn
  rw [bestSubsetCn_quots]
  refine bind_congr fun x => ?_
  cases hp.pruneSize with
  | none => rfl
  | some ps => exact optimizeLoop_quots ha hR fuel cn hp ps rs rules _ pos neg rules 0 rules pos neg g hm

theorem stage2_quots [A : Arith] {m : Nat} (ha : Arith.QuotsUpTo m) {R : PyRandom} (hR : R.Lawful) (fuel : Nat) (cn : CatNap) (hp : Hyper)
    (pos neg : List Label) (hm : pos.length + neg.length ≤ m) : ∀ (n : Nat) (rules : List (List Cond)) (g : R.G),
    stage2 fuel R cn hp pos neg n rules g = @stage2 (Arith.exactQuots A) fuel R cn hp pos neg n rules g
  | 0, _, _ => rfl
  | n + 1, rules, g => by
    unfold stage2
    rw [optimizeCn_quots ha hR fuel cn hp _ rules pos neg hm g]
    refine bind_congr fun x => ?_
    dsimp only
    rw [stage2_quots ha hR fuel cn hp pos neg hm n]

/-- C105. Rounding the quotients changes nothing in what RIPPER learns. -/
theorem C105_ripper [A : Arith] (m : Nat) (ha : Arith.QuotsUpTo m) (R : PyRandom) (hR : R.Lawful) (hp : Hyper) (init : List (List Cond)) (df : Frame)
    (hm : df.rows.length < m) (cf : Feat) (pc : Val) (fuel : Nat) (g : R.G) :
    ripperFit fuel R hp init df cf pc g = @ripperFit (Arith.exactQuots A) fuel R hp init df cf pc g := by
  have hl := lt_of_le_of_lt (classes_length df cf pc) hm
  unfold ripperFit
  split
  · rfl
  split
  · rfl
  refine bind_congr fun cn => ?_
  have : ripperStages fuel R cn hp init (labelSet (posRows df cf pc).index) (labelSet (negRows df cf pc).index) g =
      @ripperStages (Arith.exactQuots A) fuel R cn hp init (labelSet (posRows df cf pc).index) (labelSet (negRows df cf pc).index) g := by
    unfold ripperStages
    rw [ripperGrowCn_quots ha hR fuel cn hp init _ _ hl g]
    refine bind_congr fun st => ?_
    rw [stage2_quots ha hR fuel cn hp _ _ hl.le]
    refine bind_congr fun x => ?_
    dsimp only
    have : coverRemainingCn fuel R cn hp x.1 (labelSet (posRows df cf pc).index) (labelSet (negRows df cf pc).index) x.2 =
        @coverRemainingCn (Arith.exactQuots A) fuel R cn hp x.1 (labelSet (posRows df cf pc).index) (labelSet (negRows df cf pc).index) x.2 := by
      unfold coverRemainingCn
      rw [ripperGrowCn_quots ha hR fuel cn hp x.1 _ _ hl x.2]
    rw [this]
    refine bind_congr fun y => ?_
    rw [bestSubsetCn_quots]
  rw [this]

/-! ### training over frames -/

theorem loc_length_le {d : Frame} (hu : d.UniqueIndex) (ls : List Label) : (d.loc ls).rows.length ≤ ls.length := by
  unfold Frame.loc
  dsimp only
  rw [List.length_flatMap]
  have h1 : ∀ l ∈ ls, (d.rows.filter (fun r => r.label == l)).length ≤ 1 := by
    intro l _
    by_cases h : ∃ row ∈ d.rows, row.label = l
    · obtain ⟨row, hr, rfl⟩ := h
      rw [filter_label_singleton hu hr]; exact Nat.le_refl _
    · have : d.rows.filter (fun r => r.label == l) = [] := by
        rw [List.filter_eq_nil_iff]
        intro r hr he
        exact h ⟨r, hr, by simpa using he⟩
      rw [this]; exact Nat.zero_le _
  induction ls with
  | nil => simp
  | cons l ls ih =>
    have := h1 l (List.mem_cons_self ..)
    have := ih fun x hx => h1 x (List.mem_cons_of_mem _ hx)
    simp only [List.map_cons, List.sum_cons, List.length_cons]
    omega

theorem dfSplit_prune_length [Arith] {R : PyRandom} (hR : R.Lawful) (g : R.G) {d : Frame} (hu : d.UniqueIndex) (q : Rat) (rs : Option Int) :
    (dfShuffledSplit R g d q rs).2.1.rows.length ≤ d.rows.length := by
  unfold dfShuffledSplit
  have := randomSplit_prune_length hR g d.index q rs
  generalize randomSplit R g d.index q rs = z at this
  obtain ⟨a, b, g'⟩ := z
  dsimp only at this ⊢
  refine (loc_length_le hu b).trans (this.trans ?_)
  simp [Frame.index]

/-- C105 with `cn_optimize=False`: IREP prunes a rule as if it computed without rounding. -/
theorem C105_irep_pruning_plain [Arith] (m : Nat) (ha : Arith.QuotsUpTo m) (pos neg : Frame)
    (hm : pos.rows.length + neg.rows.length ≤ m) (rule : List Cond) :
    pruneRule (irepMetric pos neg) rule = pruneRule (@irepMetric Arith.exact pos neg) rule := by
  unfold pruneRule
  split
  · rfl
  · refine pruneLoop_pair ha (fun s => ?_) _ _ _ rfl (Or.inl ⟨rfl, rfl⟩)
    have h1 := rowHits_le s pos
    have h2 := rowHits_le s neg
    unfold irepMetric
    dsimp only
    rcases numCoveredC_cases s pos with ⟨e1, _⟩ | ⟨e1, _⟩
    · rcases numCoveredC_cases s neg with ⟨e2, _⟩ | ⟨e2, _⟩
      · rw [e1, e2]
        simp only [ok_bind]
        by_cases h0 : pos.rows.length + neg.rows.length = 0
        · exact Or.inl ⟨_, if_pos h0, if_pos h0⟩
        · refine Or.inr (Or.inr ⟨_, _, Or.inr ⟨_, _, ?_, ?_, ?_, rfl, rfl⟩, if_neg h0, if_neg h0⟩)
          · omega
          · omega
          · rw [abs_le]; omega
      · rw [e1, e2]; exact Or.inl ⟨_, rfl, rfl⟩
    · rw [e1]; exact Or.inl ⟨_, rfl, rfl⟩

/-- C105 with `cn_optimize=False`: RIPPER prunes a grown rule as if it computed without rounding. -/
theorem C105_ripper_pruning_plain [Arith] (m : Nat) (ha : Arith.QuotsUpTo m) (pos neg : Frame)
    (hm : pos.rows.length + neg.rows.length < m) (rule : List Cond) :
    pruneRule (ripperGrowMetric pos neg) rule = pruneRule (@ripperGrowMetric Arith.exact pos neg) rule := by
  unfold pruneRule
  split
  · rfl
  · refine pruneLoop_pair ha (fun s => ?_) _ _ _ rfl (Or.inl ⟨rfl, rfl⟩)
    have h1 := rowHits_le s pos
    have h2 := rowHits_le s neg
    unfold ripperGrowMetric
    rcases numCoveredC_cases s pos with ⟨e1, _⟩ | ⟨e1, _⟩
    · rcases numCoveredC_cases s neg with ⟨e2, _⟩ | ⟨e2, _⟩
      · rw [e1, e2]
        refine Or.inr (Or.inr ⟨_, _, Or.inr ⟨_, _, ?_, ?_, ?_, rfl, rfl⟩, rfl, rfl⟩)
        · omega
        · omega
        · rw [abs_le]; omega
      · rw [e1, e2]; exact Or.inl ⟨_, rfl, rfl⟩
    · rw [e1]; exact Or.inl ⟨_, rfl, rfl⟩

theorem precisionDf_test [A : Arith] {m : Nat} (ha : Arith.QuotsUpTo m) (r : List Cond) (pos neg : Frame)
    (hm : pos.rows.length + neg.rows.length ≤ m) :
    (∃ e, precisionDf r pos neg = .error e ∧ @precisionDf (Arith.exactQuots A) r pos neg = .error e) ∨
    (precisionDf r pos neg = .ok none ∧ @precisionDf (Arith.exactQuots A) r pos neg = .ok none) ∨
    ∃ q q', precisionDf r pos neg = .ok (some q) ∧ @precisionDf (Arith.exactQuots A) r pos neg = .ok (some q') ∧
      ((q = 0 ∨ q < 1 / 2) ↔ (q' = 0 ∨ q' < 1 / 2)) := by
  have h1 := rowHits_le r pos
  have h2 := rowHits_le r neg
  unfold precisionDf
  rcases numCoveredC_cases r pos with ⟨e1, _⟩ | ⟨e1, _⟩
  · rcases numCoveredC_cases r neg with ⟨e2, _⟩ | ⟨e2, _⟩
    · rw [e1, e2]
      simp only [ok_bind]
      by_cases h0 : rowHits r pos + rowHits r neg = 0
      · exact Or.inr (Or.inl ⟨if_pos h0, if_pos h0⟩)
      · refine Or.inr (Or.inr ⟨_, _, if_neg h0, if_neg h0, ?_⟩)
        have hb : (0 : Int) < (rowHits r pos : Int) + rowHits r neg := by omega
        have hbm : (rowHits r pos : Int) + rowHits r neg ≤ m := by omega
        have hab : |(rowHits r pos : Int)| ≤ (rowHits r pos : Int) + rowHits r neg := by rw [abs_le]; omega
        rw [ha.zero _ _ hb hbm hab, ha.half _ _ hb hbm hab]
        exact Iff.rfl
    · rw [e1, e2]; exact Or.inl ⟨_, rfl, rfl⟩
  · rw [e1]; exact Or.inl ⟨_, rfl, rfl⟩

theorem irepStep_quots [A : Arith] {m : Nat} (ha : Arith.QuotsUpTo m) {R : PyRandom} (hR : R.Lawful) (fuel : Nat) (cands : List Cond) (hp : Hyper)
    (st : FrameSt R) (hu : st.pos.UniqueIndex) (hv : st.neg.UniqueIndex) (hm : st.pos.rows.length + st.neg.rows.length ≤ m) :
    irepStep fuel R cands hp st = @irepStep (Arith.exactQuots A) fuel R cands hp st := by
  unfold irepStep
  split
  · rfl
  split
  · rfl
  have l1 := dfSplit_prune_length hR st.g hu (Arith.complement hp.irepPrune) hp.randomState
  rcases hp1 : dfShuffledSplit R st.g st.pos (Arith.complement hp.irepPrune) hp.randomState with ⟨a, b, g1⟩
  have l2 := dfSplit_prune_length hR g1 hv (Arith.complement hp.irepPrune) hp.randomState
  rcases hp2 : dfShuffledSplit R g1 st.neg (Arith.complement hp.irepPrune) hp.randomState with ⟨c, d, g2⟩
  have hp1' : @dfShuffledSplit (Arith.exactQuots A) R st.g st.pos (@Arith.complement (Arith.exactQuots A) hp.irepPrune) hp.randomState = (a, b, g1) := hp1
  have hp2' : @dfShuffledSplit (Arith.exactQuots A) R g1 st.neg (@Arith.complement (Arith.exactQuots A) hp.irepPrune) hp.randomState = (c, d, g2) := hp2
  rw [hp1] at l1
  rw [hp2] at l2
  dsimp only at l1 l2
  simp only [hp1, hp2, hp1', hp2']
  refine bind_congr fun grown => ?_
  split
  · rfl
  rw [C105_irep_pruning_plain m ha b d (by omega) grown]
  refine bind_congr fun o => ?_
  cases o with
  | none => rfl
  | some pruned =>
    rcases precisionDf_test ha pruned b d (by omega) with ⟨e, h1, h2⟩ | ⟨h1, h2⟩ | ⟨q, q', h1, h2, hiff⟩
    · simp only [h1, h2, error_bind]
    · simp only [h1, h2, ok_bind]
    · simp only [h1, h2, ok_bind]
      by_cases hq : q = 0 ∨ q < 1 / 2
      · rw [if_pos hq, if_pos (hiff.mp hq)]
      · rw [if_neg hq, if_neg (fun h => hq (hiff.mpr h))]

theorem unique_sublist {a b : Frame} (h : a.rows.Sublist b.rows) (hb : b.UniqueIndex) : a.UniqueIndex :=
  List.Nodup.sublist (h.map Row.label) hb

theorem irepGrow_quots [A : Arith] {m : Nat} (ha : Arith.QuotsUpTo m) {R : PyRandom} (hR : R.Lawful) (fuel : Nat) (cands : List Cond) (hp : Hyper)
    (init : List (List Cond)) (pos neg : Frame) (hu : pos.UniqueIndex) (hv : neg.UniqueIndex) (hm : pos.rows.length + neg.rows.length ≤ m)
    (g : R.G) : irepGrow fuel R cands hp init pos neg g = @irepGrow (Arith.exactQuots A) fuel R cands hp init pos neg g := by
  unfold irepGrow
  refine pyWhile_agree (I := fun st => st.pos.UniqueIndex ∧ st.neg.UniqueIndex ∧ st.pos.rows.length + st.neg.rows.length ≤ m)
    (fun st h => irepStep_quots ha hR fuel cands hp st h.1 h.2.1 h.2.2) ?_ _ _ ⟨hu, hv, hm⟩
  rintro st st' ⟨h1, h2, h3⟩ hstep
  obtain ⟨rule, hadd⟩ := irepStep_more hstep
  have l1 := hadd.pos_sub.length_le
  have l2 := hadd.neg_sub.length_le
  exact ⟨unique_sublist hadd.pos_sub h1, unique_sublist hadd.neg_sub h2, by omega⟩

theorem examples_facts {df : Frame} (hu : df.UniqueIndex) (cf : Feat) (pc : Val) :
    (posExamples df cf pc).UniqueIndex ∧ (negExamples df cf pc).UniqueIndex ∧
      (posExamples df cf pc).rows.length + (negExamples df cf pc).rows.length = df.rows.length := by
  obtain ⟨_, _, h1, h2, h3⟩ := C53_pos_neg_partition df cf pc
  exact ⟨unique_sublist (a := posExamples df cf pc) h1 hu, unique_sublist (a := negExamples df cf pc) h2 hu, h3⟩

/-- C105 with `cn_optimize=False`: rounding the quotients changes nothing in what IREP learns. -/
theorem C105_irep_plain [A : Arith] (m : Nat) (ha : Arith.QuotsUpTo m) (R : PyRandom) (hR : R.Lawful) (S : SetOps) (hp : Hyper)
    (old : Option (List Cond)) (init : List (List Cond)) (df : Frame) (hu : df.UniqueIndex) (hm : df.rows.length ≤ m) (cf : Feat) (pc : Val)
    (fuel : Nat) (g : R.G) :
    irepFitPlain fuel R S hp old init df cf pc g = @irepFitPlain (Arith.exactQuots A) fuel R S hp old init df cf pc g := by
  obtain ⟨h1, h2, h3⟩ := examples_facts hu cf pc
  unfold irepFitPlain
  split
  · rfl
  split
  · rfl
  dsimp only
  rw [irepGrow_quots ha hR fuel _ hp init _ _ h1 h2 (by omega) g]

/-! Accuracies of whole rulesets, in which a row counts once for each rule that covers it. -/

/-- Quotients with the same denominator up to `m` and numerators up to `M` are compared rightly, with each other and with 0. -/
structure Arith.SharesUpTo [Arith] (m M : Nat) : Prop where
  order : ∀ a c b : Int, 0 < b → b ≤ m → |a| ≤ M → |c| ≤ M → (Arith.quot a b ≤ Arith.quot c b ↔ a ≤ c)
  zero : ∀ b : Int, 0 < b → b ≤ m → Arith.quot 0 b = 0

/-- C105. Without rounding all quotients are compared rightly. -/
theorem C105_exact_shares (m M : Nat) : @Arith.SharesUpTo Arith.exact m M :=
  @Arith.SharesUpTo.mk Arith.exact m M
    (fun a c b hb _ _ _ => by
      show (a : Rat) / b ≤ (c : Rat) / b ↔ _
      have hb' : (0 : Rat) < b := by exact_mod_cast hb
      rw [div_le_div_iff_of_pos_right hb']
      exact Int.cast_le)
    (fun b _ _ => by show ((0 : Int) : Rat) / b = 0; simp)

/-- C105. Rounded quotients with a common denominator up to `r.N` are compared rightly for numerators up to `M`, if `2 u M` is less
than 1. -/
theorem C105_rounded_shares (r : Rounding) (m M : Nat) (hm : m ≤ r.N) (hM : 2 * r.u * (M : ℝ) < 1) :
    @Arith.SharesUpTo (Arith.rounded r) m M := by
  have eq : ∀ a b : Int, b ≤ m → @Arith.quot (Arith.rounded r) a b = r.fl ((a : ℝ) / b) := by
    intro a b hb
    show (if b ≤ r.N then r.fl (a / b) else (a : Rat) / b) = _
    rw [if_pos (by have : (m : Int) ≤ r.N := by exact_mod_cast hm
                   omega)]
  have hu := r.u_pos
  have err : ∀ a b : Int, 0 < b → b ≤ m → |a| ≤ M → |(r.fl ((a : ℝ) / b) : ℝ) - (a : ℝ) / b| ≤ r.u * M / b := by
    intro a b hb hbm ha
    have hb' : (0 : ℝ) < b := by exact_mod_cast hb
    rcases eq_or_ne a 0 with rfl | h0
    · simp [r.fl_zero]; positivity
    · have h1 : (1 : ℝ) ≤ |(a : ℝ)| := by exact_mod_cast Int.one_le_abs h0
      have h2 : |(a : ℝ)| ≤ M := by exact_mod_cast ha
      have h3 : (b : ℝ) ≤ r.N := by
        have : (b : ℝ) ≤ m := by exact_mod_cast hbm
        have : (m : ℝ) ≤ r.N := by exact_mod_cast hm
        linarith
      have e : |(a : ℝ) / b| = |(a : ℝ)| / b := by rw [abs_div, abs_of_pos hb']
      have h4 : r.least ≤ |(a : ℝ) / b| := by
        rw [e, le_div_iff₀ hb']
        have h5 := r.least_le
        have h6 : r.least * b ≤ r.least * r.N := mul_le_mul_of_nonneg_left h3 r.least_pos.le
        have h7 : 0 ≤ r.least * b := mul_nonneg r.least_pos.le hb'.le
        linarith
      refine (r.near _ h4).trans ?_
      rw [e, ← mul_div_assoc]
      exact div_le_div_of_nonneg_right (mul_le_mul_of_nonneg_left h2 hu.le) hb'.le
  refine @Arith.SharesUpTo.mk (Arith.rounded r) m M ?_ ?_
  · intro a c b hb hbm ha hc
    have hb' : (0 : ℝ) < b := by exact_mod_cast hb
    rw [eq a b hbm, eq c b hbm]
    constructor
    · intro h
      by_contra hlt
      have hlt : c + 1 ≤ a := by omega
      have e1 := err a b hb hbm ha
      have e2 := err c b hb hbm hc
      have h' : (r.fl ((a : ℝ) / b) : ℝ) ≤ r.fl ((c : ℝ) / b) := by exact_mod_cast h
      rw [abs_le] at e1 e2
      have h1 : (a : ℝ) / b - (c : ℝ) / b ≤ 2 * r.u * M / b := by
        have : 2 * r.u * M / b = r.u * M / b + r.u * M / b := by ring
        rw [this]
        linarith [e1.1, e2.2]
      have h2 : (a : ℝ) - c ≤ 2 * r.u * M := by
        rw [← sub_div] at h1
        exact (div_le_div_iff_of_pos_right hb').mp h1
      have h3 : ((c + 1 : Int) : ℝ) ≤ a := by exact_mod_cast hlt
      push_cast at h3
      linarith
    · intro h
      refine r.mono _ _ ?_
      exact div_le_div_of_nonneg_right (by exact_mod_cast h) hb'.le
  · intro b hb _
    exact (C81_rounded_lawful r).quot_zero b hb

/-- C105. With the precision of IEEE doubles this holds of numerators up to 4 · 10^15. -/
theorem C105_doubles_shares (r : Rounding) (hu : r.u = 2⁻¹ ^ 53) (m : Nat) (hm : m ≤ r.N) :
    @Arith.SharesUpTo (Arith.rounded r) m 4000000000000000 :=
  C105_rounded_shares r m _ hm (by rw [hu]; norm_num)

theorem covers_length_le {rules : List (List Cond)} {d : Frame} {n : Nat} (h : rulesNumCovered rules d = .ok n) {K : Nat} (hK : 1 ≤ K)
    (hl : rules.length ≤ K) : n ≤ K * d.rows.length := by
  unfold rulesNumCovered Ruleset.numCovered at h
  obtain ⟨out, ho, h⟩ := bind_ok_iff.mp h
  simp only [pure_eq_ok, Except.ok.injEq] at h
  subst h
  unfold Ruleset.covers at ho
  split at ho
  · injection ho with ho; subst ho
    exact Nat.le_mul_of_pos_left _ hK
  split at ho
  · injection ho with ho; subst ho
    simp
  · obtain ⟨parts, hp, ho⟩ := bind_ok_iff.mp ho
    simp only [pure_eq_ok, Except.ok.injEq] at ho
    subst ho
    dsimp only at hp ⊢
    have key : ∀ (rs : List Rule) (parts : List Frame), rs.mapM (fun r => r.covers d) = (.ok parts : Except PyErr _) →
        (parts.map Frame.rows).flatten.length ≤ rs.length * d.rows.length := by
      intro rs
      induction rs with
      | nil => intro parts h; rw [List.mapM_nil] at h; injection h with h; subst h; simp
      | cons r rs ih =>
        intro parts h
        rw [List.mapM_cons] at h
        obtain ⟨x, hx, h⟩ := bind_ok_iff.mp h
        obtain ⟨xs, hxs, h⟩ := bind_ok_iff.mp h
        simp only [pure_eq_ok, Except.ok.injEq] at h
        subst h
        have h1 := ih xs hxs
        have h2 : x.rows.length ≤ d.rows.length := by
          have hx : condsCover r.conds d = .ok x := hx
          rcases condsCover_cases r.conds d with ⟨e, _⟩ | ⟨e, _⟩
          · rw [e] at hx; injection hx with hx; subst hx
            exact List.length_filter_le _ _
          · rw [e] at hx; cases hx
        simp only [List.map_cons, List.flatten_cons, List.length_append, List.length_cons]
        rw [Nat.succ_mul]
        omega
    refine (key _ _ hp).trans ?_
    rw [List.length_map]
    exact Nat.mul_le_mul_right _ hl

theorem accuracy_pair [Arith] {M : Nat} (pos neg : Frame) (K : Nat)
    (hK : 1 ≤ K) (hM : K * (pos.rows.length + neg.rows.length) ≤ M) (rules : List (List Cond)) (hl : rules.length ≤ K) :
    (∃ e, rulesetAccuracy rules pos neg = .error e ∧ @rulesetAccuracy Arith.exact rules pos neg = .error e) ∨
    (rulesetAccuracy rules pos neg = .ok none ∧ @rulesetAccuracy Arith.exact rules pos neg = .ok none) ∨
    ∃ a : Int, 0 < pos.rows.length + neg.rows.length ∧ |a| ≤ M ∧
      rulesetAccuracy rules pos neg = .ok (some (Arith.quot a ((pos.rows.length : Int) + neg.rows.length))) ∧
      @rulesetAccuracy Arith.exact rules pos neg = .ok (some ((a : Rat) / ((pos.rows.length : Int) + neg.rows.length : Int))) := by
  unfold rulesetAccuracy
  dsimp only
  by_cases h0 : pos.rows.length + neg.rows.length = 0
  · exact Or.inr (Or.inl ⟨if_pos h0, if_pos h0⟩)
  rw [if_neg h0, if_neg h0]
  cases h1 : rulesNumCovered rules pos with
  | error e => exact Or.inl ⟨e, rfl, rfl⟩
  | ok tp =>
    cases h2 : rulesNumCovered rules neg with
    | error e => exact Or.inl ⟨e, rfl, rfl⟩
    | ok fp =>
      refine Or.inr (Or.inr ⟨(tp : Int) + ((neg.rows.length : Int) - fp), by omega, ?_, rfl, rfl⟩)
      have l1 := covers_length_le h1 hK hl
      have l2 := covers_length_le h2 hK hl
      have l3 : neg.rows.length ≤ K * neg.rows.length := Nat.le_mul_of_pos_left _ hK
      rw [Nat.mul_add] at hM
      rw [abs_le]
      omega

theorem pruneLoopRs_shares [Arith] {m M : Nat} (ha : Arith.SharesUpTo m M) {b : Nat} (hb : b ≤ m)
    {f f' : List Cond → Except PyErr (Option Rat)} {rule : List Cond}
    (hf : ∀ s, (∃ e, f s = .error e ∧ f' s = .error e) ∨ (f s = .ok none ∧ f' s = .ok none) ∨
      ∃ a : Int, 0 < b ∧ |a| ≤ M ∧ f s = .ok (some (Arith.quot a b)) ∧ f' s = .ok (some ((a : Rat) / (b : Int)))) :
    ∀ (n : Nat) (x x' : Option (List Cond) × Rat), x.1 = x'.1 →
      ((x.2 = 0 ∧ x'.2 = 0) ∨ ∃ a : Int, |a| ≤ M ∧ x.2 = Arith.quot a b ∧ x'.2 = (a : Rat) / (b : Int)) →
      pruneLoopRs f rule n x = pruneLoopRs f' rule n x'
  | 0, x, x', h, _ => by simp only [pruneLoopRs, h]
  | n + 1, x, x', h, hq => by
    simp only [pruneLoopRs]
    rcases hf (rule.take (n + 1)) with ⟨e, h1, h2⟩ | ⟨h1, h2⟩ | ⟨a, hb0, haM, h1, h2⟩
    · rw [h1, h2]; rfl
    · rw [h1, h2]; rfl
    · rw [h1, h2]
      show pruneLoopRs f rule n _ = pruneLoopRs f' rule n _
      have hbi : (0 : Int) < b := by exact_mod_cast hb0
      have hbm : (b : Int) ≤ m := by exact_mod_cast hb
      have hbq : (0 : Rat) < ((b : Int) : Rat) := by exact_mod_cast hb0
      have iff : x.2 ≤ Arith.quot a b ↔ x'.2 ≤ (a : Rat) / (b : Int) := by
        rcases hq with ⟨h1, h2⟩ | ⟨c, hc, h1, h2⟩
        · have h0 := ha.order 0 a b hbi hbm (by simp) haM
          rw [ha.zero b hbi hbm] at h0
          rw [h1, h2, h0, le_div_iff₀ hbq, zero_mul]
          exact Int.cast_nonneg_iff.symm
        · rw [h1, h2, ha.order c a b hbi hbm hc haM, div_le_div_iff_of_pos_right hbq]
          exact Int.cast_le.symm
      by_cases hl : x.2 ≤ Arith.quot a b
      · rw [if_pos hl, if_pos (iff.mp hl)]
        exact pruneLoopRs_shares ha hb hf n _ _ rfl (Or.inr ⟨a, haM, rfl, rfl⟩)
      · rw [if_neg hl, if_neg (fun h => hl (iff.mpr h))]
        exact pruneLoopRs_shares ha hb hf n _ _ h hq

theorem iReplaced_length {α : Type} (l : List α) (i : Nat) (o : Option α) : (iReplaced l i o).length ≤ l.length + 1 := by
  unfold iReplaced
  cases o <;> simp <;> omega

/-- C105 with `cn_optimize=False`: RIPPER prunes replacements and revisions as if it computed without rounding. -/
theorem C105_optimisation_pruning_plain [Arith] (m M : Nat) (ha : Arith.SharesUpTo m M) (pos neg : Frame)
    (hm : pos.rows.length + neg.rows.length ≤ m) (original : List (List Cond))
    (hM : (original.length + 1) * (pos.rows.length + neg.rows.length) ≤ M) (rule : List Cond) (rules : List (List Cond)) (i : Nat) :
    pruneRuleOn (fun r => rulesetAccuracy (iReplaced original i (some r)) pos neg) rule rules i =
      pruneRuleOn (fun r => @rulesetAccuracy Arith.exact (iReplaced original i (some r)) pos neg) rule rules i := by
  unfold pruneRuleOn
  split
  · rfl
  · split
    · rfl
    · split
      · rfl
      · refine pruneLoopRs_shares ha hm (fun s => ?_) _ _ _ rfl (Or.inl ⟨rfl, rfl⟩)
        have := accuracy_pair pos neg (original.length + 1) (by omega) hM (iReplaced original i (some s)) (iReplaced_length _ _ _)
        simpa only [Nat.cast_add] using this

theorem ripperStep_quots [A : Arith] {m : Nat} (ha : Arith.QuotsUpTo m) {R : PyRandom} (hR : R.Lawful) (fuel : Nat) (cands : List Cond) (hp : Hyper)
    (allPos allNeg : Frame) (st : FrameRipSt R) (hu : st.pos.UniqueIndex) (hv : st.neg.UniqueIndex)
    (hm : st.pos.rows.length + st.neg.rows.length < m) :
    ripperStep fuel R cands hp allPos allNeg st = @ripperStep (Arith.exactQuots A) fuel R cands hp allPos allNeg st := by
  unfold ripperStep
  by_cases hc : st.pos.rows = [] ∨ (!Arith.within st.diff hp.dlAllowance) = true
  · rw [if_pos hc]; exact (if_pos hc).symm
  rw [if_neg hc]
  refine Eq.trans ?_ (if_neg hc).symm
  split
  · rfl
  cases hp.pruneSize with
  | none => rfl
  | some ps =>
    have l1 := dfSplit_prune_length hR st.g hu (Arith.complement ps) hp.randomState
    rcases hp1 : dfShuffledSplit R st.g st.pos (Arith.complement ps) hp.randomState with ⟨a, b, g1⟩
    have l2 := dfSplit_prune_length hR g1 hv (Arith.complement ps) hp.randomState
    rcases hp2 : dfShuffledSplit R g1 st.neg (Arith.complement ps) hp.randomState with ⟨c, d, g2⟩
    have hp1' : @dfShuffledSplit (Arith.exactQuots A) R st.g st.pos (@Arith.complement (Arith.exactQuots A) ps) hp.randomState = (a, b, g1) := hp1
    have hp2' : @dfShuffledSplit (Arith.exactQuots A) R g1 st.neg (@Arith.complement (Arith.exactQuots A) ps) hp.randomState = (c, d, g2) := hp2
    rw [hp1] at l1
    rw [hp2] at l2
    dsimp only at l1 l2
    simp only [hp1, hp2, hp1', hp2']
    split
    · rfl
    refine bind_congr fun grown => ?_
    split
    · rfl
    rw [C105_ripper_pruning_plain m ha b d (by omega) grown]
    refine bind_congr fun o => ?_
    cases o with
    | none => rfl
    | some pruned => rfl

theorem ripperGrow_quots [A : Arith] {m : Nat} (ha : Arith.QuotsUpTo m) {R : PyRandom} (hR : R.Lawful) (fuel : Nat) (cands : List Cond) (hp : Hyper)
    (init : List (List Cond)) (pos neg : Frame) (hu : pos.UniqueIndex) (hv : neg.UniqueIndex) (hm : pos.rows.length + neg.rows.length < m)
    (g : R.G) : ripperGrow fuel R cands hp init pos neg g = @ripperGrow (Arith.exactQuots A) fuel R cands hp init pos neg g := by
  unfold ripperGrow
  refine pyWhile_agree (I := fun st => st.pos.UniqueIndex ∧ st.neg.UniqueIndex ∧ st.pos.rows.length + st.neg.rows.length < m)
    (fun st h => ripperStep_quots ha hR fuel cands hp pos neg st h.1 h.2.1 h.2.2) ?_ _ _ ⟨hu, hv, hm⟩
  rintro st st' ⟨h1, h2, h3⟩ hstep
  obtain ⟨rule, hadd⟩ := ripperStep_more hstep
  have hs : st'.pos.rows.Sublist st.pos.rows := by rw [hadd.pos]; exact dropLabels_sublist
  have hs' : st'.neg.rows.Sublist st.neg.rows := by rw [hadd.neg]; exact dropLabels_sublist
  have l1 := hs.length_le
  have l2 := hs'.length_le
  exact ⟨unique_sublist hs h1, unique_sublist hs' h2, by omega⟩

theorem subsetDlsDf_quots [A : Arith] (n : Nat) (pos neg : Frame) : ∀ (rules done : List (List Cond)) (t : Rat),
    subsetDlsDf n pos neg t done rules = @subsetDlsDf (Arith.exactQuots A) n pos neg t done rules
  | [], _, _ => rfl
  | r :: rs, done, t => by
    unfold subsetDlsDf
    refine bind_congr fun x => bind_congr fun e => ?_
    rw [subsetDlsDf_quots n pos neg rs]
    rfl

theorem bestSubsetDf_quots [A : Arith] (n : Nat) (rules : List (List Cond)) (pos neg : Frame) :
    bestSubsetDf n rules pos neg = @bestSubsetDf (Arith.exactQuots A) n rules pos neg := by
  unfold bestSubsetDf
  rw [subsetDlsDf_quots]
  refine bind_congr fun x => ?_
  dsimp only
  unfold totalBitsDf rsTheory
  rw [theorySum_quots]
  rfl

theorem optimizeChoiceDf_quots [A : Arith] {m M : Nat} (ha : Arith.SharesUpTo m M) (fuel : Nat) (cands : List Cond) (hp : Hyper)
    (original : List (List Cond)) (originalDl : Rat) (i : Nat) (rule : List Cond) (allPos allNeg posGrow posPrune negGrow negPrune : Frame)
    (hm : posPrune.rows.length + negPrune.rows.length ≤ m)
    (hM : (original.length + 1) * (posPrune.rows.length + negPrune.rows.length) ≤ M) :
    optimizeChoiceDf fuel cands hp original originalDl i rule allPos allNeg posGrow posPrune negGrow negPrune =
      @optimizeChoiceDf (Arith.exactQuots A) fuel cands hp original originalDl i rule allPos allNeg posGrow posPrune negGrow negPrune := by
  unfold optimizeChoiceDf
  dsimp only
  refine bind_congr fun gRep => ?_
  rw [C105_optimisation_pruning_plain m M ha posPrune negPrune hm original hM]
  refine bind_congr fun prRep => ?_
  refine bind_congr fun gRev => ?_
  rw [C105_optimisation_pruning_plain m M ha posPrune negPrune hm original hM]
  refine bind_congr fun prRev => ?_
  have e : @bestSubsetDf A = @bestSubsetDf (Arith.exactQuots A) := by
    funext n rules pos neg
    exact bestSubsetDf_quots n rules pos neg
  rw [e]

theorem optimizeLoopDf_quots [A : Arith] {m M : Nat} (ha : Arith.SharesUpTo m M) {R : PyRandom} (hR : R.Lawful) (fuel : Nat) (cands : List Cond)
    (hp : Hyper) (ps : Rat) (rs : Option Int) (original : List (List Cond)) (originalDl : Rat) (allPos allNeg : Frame) :
    ∀ (rules : List (List Cond)) (i : Nat) (new : List (List Cond)) (pos neg : Frame) (g : R.G), pos.UniqueIndex → neg.UniqueIndex →
      pos.rows.length + neg.rows.length ≤ m → (original.length + 1) * (pos.rows.length + neg.rows.length) ≤ M →
      OutRel Eq (optimizeLoopDf fuel R cands hp ps rs original originalDl allPos allNeg i rules new pos neg g)
        (@optimizeLoopDf (Arith.exactQuots A) fuel R cands hp ps rs original originalDl allPos allNeg i rules new pos neg g)
  | [], _, _, _, _, _, _, _, _, _ => .ok rfl
  | rule :: rest, i, new, pos, neg, g, hu, hv, hm, hM => by
    unfold optimizeLoopDf
    have l1 := dfSplit_prune_length hR g hu (Arith.complement ps) rs
    rcases hp1 : dfShuffledSplit R g pos (Arith.complement ps) rs with ⟨a, b, g1⟩
    have l2 := dfSplit_prune_length hR g1 hv (Arith.complement ps) rs
    rcases hp2 : dfShuffledSplit R g1 neg (Arith.complement ps) rs with ⟨c, d, g2⟩
    have hp1' : @dfShuffledSplit (Arith.exactQuots A) R g pos (@Arith.complement (Arith.exactQuots A) ps) rs = (a, b, g1) := hp1
    have hp2' : @dfShuffledSplit (Arith.exactQuots A) R g1 neg (@Arith.complement (Arith.exactQuots A) ps) rs = (c, d, g2) := hp2
    rw [hp1] at l1
    rw [hp2] at l2
    dsimp only at l1 l2
    simp only [hp2, hp1', hp2']
    split
    · exact .ok rfl
    split
    · exact .ok rfl
    rw [optimizeChoiceDf_quots ha fuel cands hp original originalDl i rule allPos allNeg a b c d (by omega)
      ((Nat.mul_le_mul_left _ (by omega)).trans hM)]
    cases @optimizeChoiceDf (Arith.exactQuots A) fuel cands hp original originalDl i rule allPos allNeg a b c d with
    | error e => exact .err _
    | ok best =>
      simp only [ok_bind]
      cases hr : rmCoveredRule rule pos neg with
      | error e => exact .err _
      | ok x =>
        simp only [ok_bind]
        split
        · exact .ok rfl
        · have hx : x.1.rows.Sublist pos.rows ∧ x.2.rows.Sublist neg.rows := by
            unfold rmCoveredRule at hr
            obtain ⟨p, _, hr⟩ := bind_ok_iff.mp hr
            obtain ⟨n, _, hr⟩ := bind_ok_iff.mp hr
            simp only [pure_eq_ok, Except.ok.injEq] at hr
            subst hr
            exact ⟨dropLabels_sublist, dropLabels_sublist⟩
          have l3 := hx.1.length_le
          have l4 := hx.2.length_le
          exact optimizeLoopDf_quots ha hR fuel cands hp ps rs original originalDl allPos allNeg rest _ _ _ _ _
            (unique_sublist hx.1 hu) (unique_sublist hx.2 hv) (by omega) ((Nat.mul_le_mul_left _ (by omega)).trans hM)

theorem optimizeLoopDf_length [Arith] {R : PyRandom} {fuel : Nat} {cands : List Cond} {hp : Hyper} {ps : Rat} {rs : Option Int}
    {original : List (List Cond)} {originalDl : Rat} {allPos allNeg : Frame} :
    ∀ {rules : List (List Cond)} {i : Nat} {new : List (List Cond)} {pos neg : Frame} {g : R.G} {out : List (List Cond) × R.G},
      optimizeLoopDf fuel R cands hp ps rs original originalDl allPos allNeg i rules new pos neg g = .ok out → out.1.length = new.length
  | [], _, _, _, _, _, _, h => by
    unfold optimizeLoopDf at h
    injection h with h; subst h; rfl
  | rule :: rest, i, new, pos, neg, g, out, h => by
    unfold optimizeLoopDf at h
    rcases dfShuffledSplit R g pos (Arith.complement ps) rs with ⟨a, b, g1⟩
    generalize dfShuffledSplit R g1 neg (Arith.complement ps) rs = z at h
    obtain ⟨c, d, g2⟩ := z
    dsimp only at h
    split at h
    · injection h with h; subst h; rfl
    split at h
    · injection h with h; subst h; rfl
    obtain ⟨best, _, h⟩ := bind_ok_iff.mp h
    obtain ⟨x, _, h⟩ := bind_ok_iff.mp h
    split at h
    · injection h with h; subst h; simp
    · rw [optimizeLoopDf_length h]; simp

theorem optimizeDf_quots [A : Arith] {m M : Nat} (ha : Arith.SharesUpTo m M) {R : PyRandom} (hR : R.Lawful) (fuel : Nat) (cands : List Cond) (hp : Hyper)
    (rs : Option Int) (rules : List (List Cond)) (pos neg : Frame) (hu : pos.UniqueIndex) (hv : neg.UniqueIndex)
    (hm : pos.rows.length + neg.rows.length ≤ m) (hM : (rules.length + 1) * (pos.rows.length + neg.rows.length) ≤ M) (g : R.G) :
    optimizeDf fuel R cands hp rs rules pos neg g = @optimizeDf (Arith.exactQuots A) fuel R cands hp rs rules pos neg g := by
  unfold optimizeDf
  rw [bestSubsetDf_quots]
  refine bind_congr fun x => ?_
  cases hp.pruneSize with
  | none => rfl
  | some ps => exact (optimizeLoopDf_quots ha hR fuel cands hp ps rs rules _ pos neg rules 0 rules pos neg g hu hv hm hM).eq

theorem optimizeDf_length [Arith] {R : PyRandom} {fuel : Nat} {cands : List Cond} {hp : Hyper} {rs : Option Int}
    {rules : List (List Cond)} {pos neg : Frame} {g : R.G} {out : List (List Cond) × R.G}
    (h : optimizeDf fuel R cands hp rs rules pos neg g = .ok out) : out.1.length = rules.length := by
  unfold optimizeDf at h
  obtain ⟨x, _, h⟩ := bind_ok_iff.mp h
  dsimp only at h
  cases hps : hp.pruneSize with
  | none =>
    rw [hps] at h
    dsimp only at h
    split at h
    · injection h with h; subst h; rfl
    · cases h
  | some ps =>
    rw [hps] at h
    exact optimizeLoopDf_length h

theorem stage2Df_quots [A : Arith] {m M : Nat} (ha : Arith.SharesUpTo m M) {R : PyRandom} (hR : R.Lawful) (fuel : Nat) (cands : List Cond) (hp : Hyper)
    (pos neg : Frame) (hu : pos.UniqueIndex) (hv : neg.UniqueIndex) (hm : pos.rows.length + neg.rows.length ≤ m) :
    ∀ (n : Nat) (rules : List (List Cond)) (g : R.G), (rules.length + 1) * (pos.rows.length + neg.rows.length) ≤ M →
    stage2Df fuel R cands hp pos neg n rules g = @stage2Df (Arith.exactQuots A) fuel R cands hp pos neg n rules g
  | 0, _, _, _ => rfl
  | n + 1, rules, g, hM => by
    unfold stage2Df
    rw [← optimizeDf_quots ha hR fuel cands hp _ rules pos neg hu hv hm hM g]
    refine bind_congr_ok fun x ho => ?_
    have hl := optimizeDf_length ho
    have := stage2Df_quots ha hR fuel cands hp pos neg hu hv hm n x.1 x.2 (by rw [hl]; exact hM)
    dsimp only
    split
    · rfl
    · exact this

theorem ripperGrow_length [Arith] [Arith.Lawful] {R : PyRandom} {fuel : Nat} {cands : List Cond} {hp : Hyper} {init : List (List Cond)}
    {pos neg : Frame} {g : R.G} {st : FrameRipSt R} (h : ripperGrow fuel R cands hp init pos neg g = .ok st) :
    st.rules.length ≤ init.length + pos.rows.length := by
  unfold ripperGrow at h
  refine pyWhile_inv (I := fun s => s.rules.length + s.pos.rows.length ≤ init.length + pos.rows.length)
    (Q := fun s => s.rules.length ≤ init.length + pos.rows.length) ?_ ?_ fuel _ st (le_refl _) h
  · intro s s' hI hb
    obtain ⟨rule, ha⟩ := ripperStep_more hb
    have := ha.pos_lt
    rw [ha.rules, List.length_append]
    simp only [List.length_cons, List.length_nil]
    omega
  · intro s a hI hb
    have : a.rules = s.rules := (ripperStep_done hb).1
    rw [this]; omega

/-- C105 with `cn_optimize=False`: rounding the quotients changes nothing in what RIPPER learns. -/
theorem C105_ripper_plain [A : Arith] [Arith.Lawful] (m M : Nat) (ha : Arith.QuotsUpTo m) (hs : Arith.SharesUpTo m M) (R : PyRandom)
    (hR : R.Lawful) (S : SetOps) (hp : Hyper) (old : Option (List Cond)) (init : List (List Cond)) (df : Frame) (hu : df.UniqueIndex)
    (hm : df.rows.length < m) (hM : (init.length + df.rows.length + 1) * df.rows.length ≤ M) (cf : Feat) (pc : Val)
    (fuel : Nat) (g : R.G) :
    ripperFitPlain fuel R S hp old init df cf pc g = @ripperFitPlain (Arith.exactQuots A) fuel R S hp old init df cf pc g := by
  obtain ⟨h1, h2, h3⟩ := examples_facts hu cf pc
  unfold ripperFitPlain
  split
  · rfl
  split
  · rfl
  have : ripperStagesDf fuel R S hp old init (posExamples df cf pc) (negExamples df cf pc) g =
      @ripperStagesDf (Arith.exactQuots A) fuel R S hp old init (posExamples df cf pc) (negExamples df cf pc) g := by
    unfold ripperStagesDf
    dsimp only
    rw [← ripperGrow_quots ha hR fuel _ hp init _ _ h1 h2 (by omega) g]
    refine bind_congr_ok fun st hst => ?_
    have hl := ripperGrow_length hst
    rw [stage2Df_quots hs hR fuel _ hp _ _ h1 h2 (by omega) _ st.rules st.g
      ((Nat.mul_le_mul (by omega) (le_of_eq h3)).trans hM)]
    refine bind_congr fun x => ?_
    have : coverRemainingDf fuel R S (updatedConds S old (posExamples df cf pc) (negExamples df cf pc)) hp x.1 (posExamples df cf pc)
          (negExamples df cf pc) x.2 =
        @coverRemainingDf (Arith.exactQuots A) fuel R S (updatedConds S old (posExamples df cf pc) (negExamples df cf pc)) hp x.1
          (posExamples df cf pc) (negExamples df cf pc) x.2 := by
      unfold coverRemainingDf
      refine bind_congr_ok fun y hr => ?_
      have hy : y.1.rows.Sublist (posExamples df cf pc).rows ∧ y.2.rows.Sublist (negExamples df cf pc).rows := by
        unfold rmCoveredRuleset at hr
        obtain ⟨p, _, hr⟩ := bind_ok_iff.mp hr
        obtain ⟨n, _, hr⟩ := bind_ok_iff.mp hr
        simp only [pure_eq_ok, Except.ok.injEq] at hr
        subst hr
        exact ⟨dropLabels_sublist, dropLabels_sublist⟩
      have l3 := hy.1.length_le
      have l4 := hy.2.length_le
      obtain ⟨y1, y2⟩ := y
      dsimp only at hy l3 l4 ⊢
      split
      · rw [ripperGrow_quots ha hR fuel _ hp x.1 y1 y2 (unique_sublist hy.1 h1) (unique_sublist hy.2 h2) (by omega) x.2]
      · rfl
    rw [this]
    refine bind_congr fun y => ?_
    rw [bestSubsetDf_quots]
  rw [this]

/-! ### the hypotheses are met -/

/-- One half is a double. -/
theorem Demo.doubles_half : Demo.doubles.fl (1 / 2) = 1 / 2 := by
  have hl : Int.log 2 (1 / 2 : ℝ) = -1 := by
    have := Int.log_zpow (R := ℝ) (b := 2) (by norm_num) (-1)
    rw [← this]
    norm_num
  show Demo.fl53 (1 / 2) = 1 / 2
  unfold Demo.fl53
  rw [if_pos (by norm_num)]
  unfold Demo.near53
  rw [hl]
  have e : (1 / 2 : ℝ) * 2 ^ (52 - (-1 : Int)) = ((2 ^ 52 : Int) : ℝ) := by norm_num
  rw [e, round_intCast]
  norm_num

/-- Doubles with correctly rounded logarithms meet all that is assumed of numbers here. -/
theorem Demo.doubles_precise : @Arith.GainsUpTo (Arith.rounded Demo.doubles) 8000000 (1 / 100000) ∧
    @Arith.QuotsUpTo (Arith.rounded Demo.doubles) 60000000 ∧ @Arith.SharesUpTo (Arith.rounded Demo.doubles) 60000000 4000000000000000 :=
  ⟨C105_doubles_gains Demo.doubles le_rfl (by show (2⁻¹ : ℝ) ^ 53 ≤ 2⁻¹ ^ 52; norm_num) le_rfl le_rfl 8000000 le_rfl,
   C105_doubles_quotients Demo.doubles rfl (by show 60000000 ≤ 2 ^ 53; norm_num) Demo.doubles_half,
   C105_doubles_shares Demo.doubles rfl 60000000 (by show 60000000 ≤ 2 ^ 53; norm_num)⟩

/-- A rule grown with doubles on `Demo.conj` from all its examples. -/
example : ∀ cn, CatNap.build Demo.conj Demo.fc = .ok cn →
    let pos := labelSet (posRows Demo.conj Demo.fc Demo.vp).index
    let neg := labelSet (negRows Demo.conj Demo.fc Demo.vp).index
    pos ≠ [] ∧ neg ≠ [] ∧ ∃ r, @growRuleCn (Arith.rounded Demo.doubles) 20 cn {} pos neg [] = .ok r ∧
      GrownGreedily {} (fun s => nCovered Demo.conj s pos) (fun s => nCovered Demo.conj s neg) cn.conds (1 / 100000) [] r := by
  intro cn hb pos neg
  have hu : Demo.conj.UniqueIndex := by unfold Frame.UniqueIndex; decide +kernel
  let _ : Arith := Arith.rounded Demo.doubles
  have _ := C81_rounded_lawful Demo.doubles
  have hn : neg.length < 20 := by decide +kernel
  have hm : pos.length + neg.length ≤ 8000000 := by
    have : pos.length < 20 := by decide +kernel
    omega
  obtain ⟨r, hr, _⟩ := growRuleCn_total (fuel := 20) (CatNap.build_WF hb) (lim := {}) (pos := pos) (neg := neg) (init := [])
    (lt_of_le_of_lt ruleCovers_length_le hn)
  exact ⟨by decide +kernel, by decide +kernel, r, hr,
    C105_growth 8000000 _ Demo.doubles_precise.1 Demo.conj Demo.fc cn hb hu {} pos neg hm [] (fun c hc => by cases hc) 20 r hr⟩

/-- IREP and RIPPER, with and without the index, on `Demo.conj`. -/
example (hp : Hyper) (fuel : Nat) :
    @irepFit (Arith.rounded Demo.doubles) fuel Demo.R0 hp [] Demo.conj Demo.fc Demo.vp () =
      @irepFit (Arith.exactQuots (Arith.rounded Demo.doubles)) fuel Demo.R0 hp [] Demo.conj Demo.fc Demo.vp () ∧
    @ripperFit (Arith.rounded Demo.doubles) fuel Demo.R0 hp [] Demo.conj Demo.fc Demo.vp () =
      @ripperFit (Arith.exactQuots (Arith.rounded Demo.doubles)) fuel Demo.R0 hp [] Demo.conj Demo.fc Demo.vp () ∧
    @ripperFitPlain (Arith.rounded Demo.doubles) fuel Demo.R0 Demo.S0 hp none [] Demo.conj Demo.fc Demo.vp () =
      @ripperFitPlain (Arith.exactQuots (Arith.rounded Demo.doubles)) fuel Demo.R0 Demo.S0 hp none [] Demo.conj Demo.fc Demo.vp () := by
  have hu : Demo.conj.UniqueIndex := by unfold Frame.UniqueIndex; decide +kernel
  have hn : Demo.conj.rows.length < 20 := by decide +kernel
  have hM : (([] : List (List Cond)).length + Demo.conj.rows.length + 1) * Demo.conj.rows.length ≤ 20 * 20 :=
    Nat.mul_le_mul (by simp only [List.length_nil]; omega) hn.le
  let _ : Arith := Arith.rounded Demo.doubles
  have _ := C81_rounded_lawful Demo.doubles
  obtain ⟨_, h1, h2⟩ := Demo.doubles_precise
  exact ⟨C105_irep _ h1 Demo.R0 Demo.R0_lawful hp [] Demo.conj (by omega) Demo.fc Demo.vp fuel (),
    C105_ripper _ h1 Demo.R0 Demo.R0_lawful hp [] Demo.conj (by omega) Demo.fc Demo.vp fuel (),
    C105_ripper_plain _ _ h1 h2 Demo.R0 Demo.R0_lawful Demo.S0 hp none [] Demo.conj hu (by omega) (by omega) Demo.fc Demo.vp fuel ()⟩

end Witt
