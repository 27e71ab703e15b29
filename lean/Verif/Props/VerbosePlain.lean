import Verif.VerbosePlain
import Verif.Props.Verbose
import Verif.Props.Plain
import Verif.Lemmas.PlainRipper
/-
C97 for `cn_optimize=False`: `verbosity` changes nothing but what is printed.
-/
namespace Witt
open Spec

theorem speaks_sayCount_bind {β : Type} {v : Nat} {C : Prop} {level : Nat} (hl : 1 ≤ level) {x : Except PyErr Nat}
    (hx : ∃ n, x = .ok n) {f : Unit → Talk β} {a : Except PyErr β} (h : Speaks v C (f ()) a) :
    Speaks v C (sayCount v level x >>= f) a := by
  obtain ⟨n, rfl⟩ := hx
  refine speaks_bind (k := fun _ => a) (a := .ok ()) ?_ fun _ _ => h
  unfold sayCount
  split
  · exact speaks_bind_ok (speaks_silently (.ok n)) (speaks_say hl _)
  · exact speaks_pure ()

theorem speaks_while_inv {S A : Type} {v : Nat} {C : Prop} {body : S → Talk (Step S A)} {quiet : S → Except PyErr (Step S A)}
    {I : S → Prop} (h : ∀ s, I s → Speaks v C (body s) (quiet s))
    (hi : ∀ s s', I s → quiet s = .ok (.more s') → I s') :
    ∀ (fuel : Nat) (s : S), I s → Speaks v C (talkWhile body fuel s) (pyWhile quiet fuel s) := by
  intro fuel
  induction fuel with
  | zero => exact fun s _ => speaks_silently _
  | succ fuel ih =>
    intro s hs
    unfold talkWhile pyWhile
    refine speaks_bind (h s hs) fun o ho => ?_
    cases o with
    | more s' => exact ih s' (hi s s' hs ho)
    | done a => exact speaks_pure a

variable [Arith]

omit [Arith] in
theorem numCovered_some {r : List Cond} {d : Frame} (h : ∀ c ∈ r, c.feature ∈ d.cols) : ∃ n, numCoveredC r d = .ok n := by
  rcases numCoveredC_cases r d with ⟨h1, -⟩ | ⟨-, h2⟩
  · exact ⟨_, h1⟩
  · exact absurd h h2

/-! ### one rule -/

theorem bestSuccessorDf_speaks {v : Nat} {C : Prop} (rule cands : List Cond) (pos neg : Frame) :
    Speaks v C (bestSuccessorTalk v rule cands pos neg) (bestSuccessor rule cands pos neg) := by
  unfold bestSuccessorTalk bestSuccessor
  refine speaks_bind (speaks_silently _) fun best hb => ?_
  refine speaks_sayRnd_bind (by decide) (fun _ _ => ?_) _ (speaks_pure _)
  have h1 : (1 : Rat) ≤ best.2 := (bestLoopM_spec _ _ _ hb).2.1
  exact ⟨_, by unfold rndGain; rw [if_neg (by linarith)]⟩

/-- A successor that was chosen has columns of the negative examples only. -/
theorem bestSuccessor_cols {rule cands : List Cond} {pos neg : Frame} {r : List Cond}
    (h : bestSuccessor rule cands pos neg = .ok (some r)) : ∀ c ∈ r, c.feature ∈ neg.cols := by
  unfold bestSuccessor at h
  obtain ⟨out, hb, h⟩ := bind_ok_iff.mp h
  simp only [pure_eq_ok, Except.ok.injEq] at h
  rcases (bestLoopM_spec _ _ _ hb).1 with rfl | ⟨s, -, hs, he⟩
  · cases h
  · rw [he] at h
    cases h
    unfold gainDf at hs
    obtain ⟨_, -, hs⟩ := bind_ok_iff.mp hs
    obtain ⟨_, -, hs⟩ := bind_ok_iff.mp hs
    obtain ⟨_, -, hs⟩ := bind_ok_iff.mp hs
    obtain ⟨_, hn, -⟩ := bind_ok_iff.mp hs
    exact (numCoveredC_ok hn).2

theorem growStepDf_speaks {v : Nat} {C : Prop} (cands : List Cond) (lim : Limits) (pos neg : Frame) (rule : List Cond) :
    Speaks v C (growStepDfTalk v cands lim pos neg rule) (growStep cands lim pos neg rule) := by
  unfold growStepDfTalk growStep
  refine speaks_bind (speaks_silently _) fun nNeg _ => ?_
  split
  · exact speaks_pure _
  refine speaks_bind (speaks_silently _) fun nPos _ => ?_
  split
  · exact speaks_pure _
  refine speaks_bind (bestSuccessorDf_speaks rule cands pos neg) fun o ho => ?_
  cases o with
  | none => exact speaks_pure _
  | some r => exact speaks_sayCount_bind (by decide) (numCovered_some (bestSuccessor_cols ho)) (speaks_pure _)

/-- A rule that was grown has columns of the negative examples only. -/
theorem growRule_cols {fuel : Nat} {cands : List Cond} {lim : Limits} {pos neg : Frame} {init r : List Cond}
    (h : growRule fuel cands lim pos neg init = .ok r) : ∀ c ∈ r, c.feature ∈ neg.cols := by
  refine pyWhile_inv (I := fun _ => True) (Q := fun r : List Cond => ∀ c ∈ r, c.feature ∈ neg.cols) (fun _ _ _ _ => trivial)
    ?_ fuel init r trivial h
  intro s a _ hs
  obtain ⟨hc, h⟩ := growStep_cases hs
  rcases h with ⟨-, h⟩ | ⟨-, -, h⟩ | ⟨-, -, ⟨-, h⟩ | ⟨_, -, h⟩⟩
  · cases h; exact hc
  · cases h
    unfold haltRule
    split
    · exact fun c hc' => hc c (List.dropLast_subset _ hc')
    · exact hc
  · cases h; exact hc
  · cases h

theorem growRuleDf_speaks {v : Nat} {C : Prop} {pos neg : Frame} (hcols : pos.cols = neg.cols) (fuel : Nat) (cands : List Cond)
    (lim : Limits) (initial : List Cond) :
    Speaks v C (growRuleDfTalk v fuel cands lim pos neg initial) (growRule fuel cands lim pos neg initial) := by
  unfold growRuleDfTalk
  refine speaks_say_bind (by decide) _ ?_
  have hw : Speaks v C (talkWhile (growStepDfTalk v cands lim pos neg) fuel initial) (growRule fuel cands lim pos neg initial) :=
    speaks_while (growStepDf_speaks cands lim pos neg) fuel initial
  rw [← bind_pure (growRule fuel cands lim pos neg initial)]
  refine speaks_bind hw fun r hr => ?_
  split
  · refine speaks_say_bind (by decide) _ (speaks_sayCount_bind (by decide) ?_ (speaks_pure _))
    have hc := growRule_cols hr
    obtain ⟨n, hn⟩ := numCovered_some hc
    obtain ⟨p, hp⟩ := numCovered_some (d := pos) (by rw [hcols]; exact hc)
    exact ⟨n + p, by unfold grownCount; rw [hn, hp]; rfl⟩
  · exact speaks_pure _

/-! ### IREP -/

theorem irepMetric_some (pos neg : Frame) (r : List Cond) : irepMetric pos neg r ≠ .ok none := by
  unfold irepMetric
  intro h
  obtain ⟨_, -, h⟩ := bind_ok_iff.mp h
  obtain ⟨_, -, h⟩ := bind_ok_iff.mp h
  split at h <;> simp [pure_eq_ok] at h

theorem ripperGrowMetric_some (pos neg : Frame) (r : List Cond) : ripperGrowMetric pos neg r ≠ .ok none := by
  unfold ripperGrowMetric
  intro h
  obtain ⟨_, -, h⟩ := bind_ok_iff.mp h
  obtain ⟨_, -, h⟩ := bind_ok_iff.mp h
  simp [pure_eq_ok] at h

theorem irepStepDf_speaks {v : Nat} {C : Prop} (fuel : Nat) (R : PyRandom) (cands : List Cond) (hp : Hyper) (st : FrameSt R)
    (hcols : st.pos.cols = st.neg.cols) :
    Speaks v C (irepStepDfTalk v fuel R cands hp st) (irepStep fuel R cands hp st) := by
  unfold irepStepDfTalk irepStep
  split
  · exact speaks_pure _
  split
  · exact speaks_pure _
  dsimp only
  rcases hq1 : dfShuffledSplit R st.g st.pos (Arith.complement hp.irepPrune) hp.randomState with ⟨posGrow, posPrune, g1⟩
  have h1 := (dfSplit_sub hq1).2.2
  dsimp only
  rcases hq2 : dfShuffledSplit R g1 st.neg (Arith.complement hp.irepPrune) hp.randomState with ⟨negGrow, negPrune, g2⟩
  have h2 := (dfSplit_sub hq2).2.2
  dsimp only
  refine speaks_say_bind (by decide) _ ?_
  refine speaks_bind (growRuleDf_speaks (by rw [h1.1, h2.1, hcols]) fuel cands hp.lim []) fun grown _ => ?_
  split
  · refine speaks_say_bind (by decide) _ ?_
    refine speaks_bind (speaks_silently _) fun covered _ => ?_
    exact speaks_say_bind (by decide) _ (speaks_pure _)
  · refine speaks_bind (pruneRule_speaks (fun _ => Or.inr (irepMetric_some posPrune negPrune)) grown) fun o _ => ?_
    cases o with
    | none => exact speaks_silently _
    | some pruned =>
      dsimp only
      refine speaks_bind (speaks_silently _) fun q _ => ?_
      cases q with
      | none => exact speaks_pure _
      | some q =>
        dsimp only
        split
        · exact speaks_pure _
        · refine speaks_say_bind (by decide) _ ?_
          refine speaks_bind (speaks_silently _) fun o _ => ?_
          obtain ⟨pos', neg'⟩ := o
          exact speaks_say_bind (by decide) _ (speaks_pure _)

theorem irepGrowDf_speaks {v : Nat} {C : Prop} (fuel : Nat) (R : PyRandom) (cands : List Cond) (hp : Hyper)
    (init : List (List Cond)) {pos neg : Frame} (hcols : pos.cols = neg.cols) (g : R.G) :
    Speaks v C (irepGrowDfTalk v fuel R cands hp init pos neg g) (irepGrow fuel R cands hp init pos neg g) := by
  refine speaks_say_bind (by decide) _ ?_
  refine speaks_while_inv (I := fun st : FrameSt R => st.pos.cols = st.neg.cols) (irepStepDf_speaks fuel R cands hp) ?_ fuel _ hcols
  intro s s' hs h
  obtain ⟨rule, ha⟩ := irepStep_more h
  rw [ha.pos]
  rcases ha.neg with ⟨-, h⟩ | ⟨-, h⟩
  · rw [h]; exact hs
  · rw [h]; exact hs

omit [Arith] in
theorem examples_cols (df : Frame) (cf : Feat) (pc : Val) : (posExamples df cf pc).cols = (negExamples df cf pc).cols := rfl

theorem irepFitPlain_speaks {C : Prop} (v fuel : Nat) (R : PyRandom) (S : SetOps) (hp : Hyper) (old : Option (List Cond))
    (init : List (List Cond)) (df : Frame) (cf : Feat) (pc : Val) (g : R.G) :
    Speaks v C (irepFitPlainTalk v fuel R S hp old init df cf pc g) (irepFitPlain fuel R S hp old init df cf pc g) := by
  unfold irepFitPlainTalk irepFitPlain
  refine speaks_say_bind (by decide) _ ?_
  split
  · exact speaks_silently _
  split
  · exact speaks_silently _
  dsimp only
  refine speaks_say_bind (by decide) _ ?_
  refine speaks_bind (irepGrowDf_speaks fuel R _ hp init (examples_cols df cf pc) g) fun st _ => ?_
  refine speaks_say_bind (by decide) _ ?_
  exact speaks_bind (speaks_silently _) fun rs _ => speaks_pure _

/-! ### RIPPER -/

theorem exceptionsDf_speaks {v : Nat} {C : Prop} (rules : List (List Cond)) (pos neg : Frame) :
    Speaks v C (exceptionsDfTalk v rules pos neg) (exceptionsDf rules pos neg) := by
  unfold exceptionsDfTalk
  exact speaks_bind_pure (speaks_silently _) fun x => speaks_say_bind (by decide) _ (speaks_pure _)

theorem subsetDlsDf_speaks {v : Nat} {C : Prop} (n : Nat) (pos neg : Frame) : ∀ (rules : List (List Cond)) (theory : Rat)
    (done : List (List Cond)), Speaks v C (subsetDlsDfTalk v n pos neg theory done rules) (subsetDlsDf n pos neg theory done rules) := by
  intro rules
  induction rules with
  | nil => exact fun _ _ => speaks_pure _
  | cons r rs ih =>
    intro theory done
    unfold subsetDlsDfTalk subsetDlsDf
    refine speaks_bind (ruleTheory_speaks _ r) fun t _ => ?_
    refine speaks_bind (exceptionsDf_speaks _ pos neg) fun e _ => ?_
    refine speaks_say_bind (by decide) _ ?_
    exact speaks_bind (ih _ _) fun l _ => speaks_pure _

theorem bestSubsetDf_speaks {v : Nat} {C : Prop} (n : Nat) (rules : List (List Cond)) (pos neg : Frame) :
    Speaks v C (bestSubsetDfTalk v n rules pos neg) (bestSubsetDf n rules pos neg) := by
  unfold bestSubsetDfTalk bestSubsetDf
  refine speaks_say_bind (by decide) _ ?_
  refine speaks_bind (subsetDlsDf_speaks n pos neg rules _ _) fun dls _ => ?_
  refine speaks_say_bind (by decide) _ ?_
  exact speaks_bind (speaks_silently _) fun x _ => speaks_say_bind (by decide) _ (speaks_pure _)

theorem ripperStepDf_speaks {v : Nat} {C : Prop} (fuel : Nat) (R : PyRandom) (cands : List Cond) (hp : Hyper)
    (allPos allNeg : Frame) (st : FrameRipSt R) (hcols : st.pos.cols = st.neg.cols) :
    Speaks v C (ripperStepDfTalk v fuel R cands hp allPos allNeg st) (ripperStep fuel R cands hp allPos allNeg st) := by
  unfold ripperStepDfTalk ripperStep
  split
  · exact speaks_pure _
  split
  · exact speaks_pure _
  cases hp.pruneSize with
  | none => exact speaks_silently _
  | some ps =>
    dsimp only
    rcases hq1 : dfShuffledSplit R st.g st.pos (Arith.complement ps) hp.randomState with ⟨posGrow, posPrune, g1⟩
    have h1 := (dfSplit_sub hq1).2.2
    dsimp only
    rcases hq2 : dfShuffledSplit R g1 st.neg (Arith.complement ps) hp.randomState with ⟨negGrow, negPrune, g2⟩
    have h2 := (dfSplit_sub hq2).2.2
    dsimp only
    refine speaks_say_bind (by decide) _ ?_
    split
    · exact speaks_pure _
    refine speaks_bind (growRuleDf_speaks (by rw [h1.1, h2.1, hcols]) fuel cands hp.lim []) fun grown _ => ?_
    split
    · exact speaks_pure _
    refine speaks_bind (pruneRule_speaks (fun _ => Or.inr (ripperGrowMetric_some posPrune negPrune)) grown) fun o _ => ?_
    cases o with
    | none => exact speaks_silently _
    | some pruned =>
      dsimp only
      refine speaks_say_bind (by decide) _ ?_
      refine speaks_bind (ruleTheory_speaks _ pruned) fun ruleDl _ => ?_
      refine speaks_bind (exceptionsDf_speaks _ allPos allNeg) fun dataDl _ => ?_
      refine speaks_say_bind (by decide) _ ?_
      refine speaks_bind (speaks_silently _) fun o _ => ?_
      obtain ⟨pos', neg'⟩ := o
      exact speaks_say_bind (by decide) _ (speaks_pure _)

theorem ripperGrowDf_speaks {v : Nat} {C : Prop} (fuel : Nat) (R : PyRandom) (cands : List Cond) (hp : Hyper)
    (init : List (List Cond)) {pos neg : Frame} (hcols : pos.cols = neg.cols) (g : R.G) :
    Speaks v C (ripperGrowDfTalk v fuel R cands hp init pos neg g) (ripperGrow fuel R cands hp init pos neg g) := by
  refine speaks_say_bind (by decide) _ ?_
  refine speaks_while_inv (I := fun st : FrameRipSt R => st.pos.cols = st.neg.cols)
    (ripperStepDf_speaks fuel R cands hp pos neg) ?_ fuel _ hcols
  intro s s' hs h
  obtain ⟨rule, ha⟩ := ripperStep_more h
  rw [ha.pos, ha.neg]
  exact hs

/-- The circumstances in which the optimisation prints every prune value: verbosity below 5, or prune sets that are not empty. -/
def Prunable (v : Nat) (R : PyRandom) (hp : Hyper) : Prop :=
  v < 5 ∨ (R.Lawful ∧ ∀ ps, hp.pruneSize = some ps → Arith.LeavesSome ps)

theorem optimizeChoiceDf_speaks {v : Nat} {C : Prop} (fuel : Nat) (cands : List Cond) (hp : Hyper)
    (original : List (List Cond)) (originalDl : Rat) (i : Nat) (rule : List Cond) (allPos allNeg : Frame)
    {posGrow posPrune negGrow negPrune : Frame} (hcols : posGrow.cols = negGrow.cols) (hs : C → v < 5 ∨ posPrune.rows ≠ []) :
    Speaks v C
      (optimizeChoiceDfTalk v fuel cands hp original originalDl i rule allPos allNeg posGrow posPrune negGrow negPrune)
      (optimizeChoiceDf fuel cands hp original originalDl i rule allPos allNeg posGrow posPrune negGrow negPrune) := by
  have hm : C → v < 5 ∨ ∀ r, rulesetAccuracy (iReplaced original i (some r)) posPrune negPrune ≠ .ok none := by
    intro hc
    refine (hs hc).imp_right fun h r => ?_
    have : posPrune.rows.length + negPrune.rows.length ≠ 0 := by
      have := List.length_pos_of_ne_nil h
      omega
    unfold rulesetAccuracy
    dsimp only
    rw [if_neg this]
    intro he
    obtain ⟨_, -, he⟩ := bind_ok_iff.mp he
    obtain ⟨_, -, he⟩ := bind_ok_iff.mp he
    simp [pure_eq_ok] at he
  unfold optimizeChoiceDfTalk optimizeChoiceDf
  dsimp only
  refine speaks_say_bind (by decide) _ ?_
  refine speaks_bind (growRuleDf_speaks hcols fuel cands _ []) fun gRep _ => ?_
  refine speaks_bind (pruneRuleOn_speaks hm gRep _ i) fun prRep _ => ?_
  refine speaks_say_bind (by decide) _ ?_
  refine speaks_bind (growRuleDf_speaks hcols fuel cands _ rule) fun gRev _ => ?_
  refine speaks_bind (pruneRuleOn_speaks hm gRev _ i) fun prRev _ => ?_
  refine speaks_say_bind (by decide) _ ?_
  refine speaks_bind ?_ fun repDl _ => ?_
  · cases prRep with
    | none => exact speaks_bind (bestSubsetDf_speaks _ _ _ _) fun _ _ => speaks_pure _
    | some r =>
      dsimp only
      split
      · exact speaks_pure _
      · exact speaks_bind (bestSubsetDf_speaks _ _ _ _) fun _ _ => speaks_pure _
  refine speaks_say_bind (by decide) _ ?_
  refine speaks_bind ?_ fun revDl _ => ?_
  · cases prRev with
    | none => exact speaks_bind (bestSubsetDf_speaks _ _ _ _) fun _ _ => speaks_pure _
    | some r =>
      dsimp only
      split
      · exact speaks_pure _
      · exact speaks_bind (bestSubsetDf_speaks _ _ _ _) fun _ _ => speaks_pure _
  refine speaks_bind (speaks_silently _) fun best _ => ?_
  refine speaks_say_bind (by decide) _ ?_
  refine speaks_say_bind (by decide) _ ?_
  rcases best with _ | _ | best
  · exact speaks_pure _
  · cases prRep with
    | none => exact speaks_silently _
    | some r => exact speaks_pure _
  · cases prRev with
    | none => exact speaks_silently _
    | some r => exact speaks_pure _

/-- The prune part of a split whose growing part is not empty. -/
theorem dfSplit_prune_ne {R : PyRandom} (hR : R.Lawful) {g g' : R.G} {d a b : Frame} {ps : Rat} {rs : Option Int}
    (h : dfShuffledSplit R g d (Arith.complement ps) rs = (a, b, g')) (hl : Arith.LeavesSome ps) (ha : a.rows ≠ []) :
    b.rows ≠ [] := by
  obtain ⟨row, hrow⟩ := List.exists_mem_of_ne_nil _ ha
  have hd : d.rows ≠ [] := List.ne_nil_of_mem ((dfSplit_sub h).1 row hrow)
  have hlen : 0 < d.index.length := by
    unfold Frame.index
    rw [List.length_map]
    exact List.length_pos_of_ne_nil hd
  obtain ⟨h0, h1⟩ := hl d.index.length hlen
  have hne := randomSplit_prune_ne_nil hR g rs h0 h1
  have hmem := randomSplit_mem hR g d.index (Arith.complement ps) rs
  unfold dfShuffledSplit at h
  rcases hs : randomSplit R g d.index (Arith.complement ps) rs with ⟨x, y, z⟩
  rw [hs] at hne hmem
  simp only [hs, Prod.mk.injEq] at h
  obtain ⟨-, rfl, -⟩ := h
  obtain ⟨l, hlm⟩ := List.exists_mem_of_ne_nil _ hne
  obtain ⟨r, hr, hrl⟩ := List.mem_map.mp ((hmem l).mpr (Or.inr hlm))
  exact List.ne_nil_of_mem (loc_label.mpr ⟨hr, by rw [hrl]; exact hlm⟩)

theorem optimizeLoopDf_speaks {v : Nat} (fuel : Nat) (R : PyRandom) (cands : List Cond) (hp : Hyper) (ps : Rat)
    (hps : hp.pruneSize = some ps) (rs : Option Int) (original : List (List Cond)) (originalDl : Rat) (allPos allNeg : Frame) :
    ∀ (rules : List (List Cond)) (i : Nat) (new : List (List Cond)) (pos neg : Frame) (g : R.G), pos.cols = neg.cols →
    Speaks v (Prunable v R hp)
      (optimizeLoopDfTalk v fuel R cands hp ps rs original originalDl allPos allNeg i rules new pos neg g)
      (optimizeLoopDf fuel R cands hp ps rs original originalDl allPos allNeg i rules new pos neg g) := by
  intro rules
  induction rules with
  | nil => exact fun _ _ _ _ _ _ => speaks_pure _
  | cons rule rest ih =>
    intro i new pos neg g hcols
    unfold optimizeLoopDfTalk optimizeLoopDf
    rcases hq1 : dfShuffledSplit R g pos (Arith.complement ps) rs with ⟨posGrow, posPrune, g1⟩
    have h1 := (dfSplit_sub hq1).2.2
    dsimp only
    rcases hq2 : dfShuffledSplit R g1 neg (Arith.complement ps) rs with ⟨negGrow, negPrune, g2⟩
    have h2 := (dfSplit_sub hq2).2.2
    dsimp only
    split
    · exact speaks_pure _
    rename_i hgrow
    split
    · exact speaks_pure _
    refine speaks_bind (optimizeChoiceDf_speaks fuel cands hp original originalDl i rule allPos allNeg
      (by rw [h1.1, h2.1, hcols]) fun hc => ?_) fun best _ => ?_
    · exact hc.imp_right fun ⟨hR, hl⟩ => dfSplit_prune_ne hR hq1 (hl ps hps) hgrow
    refine speaks_say_bind (by decide) _ ?_
    refine speaks_bind (speaks_silently _) fun o ho => ?_
    obtain ⟨pos', neg'⟩ := o
    refine speaks_say_bind (by decide) _ ?_
    obtain ⟨e1, e2, -⟩ := rmCoveredRule_ok ho
    dsimp only
    split
    · exact speaks_pure _
    · exact ih _ _ _ _ _ (by rw [e1, e2]; exact hcols)

theorem optimizeDf_speaks {v : Nat} (fuel : Nat) (R : PyRandom) (cands : List Cond) (hp : Hyper) (rs : Option Int)
    (rules : List (List Cond)) {allPos allNeg : Frame} (hcols : allPos.cols = allNeg.cols) (g : R.G) :
    Speaks v (Prunable v R hp) (optimizeDfTalk v fuel R cands hp rs rules allPos allNeg g)
      (optimizeDf fuel R cands hp rs rules allPos allNeg g) := by
  unfold optimizeDfTalk optimizeDf
  refine speaks_say_bind (by decide) _ (speaks_say_bind (by decide) _ ?_)
  refine speaks_bind (bestSubsetDf_speaks _ rules allPos allNeg) fun o _ => ?_
  obtain ⟨best, originalDl⟩ := o
  refine speaks_say_bind (by decide) _ ?_
  cases hps : hp.pruneSize with
  | none =>
    dsimp only
    split
    · exact speaks_pure _
    · exact speaks_silently _
  | some ps => exact optimizeLoopDf_speaks fuel R cands hp ps hps rs rules originalDl allPos allNeg rules 0 rules allPos allNeg g hcols

theorem stage2Df_speaks {v : Nat} (fuel : Nat) (R : PyRandom) (cands : List Cond) (hp : Hyper) {allPos allNeg : Frame}
    (hcols : allPos.cols = allNeg.cols) : ∀ (n : Nat) (rules : List (List Cond)) (g : R.G),
    Speaks v (Prunable v R hp) (stage2DfTalk v fuel R cands hp allPos allNeg n rules g)
      (stage2Df fuel R cands hp allPos allNeg n rules g) := by
  intro n
  induction n with
  | zero => exact fun _ _ => speaks_pure _
  | succ n ih =>
    intro rules g
    unfold stage2DfTalk stage2Df
    refine speaks_say_bind (by decide) _ ?_
    refine speaks_bind (optimizeDf_speaks fuel R cands hp _ rules hcols g) fun o _ => ?_
    obtain ⟨new, g'⟩ := o
    refine speaks_say_bind (by decide) _ (speaks_say_bind (by decide) _ (speaks_say_bind (by decide) _ ?_))
    dsimp only
    split
    · exact speaks_say_bind (by decide) _ (speaks_pure _)
    · exact ih _ _

theorem coverRemainingDf_speaks {v : Nat} {C : Prop} (fuel : Nat) (R : PyRandom) (S : SetOps) (cands : List Cond) (hp : Hyper)
    (rules : List (List Cond)) {pos neg : Frame} (hcols : pos.cols = neg.cols) (g : R.G) :
    Speaks v C (coverRemainingDfTalk v fuel R S cands hp rules pos neg g)
      (coverRemainingDf fuel R S cands hp rules pos neg g) := by
  unfold coverRemainingDfTalk coverRemainingDf
  refine speaks_bind (speaks_silently _) fun o ho => ?_
  obtain ⟨pos', neg'⟩ := o
  have hcols' : pos'.cols = neg'.cols := by
    unfold rmCoveredRuleset at ho
    obtain ⟨p, -, ho⟩ := bind_ok_iff.mp ho
    obtain ⟨n, -, ho⟩ := bind_ok_iff.mp ho
    simp only [pure_eq_ok, Except.ok.injEq, Prod.mk.injEq] at ho
    rw [← ho.1, ← ho.2]
    exact hcols
  dsimp only
  split
  · refine speaks_say_bind (by decide) _ ?_
    refine speaks_bind (ripperGrowDf_speaks fuel R _ hp rules hcols' g) fun st _ => ?_
    exact speaks_say_bind (by decide) _ (speaks_pure _)
  · exact speaks_say_bind (by decide) _ (speaks_pure _)

theorem ripperStagesDf_speaks {v : Nat} (fuel : Nat) (R : PyRandom) (S : SetOps) (hp : Hyper) (old : Option (List Cond))
    (init : List (List Cond)) {pos neg : Frame} (hcols : pos.cols = neg.cols) (g : R.G) :
    Speaks v (Prunable v R hp) (ripperStagesDfTalk v fuel R S hp old init pos neg g)
      (ripperStagesDf fuel R S hp old init pos neg g) := by
  unfold ripperStagesDfTalk ripperStagesDf
  dsimp only
  refine speaks_bind (ripperGrowDf_speaks fuel R _ hp init hcols g) fun st _ => ?_
  refine speaks_say_bind (by decide) _ ?_
  refine speaks_bind (stage2Df_speaks fuel R _ hp hcols _ _ _) fun o _ => ?_
  obtain ⟨rules, g1⟩ := o
  refine speaks_bind (coverRemainingDf_speaks fuel R S _ hp rules hcols g1) fun o _ => ?_
  obtain ⟨rules, cands, g2⟩ := o
  refine speaks_say_bind (by decide) _ ?_
  refine speaks_bind (bestSubsetDf_speaks _ rules pos neg) fun o _ => ?_
  exact speaks_pure _

theorem ripperFitPlain_speaks (v fuel : Nat) (R : PyRandom) (S : SetOps) (hp : Hyper) (old : Option (List Cond))
    (init : List (List Cond)) (df : Frame) (cf : Feat) (pc : Val) (g : R.G) :
    Speaks v (Prunable v R hp) (ripperFitPlainTalk v fuel R S hp old init df cf pc g)
      (ripperFitPlain fuel R S hp old init df cf pc g) := by
  unfold ripperFitPlainTalk ripperFitPlain
  split
  · exact speaks_silently _
  split
  · exact speaks_silently _
  refine speaks_bind (ripperStagesDf_speaks fuel R S hp old init (examples_cols df cf pc) g) fun o _ => ?_
  obtain ⟨rules, g'⟩ := o
  refine speaks_say_bind (by decide) _ ?_
  exact speaks_bind (speaks_silently _) fun rs _ => speaks_pure _

/-! ### C97 -/

/-- **C97** (IREP, `cn_optimize=False`): at every verbosity `fit` returns or raises what it returns or raises at verbosity 0. -/
theorem C97_irep_plain_verbosity (v fuel : Nat) (R : PyRandom) (S : SetOps) (hp : Hyper) (old : Option (List Cond))
    (init : List (List Cond)) (df : Frame) (cf : Feat) (pc : Val) (g : R.G) :
    (∀ x, irepFitPlain fuel R S hp old init df cf pc g = .ok x ↔
      ∃ log, irepFitPlainTalk v fuel R S hp old init df cf pc g [] = .ok x log) ∧
    (∀ e, irepFitPlain fuel R S hp old init df cf pc g = .error e ↔
      ∃ log, irepFitPlainTalk v fuel R S hp old init df cf pc g [] = .error e log) := by
  obtain ⟨h1, h2, h3⟩ := (irepFitPlain_speaks (C := True) v fuel R S hp old init df cf pc g).same
  refine ⟨fun x => ⟨h2 trivial x, fun ⟨log, h⟩ => h1 x log h⟩, fun e => ⟨h3 trivial e, fun ⟨log, h⟩ => ?_⟩⟩
  obtain ⟨ws, -, hw⟩ := irepFitPlain_speaks (C := True) v fuel R S hp old init df cf pc g []
  rw [h] at hw
  exact hw.2 trivial

/-- **C97** (RIPPER, `cn_optimize=False`): whatever `fit` returns at some verbosity, it returns at verbosity 0; and below
verbosity 5, or if `prune_size` leaves prune sets that are not empty, it returns or raises at that verbosity whatever it returns or
raises at verbosity 0. -/
theorem C97_ripper_plain_verbosity (v fuel : Nat) (R : PyRandom) (S : SetOps) (hp : Hyper) (old : Option (List Cond))
    (init : List (List Cond)) (df : Frame) (cf : Feat) (pc : Val) (g : R.G) :
    (∀ x log, ripperFitPlainTalk v fuel R S hp old init df cf pc g [] = .ok x log →
      ripperFitPlain fuel R S hp old init df cf pc g = .ok x) ∧
    ((v < 5 ∨ (R.Lawful ∧ ∀ ps, hp.pruneSize = some ps → Arith.LeavesSome ps)) →
      (∀ x, ripperFitPlain fuel R S hp old init df cf pc g = .ok x →
        ∃ log, ripperFitPlainTalk v fuel R S hp old init df cf pc g [] = .ok x log) ∧
      (∀ e, ripperFitPlain fuel R S hp old init df cf pc g = .error e →
        ∃ log, ripperFitPlainTalk v fuel R S hp old init df cf pc g [] = .error e log)) := by
  obtain ⟨h1, h2, h3⟩ := (ripperFitPlain_speaks v fuel R S hp old init df cf pc g).same
  exact ⟨h1, fun hc => ⟨h2 hc, h3 hc⟩⟩

/-- **C97** (`cn_optimize=False`): only lines that the verbosity asks for are printed, whether `fit` returns or raises. -/
theorem C97_plain_levels (v fuel : Nat) (R : PyRandom) (S : SetOps) (hp : Hyper) (old : Option (List Cond))
    (init : List (List Cond)) (df : Frame) (cf : Feat) (pc : Val) (g : R.G) :
    (∀ l ∈ screen (irepFitPlainTalk v fuel R S hp old init df cf pc g []), 1 ≤ l.level ∧ l.level ≤ v) ∧
    (∀ l ∈ screen (ripperFitPlainTalk v fuel R S hp old init df cf pc g []), 1 ≤ l.level ∧ l.level ≤ v) :=
  ⟨(irepFitPlain_speaks (C := True) v fuel R S hp old init df cf pc g).levels,
    (ripperFitPlain_speaks v fuel R S hp old init df cf pc g).levels⟩

/-- **C97** (IREP, `cn_optimize=False`): the last ruleset printed contains the fitted rules in their order, and with no
`max_total_conds` the fitted rules contain every printed one up to the order of its conditions. -/
theorem C97_irep_plain_last_ruleset {v fuel : Nat} {R : PyRandom} {S : SetOps} {hp : Hyper} {old : Option (List Cond)}
    {init : List (List Cond)} {df : Frame} {cf : Feat} {pc : Val} {g g' : R.G} {m : Fitted} {log : List Line} (hv : 1 ≤ v)
    (h : irepFitPlainTalk v fuel R S hp old init df cf pc g [] = .ok (m, g') log) :
    ∃ before printed, log = before ++ [{ level := 1, said := .rules printed }] ∧
      (m.ruleset.rules.map Rule.conds).Sublist printed ∧
      (hp.lim.maxTotalConds = none → ∀ r ∈ printed, ∃ s ∈ m.ruleset.rules.map Rule.conds,
        (condTexts s).Perm (condTexts r)) := by
  have hq := (irepFitPlain_speaks (C := True) v fuel R S hp old init df cf pc g).same.1 _ _ h
  obtain ⟨hr, hcf, st, hst, hm, -⟩ := irepFitPlain_ok hq
  unfold irepFitPlainTalk at h
  obtain ⟨-, w1, -, h⟩ := talk_ok h
  rw [if_neg hr, if_neg (not_not.mpr hcf)] at h
  dsimp only at h
  obtain ⟨-, w3, -, h⟩ := talk_ok h
  obtain ⟨st1, w4, hst1, h⟩ := talk_ok h
  obtain ⟨ws, -, h4⟩ := irepGrowDf_speaks (v := v) (C := True) fuel R
    (updatedConds S old (posExamples df cf pc) (negExamples df cf pc)) hp init (examples_cols df cf pc) g w3
  rw [hst1] at h4
  have h4 := h4.2
  rw [hst] at h4
  cases h4
  obtain ⟨u, w5, hsay, h⟩ := talk_ok h
  have hw5 := say_ok hsay hv
  obtain ⟨rs, w6, hrec, h⟩ := talk_ok h
  have hw6 := (silently_ok hrec).2
  cases h
  refine ⟨w4 ++ [{ level := 1, said := .words }], st.rules, ?_, ?_, ?_⟩
  · rw [hw6, hw5]; simp
  · rw [hm]; exact finish_sublist _ _
  · intro hn r hr'
    rw [hm, hn]
    exact finish_none_rep hr'

/-- **C97** (RIPPER, `cn_optimize=False`): the last ruleset printed (an empty line follows) contains the fitted rules in their order,
and with no `max_total_conds` the fitted rules contain every printed one up to the order of its conditions. -/
theorem C97_ripper_plain_last_ruleset {v fuel : Nat} {R : PyRandom} {S : SetOps} {hp : Hyper} {old : Option (List Cond)}
    {init : List (List Cond)} {df : Frame} {cf : Feat} {pc : Val} {g g' : R.G} {m : Fitted} {log : List Line} (hv : 1 ≤ v)
    (h : ripperFitPlainTalk v fuel R S hp old init df cf pc g [] = .ok (m, g') log) :
    ∃ before printed, log = before ++ [{ level := 1, said := .rules printed }, { level := 1, said := .words }] ∧
      (m.ruleset.rules.map Rule.conds).Sublist printed ∧
      (hp.lim.maxTotalConds = none → ∀ r ∈ printed, ∃ s ∈ m.ruleset.rules.map Rule.conds,
        (condTexts s).Perm (condTexts r)) := by
  have hq := (ripperFitPlain_speaks v fuel R S hp old init df cf pc g).same.1 _ _ h
  obtain ⟨hr, hcf, rules, hst, hm, -⟩ := ripperFitPlain_ok hq
  unfold ripperFitPlainTalk at h
  rw [if_neg hr, if_neg (not_not.mpr hcf)] at h
  obtain ⟨o, w4, hst1, h⟩ := talk_ok h
  obtain ⟨ws, -, h4⟩ := ripperStagesDf_speaks (v := v) fuel R S hp old init (examples_cols df cf pc) g []
  rw [hst1] at h4
  have h4 := h4.2
  rw [hst] at h4
  cases h4
  obtain ⟨u, w5, hsay, h⟩ := talk_ok h
  have hw5 := say_ok hsay hv
  dsimp only at h
  obtain ⟨rs, w6, hrec, h⟩ := talk_ok h
  have hw6 := (silently_ok hrec).2
  cases h
  refine ⟨w4 ++ [{ level := 1, said := .words }], rules, ?_, ?_, ?_⟩
  · rw [hw6, hw5]; simp
  · rw [hm]; exact finish_sublist _ _
  · intro hn r hr'
    rw [hm, hn]
    exact finish_none_rep hr'

end Witt

namespace Witt
open Demo

/-- C97 for `prune_size=0` and `cn_optimize=False`: RIPPER fits a model at verbosity 4 and raises TypeError at verbosity 5
(`rnd(None)`). -/
theorem C97_refuted_ripper_plain_prune_zero :
    (ripperFitPlain 19 R0 S0 { pruneSize := some 0 } none [] conj fc vp ()).map (fun m => m.1.ruleset.rules.map Rule.conds) =
      .ok [[⟨fa, vx⟩]] ∧
    raised (ripperFitPlainTalk 4 19 R0 S0 { pruneSize := some 0 } none [] conj fc vp () []) = none ∧
    raised (ripperFitPlainTalk 5 19 R0 S0 { pruneSize := some 0 } none [] conj fc vp () []) = some .typeError := by
  refine ⟨?_, ?_, ?_⟩ <;> decide +kernel

/-- Runs that return and that raise at verbosity 5: without a column to learn from IREP returns (it raises with
`cn_optimize=True`); the hypotheses of `C97_ripper_plain_verbosity` at verbosity 5. -/
example : (irepFitPlain 9 R0 S0 {} none [] classOnly fc vp ()).toBool = true ∧
    raised (irepFitPlainTalk 5 9 R0 S0 {} none [] classOnly fc vp () []) = none ∧
    (screen (irepFitPlainTalk 5 19 R0 S0 {} none [] fit1 fc vp () [])).length = 34 ∧
    raised (ripperFitPlainTalk 5 19 R0 S0 {} none [] conj fc vp () []) = some .zeroDivision := by
  refine ⟨?_, ?_, ?_, ?_⟩ <;> decide +kernel
example : R1.Lawful ∧ (∀ ps, ({ pruneSize := some (1 / 3), randomState := some 3 } : Hyper).pruneSize = some ps → Arith.LeavesSome ps) ∧
    (ripperFitPlain 19 R1 S0 { pruneSize := some (1 / 3), randomState := some 3 } none [] tied fc vp (0 : Nat)).toBool = true ∧
    raised (ripperFitPlainTalk 5 19 R1 S0 { pruneSize := some (1 / 3), randomState := some 3 } none [] tied fc vp (0 : Nat) []) = none := by
  refine ⟨R1_lawful, fun ps h => ?_, ?_, ?_⟩
  · cases h
    exact exact_leavesSome (by norm_num) (by norm_num)
  · decide +kernel
  · decide +kernel

end Witt
