import Verif.Lemmas.Unpruned
import Verif.Lemmas.Proba
/-
Reordering the rows of the training data: the coverage index, growth without pruning, calibration.
-/
namespace Witt
open Spec

namespace Spec
/-- The same rows (with their labels) in another order. -/
structure Reordered (df df' : Frame) : Prop where
  cols : df'.cols = df.cols
  rows : df'.rows.Perm df.rows
end Spec

theorem Spec.Reordered.keep {df df' : Frame} (h : Reordered df df') (p : Row → Bool) : Reordered (df.keep p) (df'.keep p) :=
  ⟨h.cols, h.rows.filter _⟩

theorem Spec.Reordered.dropCol {df df' : Frame} (h : Reordered df df') (f : Feat) : Reordered (df.dropCol f) (df'.dropCol f) := by
  refine ⟨?_, h.rows⟩
  simp only [Frame.dropCol, h.cols]

theorem Spec.Reordered.index {df df' : Frame} (h : Reordered df df') : df'.index.Perm df.index := h.rows.map _

theorem labelSet_perm {a b : List Label} (h : a.Perm b) : (labelSet a).Perm (labelSet b) := by
  refine (List.perm_ext_iff_of_nodup ?_ ?_).mpr fun l => ?_
  · exact labelSet_nodup _
  · exact labelSet_nodup _
  · rw [mem_labelSet, mem_labelSet]; exact h.mem_iff

/-! ### coverage indexes that say the same -/

/-- Indexes over the same conditions whose entries have the same elements. -/
structure CnAlike (cn cn' : CatNap) : Prop where
  conds : cn'.conds = cn.conds
  lookup : ∀ c l, l ∈ cn'.lookup c ↔ l ∈ cn.lookup c
  all : ∀ l, l ∈ cn'.all ↔ l ∈ cn.all

theorem CnAlike.contains {cn cn' : CatNap} (h : CnAlike cn cn') (c : Cond) (l : Label) :
    (cn'.lookup c).contains l = (cn.lookup c).contains l := by
  rw [Bool.eq_iff_iff, List.contains_iff_mem, List.contains_iff_mem]
  exact h.lookup c l

theorem CnAlike.hit {cn cn' : CatNap} (h : CnAlike cn cn') (r : List Cond) : cn'.hit r = cn.hit r := by
  funext l
  unfold CatNap.hit
  split
  · rw [Bool.eq_iff_iff, List.contains_iff_mem, List.contains_iff_mem]; exact h.all l
  · simp only [h.contains]

theorem CnAlike.ruleCovers {cn cn' : CatNap} (h : CnAlike cn cn') (r : List Cond) {s s' : List Label} (hs : s'.Perm s) :
    (cn'.ruleCovers r (some s')).Perm (cn.ruleCovers r (some s)) := by
  rw [CatNap.ruleCovers_some, CatNap.ruleCovers_some, h.hit]
  exact hs.filter _

theorem CnAlike.condCovers {cn cn' : CatNap} (h : CnAlike cn cn') (c : Cond) {s s' : List Label} (hs : s'.Perm s) :
    (cn'.condCovers c (some s')).length = (cn.condCovers c (some s)).length := by
  rw [CatNap.condCovers_some, CatNap.condCovers_some]
  simp only [h.contains]
  exact (hs.filter _).length_eq

theorem growRuleCn_alike [Arith] (fuel : Nat) {cn cn' : CatNap} (h : CnAlike cn cn') (lim : Limits) {pos pos' neg neg' : List Label}
    (hp : pos'.Perm pos) (hn : neg'.Perm neg) (r : List Cond) :
    growRuleCn fuel cn' lim pos' neg' r = growRuleCn fuel cn lim pos neg r := by
  have : growStepCn cn' lim pos' neg' = growStepCn cn lim pos neg := by
    funext rule
    have h1 := h.ruleCovers rule hp
    have h2 := h.ruleCovers rule hn
    have hg : (fun c => gainCn cn' c (cn'.ruleCovers rule (some pos')) (cn'.ruleCovers rule (some neg'))) =
        fun c => gainCn cn c (cn.ruleCovers rule (some pos)) (cn.ruleCovers rule (some neg)) := by
      funext c
      unfold gainCn
      rw [h1.length_eq, h2.length_eq, h.condCovers c h1, h.condCovers c h2]
    unfold growStepCn bestRuleSuccessorCn
    simp only [h1.length_eq, h2.length_eq, hg, h.conds]
  unfold growRuleCn
  rw [this]

/-- The same rules, and the same remaining examples in another order. -/
def AlikeGrow {R R' : PyRandom} (s : GrowSt R) (s' : GrowSt R') : Prop :=
  s'.rules = s.rules ∧ s'.pos.Perm s.pos ∧ s'.neg.Perm s.neg

theorem irepStepCn_alike [Arith] [Arith.Lawful] {R R' : PyRandom} (hR : R.Lawful) (hR' : R'.Lawful) (fuel : Nat) {cn cn' : CatNap}
    (hcn : CnAlike cn cn') {hp hp' : Hyper}
    (h0 : hp.irepPrune = 0) (hps : hp'.pruneSize = hp.pruneSize) (hl : hp'.lim = hp.lim) (s : GrowSt R) (s' : GrowSt R')
    (h : AlikeGrow s s') : StepRel AlikeGrow AlikeGrow (irepStepCn fuel R cn hp s) (irepStepCn fuel R' cn' hp' s') := by
  obtain ⟨rules, pos, neg, g⟩ := s
  obtain ⟨rules', pos', neg', g'⟩ := s'
  obtain ⟨h1, h2, h3⟩ := h
  dsimp only at h1 h2 h3
  subst h1
  have h0' : hp'.irepPrune = 0 := by unfold Hyper.irepPrune at h0 ⊢; rw [hps]; exact h0
  have hnil : pos' = [] ↔ pos = [] := by rw [← List.length_eq_zero_iff, h2.length_eq, List.length_eq_zero_iff]
  unfold irepStepCn
  simp only [h0, h0', hl, Arith.Lawful.complement_zero, if_true, hnil, h2.length_eq, h3.length_eq]
  split
  · exact .done ⟨rfl, h2, h3⟩
  split
  · exact .done ⟨rfl, h2, h3⟩
  have p1 := (randomSplit_one hR g pos hp.randomState).1
  have p1' := (randomSplit_one hR' g' pos' hp'.randomState).1
  rcases e1 : randomSplit R g pos 1 hp.randomState with ⟨a, b, g1⟩
  rcases e1' : randomSplit R' g' pos' 1 hp'.randomState with ⟨a', b', g1'⟩
  have p2 := (randomSplit_one hR g1 neg hp.randomState).1
  have p2' := (randomSplit_one hR' g1' neg' hp'.randomState).1
  rcases e2 : randomSplit R g1 neg 1 hp.randomState with ⟨c, d, g2⟩
  rcases e2' : randomSplit R' g1' neg' 1 hp'.randomState with ⟨c', d', g2'⟩
  simp only [e1, e1', e2, e2'] at p1 p1' p2 p2' ⊢
  rw [growRuleCn_alike fuel hcn hp.lim ((p1'.trans h2).trans p1.symm) ((p2'.trans h3).trans p2.symm) []]
  cases growRuleCn fuel cn hp.lim a c [] with
  | error e => exact .err e
  | ok grown =>
    refine .more ⟨rfl, ?_, h3⟩
    dsimp only
    rw [setDiff_ruleCovers, setDiff_ruleCovers, hcn.hit]
    exact h2.filter _

theorem irepGrowCn_alike [Arith] [Arith.Lawful] {R R' : PyRandom} (hR : R.Lawful) (hR' : R'.Lawful) (fuel : Nat) {cn cn' : CatNap}
    (hcn : CnAlike cn cn') {hp hp' : Hyper}
    (h0 : hp.irepPrune = 0) (hps : hp'.pruneSize = hp.pruneSize) (hl : hp'.lim = hp.lim) (init : List (List Cond))
    {pos pos' neg neg' : List Label} (h2 : pos'.Perm pos) (h3 : neg'.Perm neg) (g : R.G) (g' : R'.G) :
    OutRel AlikeGrow (irepGrowCn fuel R cn hp init pos neg g) (irepGrowCn fuel R' cn' hp' init pos' neg' g') :=
  pyWhile_rel (irepStepCn_alike hR hR' fuel hcn h0 hps hl) fuel _ _ ⟨rfl, h2, h3⟩

/-- The indexes of data with reordered rows. -/
theorem build_reordered {df df' : Frame} (h : Reordered df df') {cf : Feat}
    (hu : ∀ f ∈ df.cols, f ≠ cf → df'.unique f = df.unique f) {cn : CatNap} (hb : CatNap.build df cf = .ok cn) :
    ∃ cn', CatNap.build df' cf = .ok cn' ∧ CnAlike cn cn' := by
  have hcf := CatNap.build_cols hb
  have hcf' : cf ∈ df'.cols := by rw [h.cols]; exact hcf
  obtain ⟨cn', hb'⟩ : ∃ cn', CatNap.build df' cf = .ok cn' := ⟨_, CatNap.build_ok hcf'⟩
  refine ⟨cn', hb', ?_, fun c l => ?_, fun l => ?_⟩
  · rw [CatNap.build_conds hb, CatNap.build_conds hb']
    unfold possibleConds
    have hc : (df'.dropCol cf).cols = (df.dropCol cf).cols := (h.dropCol cf).cols
    rw [hc]
    refine List.flatMap_congr fun f hf => ?_
    have hf' := Frame.mem_dropCol.mp hf
    have : (df'.dropCol cf).unique f = (df.dropCol cf).unique f := hu f hf'.1 hf'.2
    rw [this]
  · rw [CatNap.mem_lookup hb, CatNap.mem_lookup hb', h.cols]
    simp only [h.rows.mem_iff]
  · rw [CatNap.mem_all hb, CatNap.mem_all hb']
    exact h.index.mem_iff

/-! ### growth over frames -/

theorem loc_reordered {d d' : Frame} (h : Reordered d d') {a a' : List Label} (ha : a'.Perm a) :
    (d'.loc a').rows.Perm (d.loc a).rows := by
  unfold Frame.loc
  exact (ha.flatMap_right _).trans (List.Perm.flatMap_left _ fun l _ => h.rows.filter _)

/-- The same rules, and the same remaining examples in another order. -/
def AlikeFrames {R R' : PyRandom} (s : FrameSt R) (s' : FrameSt R') : Prop :=
  s'.rules = s.rules ∧ Reordered s.pos s'.pos ∧ Reordered s.neg s'.neg

theorem irepStep_alike [Arith] [Arith.Lawful] {R R' : PyRandom} (hR : R.Lawful) (hR' : R'.Lawful) (fuel : Nat) (cands : List Cond)
    {hp hp' : Hyper} (h0 : hp.irepPrune = 0) (hps : hp'.pruneSize = hp.pruneSize) (hl : hp'.lim = hp.lim)
    (s : FrameSt R) (s' : FrameSt R')
    (h : AlikeFrames s s') : StepRel AlikeFrames AlikeFrames (irepStep fuel R cands hp s) (irepStep fuel R' cands hp' s') := by
  obtain ⟨rules, pos, neg, g⟩ := s
  obtain ⟨rules', pos', neg', g'⟩ := s'
  obtain ⟨h1, h2, h3⟩ := h
  dsimp only at h1 h2 h3
  subst h1
  have h0' : hp'.irepPrune = 0 := by unfold Hyper.irepPrune at h0 ⊢; rw [hps]; exact h0
  have hnil : pos'.rows = [] ↔ pos.rows = [] := by
    rw [← List.length_eq_zero_iff, h2.rows.length_eq, List.length_eq_zero_iff]
  unfold irepStep
  simp only [h0, h0', hl, Arith.Lawful.complement_zero, if_true, hnil, h2.rows.length_eq, h3.rows.length_eq]
  split
  · exact .done ⟨rfl, h2, h3⟩
  split
  · exact .done ⟨rfl, h2, h3⟩
  unfold dfShuffledSplit
  have p1 := (randomSplit_one hR g pos.index hp.randomState).1
  have p1' := (randomSplit_one hR' g' pos'.index hp'.randomState).1
  rcases e1 : randomSplit R g pos.index 1 hp.randomState with ⟨a, b, g1⟩
  rcases e1' : randomSplit R' g' pos'.index 1 hp'.randomState with ⟨a', b', g1'⟩
  have p2 := (randomSplit_one hR g1 neg.index hp.randomState).1
  have p2' := (randomSplit_one hR' g1' neg'.index hp'.randomState).1
  rcases e2 : randomSplit R g1 neg.index 1 hp.randomState with ⟨c, d, g2⟩
  rcases e2' : randomSplit R' g1' neg'.index 1 hp'.randomState with ⟨c', d', g2'⟩
  simp only [e1, e1', e2, e2'] at p1 p1' p2 p2' ⊢
  rw [growRule_perm fuel cands hp.lim (pos := pos'.loc a') (pos' := pos.loc a) (neg := neg'.loc c') (neg' := neg.loc c) h2.cols
    (loc_reordered h2 ((p1'.trans h2.index).trans p1.symm)) h3.cols (loc_reordered h3 ((p2'.trans h3.index).trans p2.symm)) []]
  cases growRule fuel cands hp.lim (pos.loc a) (neg.loc c) [] with
  | error e => exact .err e
  | ok grown =>
    simp only [ok_bind]
    have hcc : (∀ x ∈ grown, x.feature ∈ pos'.cols) ↔ ∀ x ∈ grown, x.feature ∈ pos.cols := by rw [h2.cols]
    rcases condsCover_cases grown pos with ⟨hk, hm⟩ | ⟨hk, hm⟩
    · rw [hk, condsCover_ok (hcc.mpr hm)]
      refine .more ⟨rfl, ?_, h3⟩
      have hp' : (fun row : Row => !(pos'.keep (condsMet grown)).index.contains row.label) =
          fun row : Row => !(pos.keep (condsMet grown)).index.contains row.label := by
        funext row
        congr 1
        rw [Bool.eq_iff_iff, List.contains_iff_mem, List.contains_iff_mem]
        exact (h2.keep _).index.mem_iff
      refine ⟨h2.cols, ?_⟩
      simp only [Frame.dropLabels, Frame.keep] at hp' ⊢
      rw [hp']
      exact h2.rows.filter _
    · rw [hk, condsCover_err (fun hm' => hm (hcc.mp hm'))]
      exact .err _

theorem irepGrow_alike [Arith] [Arith.Lawful] {R R' : PyRandom} (hR : R.Lawful) (hR' : R'.Lawful) (fuel : Nat) (cands : List Cond)
    {hp hp' : Hyper} (h0 : hp.irepPrune = 0) (hps : hp'.pruneSize = hp.pruneSize) (hl : hp'.lim = hp.lim) (init : List (List Cond))
    {pos pos' neg neg' : Frame} (h2 : Reordered pos pos') (h3 : Reordered neg neg') (g : R.G) (g' : R'.G) :
    OutRel AlikeFrames (irepGrow fuel R cands hp init pos neg g) (irepGrow fuel R' cands hp' init pos' neg' g') :=
  pyWhile_rel (irepStep_alike hR hR' fuel cands h0 hps hl) fuel _ _ ⟨rfl, h2, h3⟩

/-! ### calibration -/

theorem numPos_reordered {df df' : Frame} (h : Reordered df df') (cf : Feat) (pc : Val) : numPos df' cf pc = numPos df cf pc := by
  unfold numPos posRows
  rw [h.cols, (h.keep _).rows.length_eq]

theorem numNeg_reordered {df df' : Frame} (h : Reordered df df') (cf : Feat) (pc : Val) : numNeg df' cf pc = numNeg df cf pc := by
  unfold numNeg negRows
  rw [h.cols, (h.keep _).rows.length_eq]

theorem recalRule_reordered {df df' : Frame} (h : Reordered df df') (cf : Feat) (pc : Val) (alpha : Rat) (r : Rule) :
    recalRule df' cf pc alpha r = recalRule df cf pc alpha r := by
  have hcc : (∀ x ∈ r.conds, x.feature ∈ df'.cols) ↔ ∀ x ∈ r.conds, x.feature ∈ df.cols := by rw [h.cols]
  unfold recalRule Rule.covers
  rcases condsCover_cases r.conds df with ⟨hk, hm⟩ | ⟨hk, hm⟩
  · rw [hk, condsCover_ok (hcc.mpr hm)]
    simp only [ok_bind]
    rw [numPos_reordered (h.keep _), (h.keep _).rows.length_eq]
  · rw [hk, condsCover_err (fun hm' => hm (hcc.mp hm'))]

theorem recalRules_reordered {df df' : Frame} (h : Reordered df df') (cf : Feat) (pc : Val) (alpha : Rat) :
    ∀ rs, recalRules df' cf pc alpha rs = recalRules df cf pc alpha rs
  | [] => rfl
  | r :: rs => by
    unfold recalRules
    rw [recalRule_reordered h, recalRules_reordered h cf pc alpha rs]

theorem recalibrate_reordered {df df' : Frame} (h : Reordered df df') (rs : Ruleset) (cf : Feat) (pc : Val) (alpha : Rat) :
    recalibrate rs df' cf pc alpha = recalibrate rs df cf pc alpha := by
  unfold recalibrate
  rw [h.cols, recalRules_reordered h]
  split
  · rfl
  · rename_i hf
    have hF : HasFeatures df rs.rules := features_ok_iff.mp (by simpa using hf)
    have hF' : HasFeatures df' rs.rules := by unfold HasFeatures at hF ⊢; rw [h.cols]; exact hF
    have hc := recalRules_conds df cf pc alpha rs.rules
    rcases hr : recalRules df cf pc alpha rs.rules with ⟨rules, _ | e⟩
    · rw [hr] at hc
      dsimp only at hc ⊢
      obtain ⟨d, hd, hdc, hdr⟩ := Ruleset.covers_ok (rs := { rs with rules := rules }) (df := df) (Or.inr (hasFeatures_conds hc hF))
      obtain ⟨d', hd', hdc', hdr'⟩ := Ruleset.covers_ok (rs := { rs with rules := rules }) (df := df')
        (Or.inr (hasFeatures_conds hc hF'))
      rw [hd, hd']
      simp only [ok_bind]
      have hmem : ∀ l, l ∈ d'.index ↔ l ∈ d.index := by
        intro l
        unfold Frame.index
        simp only [List.mem_map, hdr, hdr', h.rows.mem_iff]
      have hp' : (fun row : Row => !d'.index.contains row.label) = fun row : Row => !d.index.contains row.label := by
        funext row
        congr 1
        rw [Bool.eq_iff_iff, List.contains_iff_mem, List.contains_iff_mem]
        exact hmem _
      have hdl : Reordered (df.dropLabels d.index) (df'.dropLabels d'.index) := by
        unfold Frame.dropLabels
        rw [hp']
        exact h.keep _
      rw [numNeg_reordered hdl, hdl.rows.length_eq]
    · rfl

end Witt
