import Verif.Props.Optimize
/-
C60, C61: when RIPPER's growing phase goes on and when it stops.
-/
namespace Witt
open Spec

namespace Spec
/-- Description length after the first `i` rules of `added` were added to `init`: the bits of these rules (the
initial ones are not counted) and of the exceptions to all rules. -/
noncomputable def growBits (df : Frame) (n : Nat) (init added : List (List Cond)) (pos neg : List Label)
    (i : Nat) : ℝ :=
  theoryBits n (added.take i) + exceptionBits df (init ++ added.take i) pos neg

/-- How far the description length after `i` added rules is above the least one after fewer (but at least
one) rules; 0 for `i <= 1`. -/
def Excess (D : Nat → ℝ) (i : Nat) (d : ℝ) : Prop :=
  (i ≤ 1 → d = 0) ∧ (2 ≤ i → (∃ j, 1 ≤ j ∧ j < i ∧ d = D i - D j) ∧ ∀ j, 1 ≤ j → j < i → D i - D j ≤ d)
end Spec

theorem theoryBits_append (n : Nat) (a b : List (List Cond)) :
    theoryBits n (a ++ b) = theoryBits n a + theoryBits n b := by
  simp [theoryBits]

variable {fuel : Nat} {R : PyRandom} {cn : CatNap} {hp : Hyper} {df : Frame} {cf : Feat}

/-- What holds of every state of the growing phase. -/
structure GrowDl (df : Frame) (n : Nat) (a : Rat) (init : List (List Cond)) (pos neg : List Label)
    (s : RipSt R) (added : List (List Cond)) : Prop where
  rules : s.rules = init ++ added
  first : added = [] → s.dl = none
  dl : added ≠ [] → ∃ t m mb, s.dl = some (t, m) ∧ StandsFor t (theoryBits n added) ∧ StandsFor m mb ∧
    (∃ j, 1 ≤ j ∧ j ≤ added.length ∧ mb = growBits df n init added pos neg j) ∧
    ∀ j, 1 ≤ j → j ≤ added.length → mb ≤ growBits df n init added pos neg j
  diff : ∃ d, StandsFor s.diff d ∧ Excess (growBits df n init added pos neg) added.length d
  past : ∀ i < added.length, ∃ d, Excess (growBits df n init added pos neg) i d ∧ d ≤ (a : ℝ)

theorem growBits_append (df : Frame) (n : Nat) (init added : List (List Cond)) (r : List Cond)
    (pos neg : List Label) {i : Nat} (hi : i ≤ added.length) :
    growBits df n init (added ++ [r]) pos neg i = growBits df n init added pos neg i := by
  unfold growBits
  rw [List.take_append_of_le_length hi]

theorem Spec.Excess.congr {D D' : Nat → ℝ} {i : Nat} {d : ℝ} (h : Excess D i d) (hD : ∀ j ≤ i, D' j = D j) :
    Excess D' i d := by
  refine ⟨h.1, fun hi => ?_⟩
  obtain ⟨⟨j, h1, h2, h3⟩, h4⟩ := h.2 hi
  refine ⟨⟨j, h1, h2, by rw [hD i le_rfl, hD j h2.le]; exact h3⟩, ?_⟩
  intro j h1 h2
  rw [hD i le_rfl, hD j h2.le]; exact h4 j h1 h2

theorem RipReach.growDl (hb : CatNap.build df cf = .ok cn) (hu : df.UniqueIndex)
    {init : List (List Cond)} (hi : ∀ r ∈ init, OverCols df cf r) (hi0 : [] ∉ init) {pos neg : List Label}
    (hpos : ∀ l ∈ pos, l ∈ df.index) (hneg : ∀ l ∈ neg, l ∈ df.index) {g : R.G} {s : RipSt R}
    (h : RipReach fuel R cn hp pos neg ⟨init, pos, neg, none, Arith.zeroDl, g⟩ s) :
    ∃ added, GrowDl df cn.conds.length hp.dlAllowance init pos neg s added ∧
      ∀ r ∈ added, OverCols df cf r ∧ r ≠ [] := by
  induction h with
  | start =>
    refine ⟨[], ⟨by simp, fun _ => rfl, by simp, ⟨0, Spec.StandsFor.one, fun _ => rfl, by simp⟩, by simp⟩, by simp⟩
  | @add s s' rule hs ha ih =>
    obtain ⟨added, hG, hov⟩ := ih
    have hrule : OverCols df cf rule := (overCols_closed hb).add (CatNap.build_WF hb) ha
    have hov' : ∀ r ∈ added ++ [rule], OverCols df cf r ∧ r ≠ [] := by
      intro r hr
      rcases List.mem_append.mp hr with h | h
      · exact hov r h
      · simp only [List.mem_singleton] at h; subst h; exact ⟨hrule, ha.grown.1⟩
    have hsens : Sensible df cf (init ++ (added ++ [rule])) pos neg := by
      refine ⟨?_, hpos, hneg, Or.inl ?_⟩
      · intro r hr
        rcases List.mem_append.mp hr with h | h
        · exact hi r h
        · exact (hov' r h).1
      · intro hm
        rcases List.mem_append.mp hm with h | h
        · exact hi0 h
        · exact (hov' _ h).2 rfl
    refine ⟨added ++ [rule], ?_, hov'⟩
    obtain ⟨ruleDl, dataDl, h1, h2, h3, h4⟩ := ha.dl
    have b1 := ruleTheory_bits h1
    rw [hG.rules, List.append_assoc] at h2
    have b2 := exceptionsCn_bits hb hu hsens h2
    have hlen : (added ++ [rule]).length = added.length + 1 := by simp
    have hD : ∀ i ≤ added.length, growBits df cn.conds.length init (added ++ [rule]) pos neg i =
        growBits df cn.conds.length init added pos neg i := fun i hi => growBits_append _ _ _ _ _ _ _ hi
    have hfull : growBits df cn.conds.length init (added ++ [rule]) pos neg (added.length + 1) =
        theoryBits cn.conds.length added + ruleBits cn.conds.length rule.length +
          exceptionBits df (init ++ (added ++ [rule])) pos neg := by
      unfold growBits
      rw [List.take_of_length_le (by simp), theoryBits_append]
      simp [theoryBits]
    obtain ⟨d, hd, hex⟩ := hG.diff
    have hpast : ∀ i < (added ++ [rule]).length, ∃ d,
        Excess (growBits df cn.conds.length init (added ++ [rule]) pos neg) i d ∧ d ≤ (hp.dlAllowance : ℝ) := by
      intro i hil
      rw [hlen] at hil
      rcases Nat.lt_or_ge i added.length with h | h
      · obtain ⟨d, h1, h2⟩ := hG.past i h
        exact ⟨d, h1.congr (fun j hj => hD j (by omega)), h2⟩
      · have : i = added.length := by omega
        subst this
        exact ⟨d, hex.congr (fun j hj => hD j hj), (withinAllowance_bits hd).mp ha.within⟩
    by_cases he : added = []
    · subst he
      have hn := hG.first rfl
      rw [hn] at h3 h4
      simp only [ripDl, Option.getD_none] at h3 h4
      have hz : d = 0 := hex.1 (by simp)
      have hb1 : StandsFor ruleDl (theoryBits cn.conds.length [rule]) := by simpa [theoryBits] using b1
      simp only [List.nil_append, List.length_nil, zero_add] at hfull hsens h2 b2 ⊢
      have hmb : StandsFor (ruleDl * dataDl) (growBits df cn.conds.length init [rule] pos neg 1) := by
        rw [hfull]
        have := b1.mul b2
        simpa [theoryBits] using this
      refine ⟨by rw [ha.rules, hG.rules]; simp, by simp, ?_, ?_, by simpa using hpast⟩
      · intro _
        refine ⟨_, _, _, h3, hb1, hmb, ⟨1, le_refl _, by simp, rfl⟩, ?_⟩
        intro j hj1 hj2
        simp only [List.length_cons, List.length_nil] at hj2
        have : j = 1 := by omega
        subst this; exact le_refl _
      · refine ⟨d, by rw [h4]; exact hd, fun _ => hz, ?_⟩
        intro h
        simp at h
    · obtain ⟨t, m, mb, hdl, ht, hm, ⟨j0, hj1, hj2, hj3⟩, hmin⟩ := hG.dl he
      rw [hdl] at h3 h4
      simp only [ripDl, Option.getD_some] at h3 h4
      have hbt : StandsFor (t * ruleDl) (theoryBits cn.conds.length (added ++ [rule])) := by
        rw [theoryBits_append]
        have := ht.mul b1
        simpa [theoryBits] using this
      have htot : StandsFor (t * ruleDl * dataDl)
          (growBits df cn.conds.length init (added ++ [rule]) pos neg (added.length + 1)) := by
        rw [hfull]; exact (ht.mul b1).mul b2
      have hpos' : 1 ≤ added.length := List.length_pos_of_ne_nil he
      refine ⟨by rw [ha.rules, hG.rules, List.append_assoc], by simp, ?_, ?_, hpast⟩
      · intro _
        rw [hlen]
        by_cases hc : Arith.addDl (Arith.addDl t ruleDl) dataDl < m
        · rw [if_pos hc] at h3
          refine ⟨_, _, _, h3, hbt, htot, ⟨added.length + 1, by omega, le_refl _, rfl⟩, ?_⟩
          intro j h1 h2
          rcases Nat.lt_or_ge j (added.length + 1) with h | h
          · rw [hD j (by omega)]
            exact le_trans ((htot.lt_iff hm).mp hc).le (hmin j h1 (by omega))
          · have : j = added.length + 1 := by omega
            subst this; exact le_refl _
        · rw [if_neg hc] at h3
          refine ⟨_, _, _, h3, hbt, hm, ⟨j0, hj1, by omega, by rw [hD j0 hj2]; exact hj3⟩, ?_⟩
          intro j h1 h2
          rcases Nat.lt_or_ge j (added.length + 1) with h | h
          · rw [hD j (by omega)]; exact hmin j h1 (by omega)
          · have : j = added.length + 1 := by omega
            subst this
            exact (hm.le_iff htot).mp (not_lt.mp hc)
      · rw [hlen]
        refine ⟨_, by rw [h4]; exact htot.div hm, fun h => by omega, fun _ => ⟨⟨j0, hj1, by omega, ?_⟩, ?_⟩⟩
        · rw [hj3, hD j0 hj2]
        · intro j h1 h2
          rw [hD j (by omega)]
          have := hmin j h1 (by omega)
          linarith

/-- C60. The growing phase of RIPPER adds rules one after the other to the given ones, and goes on adding only
while the description length is at most `dl_allowance` bits above the least one seen so far: for every rule
added after the first `i`, the description length after `i` rules exceeded the least one after fewer (but at
least one) rules by at most `dl_allowance`. -/
theorem C60_growth_within_allowance (R : PyRandom) (hp : Hyper) (df : Frame) (cf : Feat) (cn : CatNap)
    (hb : CatNap.build df cf = .ok cn) (hu : df.UniqueIndex) (init : List (List Cond))
    (hi : ∀ r ∈ init, OverCols df cf r) (hi0 : [] ∉ init) (pos neg : List Label)
    (hpos : ∀ l ∈ pos, l ∈ df.index) (hneg : ∀ l ∈ neg, l ∈ df.index) (fuel : Nat) (g : R.G) (st : RipSt R)
    (h : ripperGrowCn fuel R cn hp init pos neg g = .ok st) :
    ∃ added, st.rules = init ++ added ∧ ∀ i < added.length, ∃ d,
      Excess (growBits df cn.conds.length init added pos neg) i d ∧ d ≤ (hp.dlAllowance : ℝ) := by
  obtain ⟨s, hs, h1, _⟩ := ripperGrowCn_reach h
  obtain ⟨added, hG, _⟩ := hs.growDl hb hu hi hi0 hpos hneg
  exact ⟨added, by rw [h1, hG.rules], hG.past⟩

/-- Why an iteration stops the loop. -/
theorem ripperStepCn_done_why [Arith] {allPos allNeg : List Label} {st st' : RipSt R}
    (h : ripperStepCn fuel R cn hp allPos allNeg st = .ok (.done st')) :
    st.pos = [] ∨ Arith.within st.diff hp.dlAllowance = false ∨
    stopEarly hp.lim st.rules st.pos.length st.neg.length = true ∨
    ∃ ps, hp.pruneSize = some ps ∧
      (let s := randomSplit R st.g st.pos (Arith.complement ps) hp.randomState
       let t := randomSplit R s.2.2 st.neg (Arith.complement ps) hp.randomState
       s.1 = [] ∨ growRuleCn fuel cn hp.lim s.1 t.1 [] = .ok []) := by
  unfold ripperStepCn at h
  split at h
  · rename_i hc
    rcases hc with h | h
    · exact Or.inl h
    · exact Or.inr (Or.inl (by simpa using h))
  split at h
  · rename_i hc; exact Or.inr (Or.inr (Or.inl hc))
  cases hps : hp.pruneSize with
  | none => rw [hps] at h; simp at h
  | some ps =>
    refine Or.inr (Or.inr (Or.inr ⟨ps, rfl, ?_⟩))
    intro s t
    simp only [hps] at h
    rcases hp1 : randomSplit R st.g st.pos (Arith.complement ps) hp.randomState with ⟨a, b, g1⟩
    rcases hp2 : randomSplit R g1 st.neg (Arith.complement ps) hp.randomState with ⟨c, d, g2⟩
    have hs : s = (a, b, g1) := hp1
    have ht : t = (c, d, g2) := by show randomSplit R s.2.2 st.neg (Arith.complement ps) hp.randomState = _; rw [hs]; exact hp2
    rw [hs, ht]
    simp only [hp1, hp2] at h ⊢
    split at h
    · rename_i ha; exact Or.inl ha
    obtain ⟨grown, hg, h⟩ := bind_ok_iff.mp h
    split at h
    · rename_i hgn; subst hgn; exact Or.inr hg
    · obtain ⟨o, ho, h⟩ := bind_ok_iff.mp h
      cases o with
      | none => cases h
      | some pruned =>
        simp only at h
        obtain ⟨_, _, h⟩ := bind_ok_iff.mp h
        obtain ⟨_, _, h⟩ := bind_ok_iff.mp h
        simp [pure_eq_ok] at h

/-- C61. The growing phase stops only for a reason: every positive it was given is covered by an added rule, or
the description length exceeded the least one seen by more than `dl_allowance`, or a limit of
`max_rules`, `max_total_conds`, `min_ruleset_samples` was reached, or the growing part of the remaining
positives was empty, or the rule grown was empty. -/
theorem C61_growth_stops_for_a_reason (R : PyRandom) (hp : Hyper) (df : Frame) (cf : Feat) (cn : CatNap)
    (hb : CatNap.build df cf = .ok cn) (hu : df.UniqueIndex) (init : List (List Cond))
    (hi : ∀ r ∈ init, OverCols df cf r) (hi0 : [] ∉ init) (pos neg : List Label)
    (hpos : ∀ l ∈ pos, l ∈ df.index) (hneg : ∀ l ∈ neg, l ∈ df.index) (fuel : Nat) (g : R.G) (st : RipSt R)
    (h : ripperGrowCn fuel R cn hp init pos neg g = .ok st) :
    ∃ added, st.rules = init ++ added ∧
      (∀ l, l ∈ st.pos ↔ l ∈ pos ∧ ¬ ∃ r ∈ added, Covered df r l) ∧
      (∀ l, l ∈ st.neg ↔ l ∈ neg ∧ ¬ ∃ r ∈ added, Covered df r l) ∧
      (st.pos = [] ∨
       (∃ d, Excess (growBits df cn.conds.length init added pos neg) added.length d ∧ (hp.dlAllowance : ℝ) < d) ∨
       (∃ k, hp.lim.maxRules = some k ∧ k ≤ (st.rules.length : Int)) ∨
       (∃ k, hp.lim.maxTotalConds = some k ∧ k ≤ ((st.rules.map List.length).sum : Nat)) ∨
       (∃ k, hp.lim.minRulesetSamples = some k ∧ ((st.pos.length + st.neg.length : Nat) : Int) < k) ∨
       ∃ ps g', hp.pruneSize = some ps ∧
        (let s := randomSplit R g' st.pos (Arith.complement ps) hp.randomState
         let t := randomSplit R s.2.2 st.neg (Arith.complement ps) hp.randomState
         s.1 = [] ∨ growRuleCn fuel cn hp.lim s.1 t.1 [] = .ok [])) := by
  have hw := CatNap.build_WF hb
  have key : ∃ s s', RipReach fuel R cn hp pos neg ⟨init, pos, neg, none, Arith.zeroDl, g⟩ s ∧
      ripperStepCn fuel R cn hp pos neg s = .ok (.done s') ∧ s' = st := by
    unfold ripperGrowCn at h
    refine pyWhile_inv (I := fun s => RipReach fuel R cn hp pos neg ⟨init, pos, neg, none, Arith.zeroDl, g⟩ s)
      (Q := fun a => ∃ s s', RipReach fuel R cn hp pos neg ⟨init, pos, neg, none, Arith.zeroDl, g⟩ s ∧
        ripperStepCn fuel R cn hp pos neg s = .ok (.done s') ∧ s' = a) ?_ ?_ fuel _ st .start h
    · intro s s' hI hb'
      obtain ⟨rule, ha⟩ := ripperStepCn_more hb'
      exact .add hI ha
    · intro s a hI hb'
      exact ⟨s, a, hI, hb', rfl⟩
  obtain ⟨s, s', hs, hdone, rfl⟩ := key
  obtain ⟨e1, e2, e3⟩ := ripperStepCn_done hdone
  obtain ⟨added, hG, hov⟩ := hs.growDl hb hu hi hi0 hpos hneg
  refine ⟨added, by rw [e1, hG.rules], ?_, ?_, ?_⟩
  · rw [e2]
    have : ∀ s, RipReach fuel R cn hp pos neg ⟨init, pos, neg, none, Arith.zeroDl, g⟩ s → ∃ ad, s.rules = init ++ ad ∧
        ∀ l, l ∈ s.pos ↔ l ∈ pos ∧ ¬ ∃ r ∈ ad, Covered df r l := by
      intro s hs
      induction hs with
      | start => exact ⟨[], by simp, by simp⟩
      | @add s s' rule hs ha ih =>
        obtain ⟨ad, h1, h2⟩ := ih
        refine ⟨ad ++ [rule], by rw [ha.rules, h1, List.append_assoc], ?_⟩
        intro l
        have hrule : OverCols df cf rule := (overCols_closed hb).add hw ha
        rw [ha.pos, setDiff_ruleCovers, List.mem_filter, h2]
        have hhit : cn.hit rule l = true ↔ Covered df rule l := CatNap.hit_iff hb hu hrule
        simp only [Bool.not_eq_true', ← Bool.not_eq_true, hhit, List.mem_append, List.mem_singleton, or_and_right,
          exists_or, exists_eq_left, not_or]
        tauto
    obtain ⟨ad, h1, h2⟩ := this s hs
    have : ad = added := List.append_cancel_left (h1.symm.trans hG.rules)
    subst this; exact h2
  · rw [e3]
    have : ∀ s, RipReach fuel R cn hp pos neg ⟨init, pos, neg, none, Arith.zeroDl, g⟩ s → ∃ ad, s.rules = init ++ ad ∧
        ∀ l, l ∈ s.neg ↔ l ∈ neg ∧ ¬ ∃ r ∈ ad, Covered df r l := by
      intro s hs
      induction hs with
      | start => exact ⟨[], by simp, by simp⟩
      | @add s s' rule hs ha ih =>
        obtain ⟨ad, h1, h2⟩ := ih
        refine ⟨ad ++ [rule], by rw [ha.rules, h1, List.append_assoc], ?_⟩
        intro l
        have hrule : OverCols df cf rule := (overCols_closed hb).add hw ha
        rw [ha.neg, setDiff_ruleCovers, List.mem_filter, h2]
        have hhit : cn.hit rule l = true ↔ Covered df rule l := CatNap.hit_iff hb hu hrule
        simp only [Bool.not_eq_true', ← Bool.not_eq_true, hhit, List.mem_append, List.mem_singleton, or_and_right,
          exists_or, exists_eq_left, not_or]
        tauto
    obtain ⟨ad, h1, h2⟩ := this s hs
    have : ad = added := List.append_cancel_left (h1.symm.trans hG.rules)
    subst this; exact h2
  · rw [e1, e2, e3]
    rcases ripperStepCn_done_why hdone with h | h | h | ⟨ps, hps, h⟩
    · exact Or.inl h
    · right; left
      obtain ⟨d, hd, hex⟩ := hG.diff
      refine ⟨d, hex, ?_⟩
      by_contra hc
      have := (withinAllowance_bits (a := hp.dlAllowance) hd).mpr (not_lt.mp hc)
      exact absurd (h.symm.trans this) (by simp)
    · right; right
      unfold stopEarly at h
      simp only [Bool.or_eq_true] at h
      rcases h with (h | h) | h
      · left
        unfold atLeast at h
        split at h
        · cases h
        · rename_i k hk; exact ⟨k, hk, by simpa using h⟩
      · right; left
        unfold atLeast at h
        split at h
        · cases h
        · rename_i k hk; exact ⟨k, hk, by simpa [countConds] using h⟩
      · right; right; left
        unfold below at h
        split at h
        · cases h
        · rename_i k hk; exact ⟨k, hk, by simpa using h⟩
    · exact Or.inr (Or.inr (Or.inr (Or.inr (Or.inr ⟨ps, s.g, hps, h⟩))))

/-- The hypotheses are met: growing on all rows of `Demo.conj` adds a rule and covers every positive. -/
example : ∀ cn, CatNap.build Demo.conj Demo.fc = .ok cn →
    (ripperGrowCn 19 Demo.R0 cn { pruneSize := some (1 / 2) } [] (labelSet (posRows Demo.conj Demo.fc Demo.vp).index)
      (labelSet (negRows Demo.conj Demo.fc Demo.vp).index) ()).map (fun s => (s.rules, s.pos)) =
    .ok ([[⟨Demo.fa, Demo.vx⟩, ⟨Demo.fb, Demo.vx⟩]], []) := by
  intro cn h
  have : CatNap.build Demo.conj Demo.fc = .ok _ := CatNap.build_ok (by decide +kernel)
  rw [this] at h
  injection h with h
  subst h
  decide +kernel

end Witt
