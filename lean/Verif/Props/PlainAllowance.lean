import Verif.Props.Allowance
import Verif.Props.PlainOptimize
/-
C106: when RIPPER's growing phase goes on and when it stops, with `cn_optimize=False`.
-/
namespace Witt
open Spec

namespace Spec
/-- Description length after the first `i` rules of `added` were added to `init`, with `cn_optimize=False`: the bits of these
rules (the initial ones are not counted) and of the exceptions to all rules, in which a row counts once for each rule that
covers it. -/
noncomputable def plainGrowBits (n : Nat) (init added : List (List Cond)) (pos neg : Frame) (i : Nat) : ℝ :=
  theoryBits n (added.take i) + plainExceptionBits (init ++ added.take i) pos neg
end Spec

variable {fuel : Nat} {R : PyRandom} {cands : List Cond} {hp : Hyper}

/-- What holds of the numbers kept in every state of the growing phase. -/
structure PlainDl (n : Nat) (a : Rat) (init : List (List Cond)) (pos neg : Frame)
    (s : FrameRipSt R) (added : List (List Cond)) : Prop where
  rules : s.rules = init ++ added
  first : added = [] → s.dl = none
  dl : added ≠ [] → ∃ t m mb, s.dl = some (t, m) ∧ StandsFor t (theoryBits n added) ∧ StandsFor m mb ∧
    (∃ j, 1 ≤ j ∧ j ≤ added.length ∧ mb = plainGrowBits n init added pos neg j) ∧
    ∀ j, 1 ≤ j → j ≤ added.length → mb ≤ plainGrowBits n init added pos neg j
  diff : ∃ d, StandsFor s.diff d ∧ Excess (plainGrowBits n init added pos neg) added.length d
  past : ∀ i < added.length, ∃ d, Excess (plainGrowBits n init added pos neg) i d ∧ d ≤ (a : ℝ)

theorem plainGrowBits_append (n : Nat) (init added : List (List Cond)) (r : List Cond)
    (pos neg : Frame) {i : Nat} (hi : i ≤ added.length) :
    plainGrowBits n init (added ++ [r]) pos neg i = plainGrowBits n init added pos neg i := by
  unfold plainGrowBits
  rw [List.take_append_of_le_length hi]

theorem FrameRipReach.plainDl {init : List (List Cond)} {pos neg : Frame} {g : R.G} {s : FrameRipSt R}
    (h : FrameRipReach fuel R cands hp pos neg ⟨init, pos, neg, none, Arith.zeroDl, g⟩ s) :
    ∃ added, PlainDl cands.length hp.dlAllowance init pos neg s added := by
  induction h with
  | start =>
    refine ⟨[], ⟨by simp, fun _ => rfl, by simp, ⟨0, Spec.StandsFor.one, fun _ => rfl, by simp⟩, by simp⟩⟩
  | @add s s' rule hs ha ih =>
    obtain ⟨added, hG⟩ := ih
    refine ⟨added ++ [rule], ?_⟩
    obtain ⟨ruleDl, dataDl, h1, h2, h3, h4⟩ := ha.dl
    have b1 := ruleTheory_bits h1
    rw [hG.rules, List.append_assoc] at h2
    have b2 := exceptionsDf_bits h2
    have hlen : (added ++ [rule]).length = added.length + 1 := by simp
    have hD : ∀ i ≤ added.length, plainGrowBits cands.length init (added ++ [rule]) pos neg i =
        plainGrowBits cands.length init added pos neg i := fun i hi => plainGrowBits_append _ _ _ _ _ _ hi
    have hfull : plainGrowBits cands.length init (added ++ [rule]) pos neg (added.length + 1) =
        theoryBits cands.length added + ruleBits cands.length rule.length +
          plainExceptionBits (init ++ (added ++ [rule])) pos neg := by
      unfold plainGrowBits
      rw [List.take_of_length_le (by simp), theoryBits_append]
      simp [theoryBits]
    obtain ⟨d, hd, hex⟩ := hG.diff
    have hpast : ∀ i < (added ++ [rule]).length, ∃ d,
        Excess (plainGrowBits cands.length init (added ++ [rule]) pos neg) i d ∧ d ≤ (hp.dlAllowance : ℝ) := by
      intro i hil
      rw [hlen] at hil
      rcases Nat.lt_or_ge i added.length with h | h
      · obtain ⟨d, h1, h2⟩ := hG.past i h
        exact ⟨d, h1.congr (fun j hj => hD j (by omega)), h2⟩
      · have : i = added.length := by omega
        subst this
        exact ⟨d, hex.congr (fun j hj => hD j hj), (withinAllowance_bits hd).mp ha.within⟩
    by_cases he : added = []
    · subst he
      have hn := hG.first rfl
      rw [hn] at h3 h4
      simp only [ripDl, Option.getD_none] at h3 h4
      have hz : d = 0 := hex.1 (by simp)
      have hb1 : StandsFor ruleDl (theoryBits cands.length [rule]) := by simpa [theoryBits] using b1
      simp only [List.nil_append, List.length_nil, zero_add] at hfull h2 b2 ⊢
      have hmb : StandsFor (ruleDl * dataDl) (plainGrowBits cands.length init [rule] pos neg 1) := by
        rw [hfull]
        have := b1.mul b2
        simpa [theoryBits] using this
      refine ⟨by rw [ha.rules, hG.rules]; simp, by simp, ?_, ?_, by simpa using hpast⟩
      · intro _
        refine ⟨_, _, _, h3, hb1, hmb, ⟨1, le_refl _, by simp, rfl⟩, ?_⟩
        intro j hj1 hj2
        simp only [List.length_cons, List.length_nil] at hj2
        have : j = 1 := by omega
        subst this; exact le_refl _
      · refine ⟨d, by rw [h4]; exact hd, fun _ => hz, ?_⟩
        intro h
        simp at h
    · obtain ⟨t, m, mb, hdl, ht, hm, ⟨j0, hj1, hj2, hj3⟩, hmin⟩ := hG.dl he
      rw [hdl] at h3 h4
      simp only [ripDl, Option.getD_some] at h3 h4
      have hbt : StandsFor (t * ruleDl) (theoryBits cands.length (added ++ [rule])) := by
        rw [theoryBits_append]
        have := ht.mul b1
        simpa [theoryBits] using this
      have htot : StandsFor (t * ruleDl * dataDl)
          (plainGrowBits cands.length init (added ++ [rule]) pos neg (added.length + 1)) := by
        rw [hfull]; exact (ht.mul b1).mul b2
      have hpos' : 1 ≤ added.length := List.length_pos_of_ne_nil he
      refine ⟨by rw [ha.rules, hG.rules, List.append_assoc], by simp, ?_, ?_, hpast⟩
      · intro _
        rw [hlen]
        by_cases hc : Arith.addDl (Arith.addDl t ruleDl) dataDl < m
        · rw [if_pos hc] at h3
          refine ⟨_, _, _, h3, hbt, htot, ⟨added.length + 1, by omega, le_refl _, rfl⟩, ?_⟩
          intro j h1 h2
          rcases Nat.lt_or_ge j (added.length + 1) with h | h
          · rw [hD j (by omega)]
            exact le_trans ((htot.lt_iff hm).mp hc).le (hmin j h1 (by omega))
          · have : j = added.length + 1 := by omega
            subst this; exact le_refl _
        · rw [if_neg hc] at h3
          refine ⟨_, _, _, h3, hbt, hm, ⟨j0, hj1, by omega, by rw [hD j0 hj2]; exact hj3⟩, ?_⟩
          intro j h1 h2
          rcases Nat.lt_or_ge j (added.length + 1) with h | h
          · rw [hD j (by omega)]; exact hmin j h1 (by omega)
          · have : j = added.length + 1 := by omega
            subst this
            exact (hm.le_iff htot).mp (not_lt.mp hc)
      · rw [hlen]
        refine ⟨_, by rw [h4]; exact htot.div hm, fun h => by omega, fun _ => ⟨⟨j0, hj1, by omega, ?_⟩, ?_⟩⟩
        · rw [hj3, hD j0 hj2]
        · intro j h1 h2
          rw [hD j (by omega)]
          have := hmin j h1 (by omega)
          linarith

/-- C106. With `cn_optimize=False` too, the growing phase of RIPPER adds rules one after the other to the given ones, and goes on
adding only while the description length is at most `dl_allowance` bits above the least one seen so far: for every rule added
after the first `i`, the description length after `i` rules exceeded the least one after fewer (but at least one) rules by at most
`dl_allowance`. -/
theorem C106_growth_within_allowance (R : PyRandom) (hp : Hyper) (cands : List Cond) (init : List (List Cond)) (pos neg : Frame)
    (fuel : Nat) (g : R.G) (st : FrameRipSt R) (h : ripperGrow fuel R cands hp init pos neg g = .ok st) :
    ∃ added, st.rules = init ++ added ∧ ∀ i < added.length, ∃ d,
      Excess (plainGrowBits cands.length init added pos neg) i d ∧ d ≤ (hp.dlAllowance : ℝ) := by
  obtain ⟨s, hs, h1, _⟩ := ripperGrow_reach h
  obtain ⟨added, hG⟩ := hs.plainDl
  exact ⟨added, by rw [h1, hG.rules], hG.past⟩

/-- Why an iteration stops the loop. -/
theorem ripperStep_done_why [Arith] {allPos allNeg : Frame} {st st' : FrameRipSt R}
    (h : ripperStep fuel R cands hp allPos allNeg st = .ok (.done st')) :
    st.pos.rows = [] ∨ Arith.within st.diff hp.dlAllowance = false ∨
    stopEarly hp.lim st.rules st.pos.rows.length st.neg.rows.length = true ∨
    ∃ ps, hp.pruneSize = some ps ∧
      (let s := dfShuffledSplit R st.g st.pos (Arith.complement ps) hp.randomState
       let t := dfShuffledSplit R s.2.2 st.neg (Arith.complement ps) hp.randomState
       s.1.rows = [] ∨ growRule fuel cands hp.lim s.1 t.1 [] = .ok []) := by
  unfold ripperStep at h
  split at h
  · rename_i hc
    rcases hc with h | h
    · exact Or.inl h
    · exact Or.inr (Or.inl (by simpa using h))
  split at h
  · rename_i hc; exact Or.inr (Or.inr (Or.inl hc))
  cases hps : hp.pruneSize with
  | none => rw [hps] at h; simp at h
  | some ps =>
    refine Or.inr (Or.inr (Or.inr ⟨ps, rfl, ?_⟩))
    intro s t
    simp only [hps] at h
    rcases hp1 : dfShuffledSplit R st.g st.pos (Arith.complement ps) hp.randomState with ⟨a, b, g1⟩
    rcases hp2 : dfShuffledSplit R g1 st.neg (Arith.complement ps) hp.randomState with ⟨c, d, g2⟩
    have hs : s = (a, b, g1) := hp1
    have ht : t = (c, d, g2) := by show dfShuffledSplit R s.2.2 st.neg (Arith.complement ps) hp.randomState = _; rw [hs]; exact hp2
    rw [hs, ht]
    simp only [hp1, hp2] at h ⊢
    split at h
    · rename_i ha; exact Or.inl ha
    obtain ⟨grown, hg, h⟩ := bind_ok_iff.mp h
    split at h
    · rename_i hgn; subst hgn; exact Or.inr hg
    · obtain ⟨o, ho, h⟩ := bind_ok_iff.mp h
      cases o with
      | none => cases h
      | some pruned =>
        simp only at h
        obtain ⟨_, _, h⟩ := bind_ok_iff.mp h
        obtain ⟨_, _, h⟩ := bind_ok_iff.mp h
        obtain ⟨_, _, h⟩ := bind_ok_iff.mp h
        simp [pure_eq_ok] at h

/-- With distinct labels, dropping the labels of the rows a rule fires on leaves the other rows. -/
theorem dropLabels_hit {d : Frame} (hu : d.UniqueIndex) (rule : List Cond) :
    (d.dropLabels (hitLabels rule d)).rows = d.rows.filter (fun row => !decide (FiresC row rule)) := by
  unfold Frame.dropLabels
  rw [Frame.keep_rows]
  apply List.filter_congr
  intro row hrow
  congr 1
  rw [Bool.eq_iff_iff, List.contains_iff_mem, mem_hitLabels, decide_eq_true_eq]
  constructor
  · rintro ⟨row', h1, h2, h3⟩
    have : row' = row := row_eq_of_label hu h1 hrow h3
    subst this
    exact condsMet_iff.mp h2
  · intro h
    exact ⟨row, hrow, condsMet_iff.mpr h, rfl⟩

theorem FrameRipReach.left [Arith] {init : List (List Cond)} {pos neg : Frame} (hup : pos.UniqueIndex) (hun : neg.UniqueIndex) {dl : Option (Rat × Rat)}
    {x : Rat} {g : R.G} {s : FrameRipSt R}
    (h : FrameRipReach fuel R cands hp pos neg ⟨init, pos, neg, dl, x, g⟩ s) :
    ∃ added, s.rules = init ++ added ∧ s.pos.UniqueIndex ∧ s.neg.UniqueIndex ∧
      s.pos.rows = pos.rows.filter (fun row => !decide (∃ r ∈ added, FiresC row r)) ∧
      s.neg.rows = neg.rows.filter (fun row => !decide (∃ r ∈ added, FiresC row r)) := by
  induction h with
  | start => exact ⟨[], by simp, hup, hun, by simp, by simp⟩
  | @add s s' rule hs ha ih =>
    obtain ⟨added, h1, h2, h3, h4, h5⟩ := ih
    have key : ∀ rows : List Row, (rows.filter (fun row => !decide (∃ r ∈ added, FiresC row r))).filter
        (fun row => !decide (FiresC row rule)) = rows.filter (fun row => !decide (∃ r ∈ added ++ [rule], FiresC row r)) := by
      intro rows
      rw [List.filter_filter]
      apply List.filter_congr
      intro row _
      rw [Bool.eq_iff_iff]
      simp only [Bool.and_eq_true, Bool.not_eq_true', decide_eq_false_iff_not, List.mem_append, List.mem_singleton, or_and_right,
        exists_or, exists_eq_left, not_or]
      tauto
    refine ⟨added ++ [rule], by rw [ha.rules, h1, List.append_assoc], ?_, ?_, ?_, ?_⟩
    · rw [ha.pos]; exact dropLabels_unique h2
    · rw [ha.neg]; exact dropLabels_unique h3
    · rw [ha.pos, dropLabels_hit h2, h4, key]
    · rw [ha.neg, dropLabels_hit h3, h5, key]

/-- C106. With `cn_optimize=False` too, the growing phase stops only for a reason: every positive it was given is covered by an added
rule, or the description length exceeded the least one seen by more than `dl_allowance`, or a limit of `max_rules`,
`max_total_conds`, `min_ruleset_samples` was reached, or the growing part of the remaining positives was empty, or the rule grown was
empty. The rows it leaves are exactly those no added rule fires on. -/
theorem C106_growth_stops_for_a_reason (R : PyRandom) (hp : Hyper) (cands : List Cond) (init : List (List Cond)) (pos neg : Frame)
    (hup : pos.UniqueIndex) (hun : neg.UniqueIndex) (fuel : Nat) (g : R.G) (st : FrameRipSt R)
    (h : ripperGrow fuel R cands hp init pos neg g = .ok st) :
    ∃ added, st.rules = init ++ added ∧
      st.pos.rows = pos.rows.filter (fun row => !decide (∃ r ∈ added, FiresC row r)) ∧
      st.neg.rows = neg.rows.filter (fun row => !decide (∃ r ∈ added, FiresC row r)) ∧
      (st.pos.rows = [] ∨
       (∃ d, Excess (plainGrowBits cands.length init added pos neg) added.length d ∧ (hp.dlAllowance : ℝ) < d) ∨
       (∃ k, hp.lim.maxRules = some k ∧ k ≤ (st.rules.length : Int)) ∨
       (∃ k, hp.lim.maxTotalConds = some k ∧ k ≤ ((st.rules.map List.length).sum : Nat)) ∨
       (∃ k, hp.lim.minRulesetSamples = some k ∧ ((st.pos.rows.length + st.neg.rows.length : Nat) : Int) < k) ∨
       ∃ ps g', hp.pruneSize = some ps ∧
        (let s := dfShuffledSplit R g' st.pos (Arith.complement ps) hp.randomState
         let t := dfShuffledSplit R s.2.2 st.neg (Arith.complement ps) hp.randomState
         s.1.rows = [] ∨ growRule fuel cands hp.lim s.1 t.1 [] = .ok [])) := by
  have key : ∃ s s', FrameRipReach fuel R cands hp pos neg ⟨init, pos, neg, none, Arith.zeroDl, g⟩ s ∧
      ripperStep fuel R cands hp pos neg s = .ok (.done s') ∧ s' = st := by
    unfold ripperGrow at h
    refine pyWhile_inv (I := fun s => FrameRipReach fuel R cands hp pos neg ⟨init, pos, neg, none, Arith.zeroDl, g⟩ s)
      (Q := fun a => ∃ s s', FrameRipReach fuel R cands hp pos neg ⟨init, pos, neg, none, Arith.zeroDl, g⟩ s ∧
        ripperStep fuel R cands hp pos neg s = .ok (.done s') ∧ s' = a) ?_ ?_ fuel _ st .start h
    · intro s s' hI hb'
      obtain ⟨rule, ha⟩ := ripperStep_more hb'
      exact .add hI ha
    · intro s a hI hb'
      exact ⟨s, a, hI, hb', rfl⟩
  obtain ⟨s, s', hs, hdone, rfl⟩ := key
  obtain ⟨e1, e2, e3⟩ := ripperStep_done hdone
  obtain ⟨added, hG⟩ := hs.plainDl
  obtain ⟨added', l1, -, -, l2, l3⟩ := hs.left hup hun
  have : added' = added := List.append_cancel_left (l1.symm.trans hG.rules)
  subst this
  refine ⟨added', by rw [e1, hG.rules], by rw [e2]; exact l2, by rw [e3]; exact l3, ?_⟩
  rw [e1, e2, e3]
  rcases ripperStep_done_why hdone with h | h | h | ⟨ps, hps, h⟩
  · exact Or.inl h
  · right; left
    obtain ⟨d, hd, hex⟩ := hG.diff
    refine ⟨d, hex, ?_⟩
    by_contra hc
    have := (withinAllowance_bits (a := hp.dlAllowance) hd).mpr (not_lt.mp hc)
    exact absurd (h.symm.trans this) (by simp)
  · right; right
    unfold stopEarly at h
    simp only [Bool.or_eq_true] at h
    rcases h with (h | h) | h
    · left
      unfold atLeast at h
      split at h
      · cases h
      · rename_i k hk; exact ⟨k, hk, by simpa using h⟩
    · right; left
      unfold atLeast at h
      split at h
      · cases h
      · rename_i k hk; exact ⟨k, hk, by simpa [countConds] using h⟩
    · right; right; left
      unfold below at h
      split at h
      · cases h
      · rename_i k hk; exact ⟨k, hk, by simpa using h⟩
  · exact Or.inr (Or.inr (Or.inr (Or.inr (Or.inr ⟨ps, s.g, hps, h⟩))))

/-- The hypotheses are met: growing on all rows of `Demo.conj` adds a rule and covers every positive. -/
example : (posExamples Demo.conj Demo.fc Demo.vp).index.Nodup ∧ (negExamples Demo.conj Demo.fc Demo.vp).index.Nodup ∧
    (ripperGrow 19 Demo.R0 [⟨Demo.fa, Demo.vx⟩, ⟨Demo.fb, Demo.vx⟩, ⟨Demo.fb, Demo.vy⟩] { pruneSize := some (1 / 2) } []
      (posExamples Demo.conj Demo.fc Demo.vp) (negExamples Demo.conj Demo.fc Demo.vp) ()).toOption.map (fun s => (s.rules, s.pos.rows.length)) =
    some ([[⟨Demo.fa, Demo.vx⟩, ⟨Demo.fb, Demo.vx⟩]], 0) := by
  refine ⟨by decide +kernel, by decide +kernel, by decide +kernel⟩

end Witt
