import Mathlib.RingTheory.Binomial
import Verif.Props.Optimize
import Verif.Props.Plain
/-
C80: RIPPER with `cn_optimize=False`: simplification and optimisation by description length in bits.
-/
namespace Witt
open Spec

namespace Spec

/-- How often rows of `d` are covered: a row counts once for each rule that fires on it (twice if two rules fire), unless
some rule has no conditions, in which case every row counts once. -/
def timesCovered (rules : List (List Cond)) (d : Frame) : Nat :=
  if [] ∈ rules then d.rows.length else (rules.map (fun r => d.rows.countP (fun row => decide (FiresC row r)))).sum

/-- Bits to name the exceptions, counting rows as `timesCovered` does (ripper.py 1281-1306). `Ring.choose` is the binomial
coefficient `n (n-1) ... (n-k+1) / k!`, also for negative `n`. -/
noncomputable def plainExceptionBits (rules : List (List Cond)) (pos neg : Frame) : ℝ :=
  let tp : ℤ := timesCovered rules pos
  let fp : ℤ := timesCovered rules neg
  Real.logb 2 (Ring.choose (tp + fp) fp.toNat : ℤ) +
    Real.logb 2 (Ring.choose (pos.rows.length + neg.rows.length - (tp + fp)) (pos.rows.length - tp).toNat : ℤ)

/-- Description length, with `n` possible conditions. -/
noncomputable def plainBits (n : Nat) (rules : List (List Cond)) (pos neg : Frame) : ℝ :=
  theoryBits n rules + plainExceptionBits rules pos neg

/-- The rules the simplification keeps: the first, and each later one whose addition to all the rules before it does not
increase the description length; in order. -/
noncomputable def plainSimplified (n : Nat) (rules : List (List Cond)) (pos neg : Frame) : List (List Cond) :=
  ((List.range rules.length).filter (fun i => @decide (i = 0 ∨
    plainBits n (rules.take (i + 1)) pos neg ≤ plainBits n (rules.take i) pos neg) (Classical.dec _))).filterMap
      (fun i => rules[i]?)

/-- Share of rows a ruleset classifies correctly on pruning examples, counting rows as `timesCovered` does. -/
def plainAccuracy (rules : List (List Cond)) (pos neg : Frame) : ℚ :=
  (timesCovered rules pos + (neg.rows.length - timesCovered rules neg)) / (pos.rows.length + neg.rows.length)

end Spec

/-! ### counting -/

theorem parts_length {d : Frame} : ∀ {rules : List (List Cond)} {parts : List Frame},
    (rules.map (fun c => ({ conds := c } : Rule))).mapM (fun r => r.covers d) = .ok parts →
    (parts.map Frame.rows).flatten.length = (rules.map (fun r => d.rows.countP (fun row => decide (FiresC row r)))).sum := by
  intro rules
  induction rules with
  | nil => intro parts h; simp only [List.map_nil, List.mapM_nil, pure_eq_ok, Except.ok.injEq] at h; subst h; rfl
  | cons r rs ih =>
    intro parts h
    simp only [List.map_cons, List.mapM_cons] at h
    obtain ⟨p, h1, h⟩ := bind_ok_iff.mp h
    obtain ⟨ps, h2, h⟩ := bind_ok_iff.mp h
    simp only [pure_eq_ok, Except.ok.injEq] at h
    subst h
    simp only [List.map_cons, List.flatten_cons, List.length_append, List.sum_cons]
    rw [ih h2]
    congr 1
    rcases condsCover_cases r d with ⟨e, _⟩ | ⟨e, _⟩
    · rw [Rule.covers, e] at h1
      injection h1 with h1
      subst h1
      rw [Frame.keep_rows, ← List.countP_eq_length_filter]
      congr 1
      funext row
      rw [Bool.eq_iff_iff, condsMet_iff, decide_eq_true_eq]
    · rw [Rule.covers, e] at h1; cases h1

theorem rulesNumCovered_times {rules : List (List Cond)} {d : Frame} {k : Nat} (h : rulesNumCovered rules d = .ok k) :
    k = timesCovered rules d := by
  unfold rulesNumCovered Ruleset.numCovered Ruleset.covers at h
  unfold timesCovered
  have hu : ({ rules := rules.map (fun c => { conds := c }) } : Ruleset).isUniversal = true ↔ [] ∈ rules := by
    rw [Ruleset.isUniversal_iff]
    simp
  by_cases hm : [] ∈ rules
  · rw [if_pos (hu.mpr hm)] at h
    simp only [ok_bind, pure_eq_ok, Except.ok.injEq] at h
    rw [if_pos hm]; exact h.symm
  · rw [if_neg (fun e => hm (hu.mp e))] at h
    rw [if_neg hm]
    split at h
    · rename_i hn
      simp only [Ruleset.isNull, List.length_map, beq_iff_eq, List.length_eq_zero_iff] at hn
      subst hn
      simp only [ok_bind, pure_eq_ok, Except.ok.injEq] at h
      simpa using h.symm
    · obtain ⟨d', h1, h⟩ := bind_ok_iff.mp h
      obtain ⟨parts, h2, h1⟩ := bind_ok_iff.mp h1
      simp only [pure_eq_ok, Except.ok.injEq] at h h1
      subst h1
      rw [← h]
      exact parts_length h2

theorem prod_desc_int (n : Int) (r : Nat) :
    ((List.range r).map (fun (i : Nat) => n - (i : Int))).prod = (r.factorial : Int) * Ring.choose n r := by
  have h := Ring.descPochhammer_eq_factorial_smul_choose n r
  rw [nsmul_eq_mul] at h
  rw [← h, ← Polynomial.eval_eq_smeval]
  clear h
  induction r with
  | zero => simp
  | succ r ih =>
    rw [List.range_succ, List.map_append, List.prod_append, ih, descPochhammer_succ_eval]
    simp

/-- The code's `nCr` is the binomial coefficient, also for negative `n` (and takes a negative `r` for 0). -/
theorem nCr_choose (n r : Int) : nCr n r = Ring.choose n r.toNat := by
  unfold nCr
  rw [pyProduct_eq, pyProduct_eq, prod_desc_int, prod_fact, Int.fdiv_eq_ediv_of_nonneg _ (by positivity),
    Int.mul_ediv_cancel_left _ (by positivity)]

theorem log2Exp_bits_int {c : Int} {v : Rat} (h : log2Exp c = .ok v) : StandsFor v (Real.logb 2 c) := by
  have hc : 0 < c := by
    unfold log2Exp at h
    split at h
    · cases h
    · omega
  obtain ⟨n, rfl⟩ := Int.eq_ofNat_of_zero_le hc.le
  simpa using log2Exp_bits h

theorem exceptionsDf_bits {rules : List (List Cond)} {pos neg : Frame} {v : Rat}
    (h : exceptionsDf rules pos neg = .ok v) : StandsFor v (plainExceptionBits rules pos neg) := by
  unfold exceptionsDf at h
  obtain ⟨tp, h1, h⟩ := bind_ok_iff.mp h
  obtain ⟨fp, h2, h⟩ := bind_ok_iff.mp h
  obtain ⟨x, hx, h⟩ := bind_ok_iff.mp h
  obtain ⟨y, hy, h⟩ := bind_ok_iff.mp h
  simp only [pure_eq_ok, Except.ok.injEq] at h
  subst h
  have e1 := rulesNumCovered_times h1
  have e2 := rulesNumCovered_times h2
  subst e1; subst e2
  rw [nCr_choose] at hx hy
  exact (log2Exp_bits_int hx).mul (log2Exp_bits_int hy)

theorem totalBitsDf_bits {n : Nat} {rules : List (List Cond)} {pos neg : Frame} {v : Rat}
    (h : totalBitsDf n rules pos neg = .ok v) : StandsFor v (plainBits n rules pos neg) := by
  unfold totalBitsDf at h
  obtain ⟨x, hx, h⟩ := bind_ok_iff.mp h
  obtain ⟨y, hy, h⟩ := bind_ok_iff.mp h
  simp only [pure_eq_ok, Except.ok.injEq] at h
  subst h
  exact (rsTheory_bits hx).mul (exceptionsDf_bits hy)

theorem subsetDlsDf_spec [Arith] {n : Nat} {pos neg : Frame} : ∀ (rules : List (List Cond)) (t : Rat)
    (done : List (List Cond)) (dls : List Rat), rsTheory n done = .ok t →
    subsetDlsDf n pos neg t done rules = .ok dls →
    ∀ i d, dls[i]? = some d → totalBitsDf n (done ++ rules.take (i + 1)) pos neg = .ok d := by
  intro rules
  induction rules with
  | nil =>
    intro t done dls _ h i d hd
    simp only [subsetDlsDf, Except.ok.injEq] at h; subst h; simp at hd
  | cons r rs ih =>
    intro t done dls ht h i d hd
    rw [subsetDlsDf] at h
    obtain ⟨x, hx, h⟩ := bind_ok_iff.mp h
    obtain ⟨y, hy, h⟩ := bind_ok_iff.mp h
    obtain ⟨z, hz, h⟩ := bind_ok_iff.mp h
    simp only [pure_eq_ok, Except.ok.injEq] at h
    subst h
    have ht' := rsTheory_snoc ht hx
    cases i with
    | zero =>
      simp only [List.getElem?_cons_zero, Option.some.injEq] at hd
      subst hd
      simp only [List.take_succ_cons, List.take_zero]
      unfold totalBitsDf
      rw [ht', ok_bind, hy, ok_bind, pure_eq_ok]
    | succ i =>
      simp only [List.getElem?_cons_succ] at hd
      have := ih _ _ _ ht' hz i d hd
      rw [List.append_assoc] at this
      exact this

/-! ### the theorems -/

/-- C80, simplification. With `cn_optimize=False`, simplifying a ruleset by description length keeps the first rule and, of
the later ones, exactly those whose addition to all the rules before it does not increase the description length in bits; the
number it reports is the description length of the rules kept. -/
theorem C80_plain_simplification (n : Nat) (rules out : List (List Cond)) (pos neg : Frame) (total : Rat)
    (h : bestSubsetDf n rules pos neg = .ok (out, total)) :
    out = plainSimplified n rules pos neg ∧ StandsFor total (plainBits n out pos neg) := by
  unfold bestSubsetDf at h
  obtain ⟨dls, hd, h⟩ := bind_ok_iff.mp h
  obtain ⟨t, ht, h⟩ := bind_ok_iff.mp h
  simp only [pure_eq_ok, Except.ok.injEq, Prod.mk.injEq] at h
  obtain ⟨rfl, rfl⟩ := h
  refine ⟨?_, totalBitsDf_bits ht⟩
  have hlen := subsetDlsDf_length rules _ _ _ hd
  have hdl : ∀ i < rules.length, StandsFor (dls[i]?.getD 0) (plainBits n (rules.take (i + 1)) pos neg) := by
    intro i hi
    have := subsetDlsDf_spec rules 1 [] dls rfl hd i (dls[i]?.getD 0) (by
      rw [List.getElem?_eq_getElem (by omega)]; rfl)
    simp only [List.nil_append] at this
    exact totalBitsDf_bits this
  rw [mdlFilter_positions rules dls hlen, plainSimplified]
  congr 1
  apply List.filter_congr
  intro i hi
  rw [List.mem_range] at hi
  rw [Bool.eq_iff_iff, decide_eq_true_eq, @decide_eq_true_eq _ (Classical.dec _)]
  cases i with
  | zero => simp
  | succ i =>
    have := (hdl (i + 1) hi).le_iff (hdl i (by omega))
    simp only [Nat.succ_ne_zero, false_or, Nat.add_sub_cancel]
    exact this

/-- Bits of an alternative for rule `i`: those of the simplification of the ruleset with it in place of the rule; an
alternative that prints like the rule counts `odl`. -/
noncomputable def Spec.plainAltBits (n : Nat) (rules : List (List Cond)) (i : Nat) (rule : List Cond) (odl : ℝ)
    (pos neg : Frame) (alt : Option (List Cond)) : ℝ :=
  @ite _ (∃ r, alt = some r ∧ PrintsAs r rule) (Classical.dec _) odl
    (plainBits n (plainSimplified n (exchanged rules i alt) pos neg) pos neg)

theorem rulesetAccuracy_some {rules : List (List Cond)} {pos neg : Frame} {v : Rat}
    (h : rulesetAccuracy rules pos neg = .ok (some v)) : v = plainAccuracy rules pos neg := by
  unfold rulesetAccuracy at h
  simp only at h
  split at h
  · simp at h
  · obtain ⟨tp, h1, h⟩ := bind_ok_iff.mp h
    obtain ⟨fp, h2, h⟩ := bind_ok_iff.mp h
    simp only [pure_eq_ok, Except.ok.injEq, Option.some.injEq] at h
    rw [← h, plainAccuracy, rulesNumCovered_times h1, rulesNumCovered_times h2]
    have e : ∀ a b : Int, Arith.quot a b = (a : Rat) / b := fun _ _ => rfl
    rw [e]; push_cast; rfl

theorem firstLeast_of_argmin {A : Type} {a0 a1 a2 : A} {x y z : Rat} {u v w : ℝ} (hx : StandsFor x u) (hy : StandsFor y v)
    (hz : StandsFor z w) {n : Nat} (h : argmin (fun a b => decide (a < b)) [x, y, z] = .ok n) {a : A}
    (ha : [a0, a1, a2][n]? = some a) : FirstLeast [(a0, u), (a1, v), (a2, w)] a := by
  obtain ⟨m, t, hm, hv, hle, hlt⟩ := (C44_argmin [x, y, z]).2 (by simp)
  rw [h] at hm
  injection hm with hm
  subst hm
  have l0 := hle x (by simp)
  have l1 := hle y (by simp)
  have l2 := hle z (by simp)
  have hn : n < 3 := by simpa using (List.getElem?_eq_some_iff.mp hv).1
  obtain rfl | rfl | rfl : n = 0 ∨ n = 1 ∨ n = 2 := by omega
  · simp only [List.getElem?_cons_zero, Option.some.injEq] at hv ha
    subst hv; subst ha
    refine ⟨0, u, rfl, ?_, by intro j p hj; omega⟩
    simp only [List.mem_cons, List.not_mem_nil, or_false]
    rintro p (rfl | rfl | rfl)
    · exact le_refl _
    · exact (hx.le_iff hy).mp l1
    · exact (hx.le_iff hz).mp l2
  · simp only [List.getElem?_cons_succ, List.getElem?_cons_zero, Option.some.injEq] at hv ha
    subst hv; subst ha
    refine ⟨1, v, rfl, ?_, ?_⟩
    · simp only [List.mem_cons, List.not_mem_nil, or_false]
      rintro p (rfl | rfl | rfl)
      · exact (hy.le_iff hx).mp l0
      · exact le_refl _
      · exact (hy.le_iff hz).mp l2
    · intro j p hj hp'
      obtain rfl : j = 0 := by omega
      simp only [List.getElem?_cons_zero, Option.some.injEq] at hp'
      subst hp'
      exact (hy.lt_iff hx).mp (hlt 0 x (by omega) rfl)
  · simp only [List.getElem?_cons_succ, List.getElem?_cons_zero, Option.some.injEq] at hv ha
    subst hv; subst ha
    refine ⟨2, w, rfl, ?_, ?_⟩
    · simp only [List.mem_cons, List.not_mem_nil, or_false]
      rintro p (rfl | rfl | rfl)
      · exact (hz.le_iff hx).mp l0
      · exact (hz.le_iff hy).mp l1
      · exact le_refl _
    · intro j p hj hp'
      obtain rfl | rfl : j = 0 ∨ j = 1 := by omega
      · simp only [List.getElem?_cons_zero, Option.some.injEq] at hp'
        subst hp'
        exact (hz.lt_iff hx).mp (hlt 0 x (by omega) rfl)
      · simp only [List.getElem?_cons_succ, List.getElem?_cons_zero, Option.some.injEq] at hp'
        subst hp'
        exact (hz.lt_iff hy).mp (hlt 1 y (by omega) rfl)

/-- C80, the choice for one rule. Whatever examples it is made on: a replacement (grown from nothing) and a revision (grown
from the rule) are each cut to the prefix with which the whole ruleset is most accurate on the pruning examples (the shortest
one on ties); the choice is the alternative among rule, replacement and revision whose ruleset has, after simplification, the
least description length on all training rows, the earliest on ties. The rule itself counts `odl`: by the next theorem the
length of the simplified ruleset before the pass. -/
theorem C80_plain_choice (fuel : Nat) (cands : List Cond) (hp : Hyper) (rules : List (List Cond)) (i : Nat)
    (rule best : List Cond) (hrule : rules[i]? = some rule) (pos neg : Frame) (x : Rat) (odl : ℝ) (hx : StandsFor x odl)
    (growPos prunePos growNeg pruneNeg : Frame)
    (h : optimizeChoiceDf fuel cands hp rules x i rule pos neg growPos prunePos growNeg pruneNeg = .ok best) :
    ∃ grownRep grownRev replacement revision,
      growRule fuel cands { minRuleSamples := hp.lim.minRuleSamples } growPos growNeg [] = .ok grownRep ∧
      growRule fuel cands { minRuleSamples := hp.lim.minRuleSamples } growPos growNeg rule = .ok grownRev ∧
      (∀ r, (replacement = some r →
          BestCut (fun r => plainAccuracy (exchanged rules i (some r)) prunePos pruneNeg) grownRep r) ∧
        (revision = some r →
          BestCut (fun r => plainAccuracy (exchanged rules i (some r)) prunePos pruneNeg) grownRev r)) ∧
      FirstLeast [(some rule, odl),
        (replacement, plainAltBits cands.length rules i rule odl pos neg replacement),
        (revision, plainAltBits cands.length rules i rule odl pos neg revision)] (some best) := by
  have hi : i < rules.length := (List.getElem?_eq_some_iff.mp hrule).1
  unfold optimizeChoiceDf at h
  obtain ⟨gRep, h1, h⟩ := bind_ok_iff.mp h
  obtain ⟨prRep, h2, h⟩ := bind_ok_iff.mp h
  obtain ⟨gRev, h3, h⟩ := bind_ok_iff.mp h
  obtain ⟨prRev, h4, h⟩ := bind_ok_iff.mp h
  obtain ⟨repDl, h5, h⟩ := bind_ok_iff.mp h
  obtain ⟨revDl, h6, h⟩ := bind_ok_iff.mp h
  obtain ⟨n, h7, h⟩ := bind_ok_iff.mp h
  have bits : ∀ (o : Option (List Cond)) (d : Rat),
      (if (match o with | none => false | some r => condsEq r rule) = true then (.ok x : Except PyErr Rat)
        else do return (← bestSubsetDf cands.length (iReplaced rules i o) pos neg).2) = .ok d →
      StandsFor d (plainAltBits cands.length rules i rule odl pos neg o) := by
    intro o d hd
    unfold plainAltBits
    cases o with
    | none =>
      rw [if_neg (by rintro ⟨r, hr, _⟩; cases hr)]
      simp only [Bool.false_eq_true, if_false] at hd
      obtain ⟨⟨out, t⟩, hb, hd⟩ := bind_ok_iff.mp hd
      simp only [pure_eq_ok, Except.ok.injEq] at hd
      subst hd
      have := C80_plain_simplification _ _ _ _ _ _ hb
      rw [← iReplaced_eq hi, ← this.1]; exact this.2
    | some r =>
      by_cases hr : condsEq r rule = true
      · simp only [hr, if_true, Except.ok.injEq] at hd
        subst hd
        rw [if_pos ⟨r, rfl, condsEq_prints.mp hr⟩]; exact hx
      · simp only [hr, if_false, Bool.false_eq_true] at hd
        rw [if_neg (by
          rintro ⟨r', hr', he⟩
          injection hr' with hr'
          subst hr'
          exact hr (condsEq_prints.mpr he))]
        obtain ⟨⟨out, t⟩, hb, hd⟩ := bind_ok_iff.mp hd
        simp only [pure_eq_ok, Except.ok.injEq] at hd
        subst hd
        have := C80_plain_simplification _ _ _ _ _ _ hb
        rw [← iReplaced_eq hi, ← this.1]; exact this.2
  have cut : ∀ (g : List Cond) (o : Option (List Cond)) (r : List Cond),
      pruneRuleOn (fun r => rulesetAccuracy (iReplaced rules i (some r)) prunePos pruneNeg) g (iReplaced rules i (some g)) i =
        .ok o → o = some r → BestCut (fun r => plainAccuracy (exchanged rules i (some r)) prunePos pruneNeg) g r := by
    intro g o r hg ho
    subst ho
    refine pruneRuleOn_best (fun k v _ hv => ?_) (iReplaced_getElem _ _ _ hi) hg
    rw [rulesetAccuracy_some hv, iReplaced_eq hi]
  refine ⟨gRep, gRev, prRep, prRev, h1, h3, fun r => ⟨cut _ _ r h2, cut _ _ r h4⟩, ?_⟩
  refine firstLeast_of_argmin hx (bits _ _ h5) (bits _ _ h6) h7 ?_
  split at h
  · simp only [pure_eq_ok, Except.ok.injEq] at h; subst h; rfl
  · cases prRep with
    | none => cases h
    | some r => simp only [pure_eq_ok, Except.ok.injEq] at h; subst h; rfl
  · rename_i hn0 hn1
    have hn : n < 3 := by
      obtain ⟨m, t, hm, hv, _⟩ := (C44_argmin [x, repDl, revDl]).2 (by simp)
      rw [h7] at hm
      injection hm with hm
      subst hm
      simpa using (List.getElem?_eq_some_iff.mp hv).1
    obtain rfl : n = 2 := by
      have : n ≠ 0 := fun e => hn0 e
      have : n ≠ 1 := fun e => hn1 e
      omega
    cases prRev with
    | none => cases h
    | some r => simp only [pure_eq_ok, Except.ok.injEq] at h; subst h; rfl

/-- C80, a whole pass. It returns as many rules as it was given; each is the rule at the same position or the choice made for
it, where the rule counts the description length of the simplified ruleset. -/
theorem C80_plain_pass (fuel : Nat) (R : PyRandom) (cands : List Cond) (hp : Hyper) (seed : Option Int)
    (rules out : List (List Cond)) (pos neg : Frame) (g g' : R.G)
    (h : optimizeDf fuel R cands hp seed rules pos neg g = .ok (out, g')) :
    out.length = rules.length ∧
    ∃ odl, StandsFor odl (plainBits cands.length (plainSimplified cands.length rules pos neg) pos neg) ∧
      ∀ j r', out[j]? = some r' → ∃ r, rules[j]? = some r ∧ (r' = r ∨ ∃ growPos prunePos growNeg pruneNeg,
        optimizeChoiceDf fuel cands hp rules odl j r pos neg growPos prunePos growNeg pruneNeg = .ok r') := by
  obtain ⟨mdl, odl, h1, h2, h3⟩ := optimizeDf_spec h
  have := C80_plain_simplification _ _ _ _ _ _ h1
  exact ⟨h2, odl, by rw [← this.1]; exact this.2, h3⟩

/-- C80, the pass does use its choices: when it comes to a rule with growing examples left and no limit reached, the rule is
exchanged for the choice made on the current split, unless a rule that prints like the choice is already in the new ruleset,
in which case the rule stays. -/
theorem C80_plain_pass_uses_choice [Arith] (fuel : Nat) (R : PyRandom) (cands : List Cond) (hp : Hyper) (ps : Rat)
    (seed : Option Int) (original : List (List Cond)) (odl : Rat) (allPos allNeg : Frame) (i : Nat) (rule : List Cond)
    (rest new out : List (List Cond)) (pos neg : Frame) (g g' : R.G) (hi : i < new.length)
    (h : optimizeLoopDf fuel R cands hp ps seed original odl allPos allNeg i (rule :: rest) new pos neg g = .ok (out, g')) :
    let s := dfShuffledSplit R g pos (Arith.complement ps) seed
    let t := dfShuffledSplit R s.2.2 neg (Arith.complement ps) seed
    (s.1.rows = [] ∨ stopEarly hp.lim new pos.rows.length neg.rows.length = true → out = new) ∧
    (s.1.rows ≠ [] → stopEarly hp.lim new pos.rows.length neg.rows.length = false →
      ∃ best, optimizeChoiceDf fuel cands hp original odl i rule allPos allNeg s.1 s.2.1 t.1 t.2.1 = .ok best ∧
        ((¬ ∃ r ∈ new, PrintsAs r best) → out[i]? = some best) ∧
        ((∃ r ∈ new, PrintsAs r best) → out[i]? = some rule)) := by
  intro s t
  rw [optimizeLoopDf] at h
  rcases hp1 : dfShuffledSplit R g pos (Arith.complement ps) seed with ⟨a, b, g1⟩
  rcases hp2 : dfShuffledSplit R g1 neg (Arith.complement ps) seed with ⟨c, d, g2⟩
  have hs : s = (a, b, g1) := hp1
  have ht : t = (c, d, g2) := by show dfShuffledSplit R s.2.2 neg (Arith.complement ps) seed = _; rw [hs]; exact hp2
  rw [hs, ht]
  simp only [hp1, hp2] at h ⊢
  refine ⟨?_, ?_⟩
  · intro hc
    by_cases ha : a.rows = []
    · rw [if_pos ha] at h
      simp only [pure_eq_ok, Except.ok.injEq, Prod.mk.injEq] at h
      exact h.1.symm
    · have hst : stopEarly hp.lim new pos.rows.length neg.rows.length = true := by
        rcases hc with h | h
        · exact absurd h ha
        · exact h
      rw [if_neg ha, if_pos hst] at h
      simp only [pure_eq_ok, Except.ok.injEq, Prod.mk.injEq] at h
      exact h.1.symm
  · intro ha hst
    rw [if_neg ha, if_neg (by rw [hst]; simp)] at h
    obtain ⟨best, hbest, h⟩ := bind_ok_iff.mp h
    obtain ⟨⟨pos', neg'⟩, _, h⟩ := bind_ok_iff.mp h
    refine ⟨best, hbest, ?_⟩
    generalize hv : (if (!condsIn best new) = true then best else rule) = v at h
    have hout : out[i]? = some v := by
      have hset : (new.set i v)[i]? = some v := by
        rw [List.getElem?_set_self (by simpa using hi)]
      simp only at h
      split at h
      · simp only [pure_eq_ok, Except.ok.injEq, Prod.mk.injEq] at h
        rw [← h.1]; exact hset
      · obtain ⟨h1, h2⟩ := optimizeLoopDf_spec _ _ _ _ _ _ _ _ h
        have hio : i < out.length := by rw [h1]; simpa using hi
        obtain ⟨x, hx⟩ : ∃ x, out[i]? = some x := ⟨_, List.getElem?_eq_getElem hio⟩
        rcases h2 i x hx with h | ⟨h, _⟩
        · rw [hset] at h; rw [hx, ← h]
        · omega
    have hin : condsIn best new = true ↔ ∃ r ∈ new, PrintsAs r best := by
      unfold condsIn
      simp only [List.any_eq_true, condsEq_prints]
    constructor
    · intro hno
      have : condsIn best new = false := by rw [← Bool.not_eq_true, hin]; exact hno
      rw [hout, ← hv, this]; simp
    · intro hyes
      rw [hout, ← hv, hin.mpr hyes]; simp

/-- C80, whole runs: training grows rules, optimises them, covers the remaining positives and ends with a simplification of
what it then has, over all training rows. -/
theorem C80_plain_fit_simplifies (fuel : Nat) (R : PyRandom) (S : SetOps) (hp : Hyper) (old : Option (List Cond))
    (init : List (List Cond)) (pos neg : Frame) (g g' : R.G) (out : List (List Cond))
    (h : ripperStagesDf fuel R S hp old init pos neg g = .ok (out, g')) :
    ∃ grown optimised g2 rules cands,
      ripperGrow fuel R (updatedConds S old pos neg) hp init pos neg g = .ok grown ∧
      stage2Df fuel R (updatedConds S old pos neg) hp pos neg hp.k.toNat grown.rules grown.g = .ok (optimised, g2) ∧
      coverRemainingDf fuel R S (updatedConds S old pos neg) hp optimised pos neg g2 = .ok (rules, cands, g') ∧
      out = plainSimplified cands.length rules pos neg := by
  obtain ⟨st, r2, r3, cands3, g2, dl, hs⟩ := ripperStagesDf_ok h
  exact ⟨st, r2, g2, r3, cands3, hs.grow, hs.optimize, hs.cover, (C80_plain_simplification _ _ _ _ _ _ hs.simplify).1⟩

/-- The double counting: never fewer than the rows some rule fires on, and as many when no row is covered twice. -/
theorem C80_times_covered (rules : List (List Cond)) (d : Frame) :
    d.rows.countP (fun row => decide (∃ r ∈ rules, FiresC row r)) ≤ timesCovered rules d ∧
    (rules.Pairwise (fun r r' => ∀ row ∈ d.rows, ¬ (FiresC row r ∧ FiresC row r')) →
      timesCovered rules d = d.rows.countP (fun row => decide (∃ r ∈ rules, FiresC row r))) := by
  unfold timesCovered
  split
  · rename_i hm
    have : d.rows.countP (fun row => decide (∃ r ∈ rules, FiresC row r)) = d.rows.length := by
      rw [List.countP_eq_length]
      intro row _
      simp only [decide_eq_true_eq]
      exact ⟨[], hm, by intro c hc; simp at hc⟩
    omega
  · clear * -
    induction rules with
    | nil => simp
    | cons r rs ih =>
      simp only [List.map_cons, List.sum_cons, List.pairwise_cons]
      have hle : ∀ l : List Row, l.countP (fun row => decide (∃ x ∈ r :: rs, FiresC row x)) ≤
          l.countP (fun row => decide (FiresC row r)) + l.countP (fun row => decide (∃ x ∈ rs, FiresC row x)) := by
        intro l
        induction l with
        | nil => simp
        | cons a l ihl =>
          rw [List.countP_cons, List.countP_cons, List.countP_cons]
          have : (if decide (∃ x ∈ r :: rs, FiresC a x) = true then 1 else 0) ≤
              (if decide (FiresC a r) = true then 1 else 0) + (if decide (∃ x ∈ rs, FiresC a x) = true then 1 else 0) := by
            by_cases h1 : FiresC a r <;> by_cases h2 : ∃ x ∈ rs, FiresC a x <;> simp [h1, h2]
          omega
      refine ⟨le_trans (hle _) (by omega), ?_⟩
      rintro ⟨h1, h2⟩
      rw [ih.2 h2]
      have heq : ∀ l : List Row, (∀ row ∈ l, row ∈ d.rows) → l.countP (fun row => decide (∃ x ∈ r :: rs, FiresC row x)) =
          l.countP (fun row => decide (FiresC row r)) + l.countP (fun row => decide (∃ x ∈ rs, FiresC row x)) := by
        intro l hl
        induction l with
        | nil => simp
        | cons a l ihl =>
          rw [List.countP_cons, List.countP_cons, List.countP_cons, ihl (fun row hr => hl row (by simp [hr]))]
          have : (if decide (∃ x ∈ r :: rs, FiresC a x) = true then 1 else 0) =
              (if decide (FiresC a r) = true then 1 else 0) + (if decide (∃ x ∈ rs, FiresC a x) = true then 1 else 0) := by
            by_cases g1 : FiresC a r
            · have g2 : ¬ ∃ x ∈ rs, FiresC a x := by
                rintro ⟨x, hx, hf⟩
                exact h1 x hx a (hl a (by simp)) ⟨g1, hf⟩
              simp [g1, g2]
            · by_cases g2 : ∃ x ∈ rs, FiresC a x <;> simp [g1, g2]
          omega
      exact (heq _ (fun _ h => h)).symm

/-- Six rows, each covered by both rules, count twelve times. -/
example : timesCovered [[⟨Demo.fa, Demo.vx⟩], [⟨Demo.fb, Demo.vx⟩]] (posExamples Demo.conj Demo.fc Demo.vp) = 12 ∧
    (posExamples Demo.conj Demo.fc Demo.vp).rows.length = 6 := by
  unfold timesCovered; decide +kernel

/-- A simplification that drops the second rule, and a pass that exchanges `a=x` for its revision `a=x and b=x`. -/
example :
    (bestSubsetDf 4 [[⟨Demo.fa, Demo.vx⟩, ⟨Demo.fb, Demo.vx⟩], [⟨Demo.fa, Demo.vy⟩]] (posExamples Demo.conj Demo.fc Demo.vp)
      (negExamples Demo.conj Demo.fc Demo.vp)).map Prod.fst = .ok [[⟨Demo.fa, Demo.vx⟩, ⟨Demo.fb, Demo.vx⟩]] ∧
    (optimizeDf 19 Demo.R0 [⟨Demo.fa, Demo.vx⟩, ⟨Demo.fb, Demo.vx⟩, ⟨Demo.fa, Demo.vy⟩] { pruneSize := some (1 / 2) } none
      [[⟨Demo.fa, Demo.vx⟩]] (posExamples Demo.conj Demo.fc Demo.vp) (negExamples Demo.conj Demo.fc Demo.vp) ()).map Prod.fst =
      .ok [[⟨Demo.fa, Demo.vx⟩, ⟨Demo.fb, Demo.vx⟩]] ∧
    (ripperStagesDf 19 Demo.R1 Demo.S0 { pruneSize := some (1 / 3), randomState := some 3 } none [] (posExamples Demo.tied Demo.fc Demo.vp)
      (negExamples Demo.tied Demo.fc Demo.vp) (0 : Nat)).map Prod.fst = .ok [[⟨Demo.fa, Demo.vx⟩]] := by
  refine ⟨?_, ?_, ?_⟩ <;> decide +kernel

end Witt
