import Verif.Props.Bits
import Verif.Props.Ripper
/-
C46, C47: RIPPER's optimisation and simplification in terms of description length in bits.
-/
namespace Witt
open Spec

/-- Which rules the filter of ripper.py 1400-1412 keeps, by position. -/
theorem mdlFilter_positions (rules : List (List Cond)) (dls : List Rat) (hlen : dls.length = rules.length) :
    mdlFilter none (rules.zip dls) = ((List.range rules.length).filter
      (fun i => decide (i = 0 ∨ dls[i]?.getD 0 ≤ dls[i - 1]?.getD 0))).filterMap (fun i => rules[i]?) := by
  have key : ∀ (rs : List (List Cond)) (ds : List Rat) (p : Option Rat), rs.length = ds.length →
      mdlFilter p (rs.zip ds) = ((List.range rs.length).filter (fun i => match i with
        | 0 => (match p with | none => true | some q => decide (ds[0]?.getD 0 ≤ q))
        | i + 1 => decide (ds[i + 1]?.getD 0 ≤ ds[i]?.getD 0))).filterMap (fun i => rs[i]?) := by
    intro rs
    induction rs with
    | nil => intro ds p _; cases p <;> rfl
    | cons r rs ih =>
      intro ds p hl
      cases ds with
      | nil => simp at hl
      | cons d ds =>
        simp only [List.length_cons, Nat.add_right_cancel_iff] at hl
        rw [List.length_cons, List.range_succ_eq_map, List.filter_cons, List.zip_cons_cons]
        have htail : ((List.map Nat.succ (List.range rs.length)).filter (fun i => match i with
            | 0 => (match p with | none => true | some q => decide ((d :: ds)[0]?.getD 0 ≤ q))
            | i + 1 => decide ((d :: ds)[i + 1]?.getD 0 ≤ (d :: ds)[i]?.getD 0))).filterMap
              (fun i => (r :: rs)[i]?) = mdlFilter (some d) (rs.zip ds) := by
          rw [ih ds (some d) hl, List.filter_map, List.filterMap_map]
          have e1 : ((fun i => match i with
            | 0 => (match p with | none => true | some q => decide ((d :: ds)[0]?.getD 0 ≤ q))
            | i + 1 => decide ((d :: ds)[i + 1]?.getD 0 ≤ (d :: ds)[i]?.getD 0)) ∘ Nat.succ) =
            (fun i => match i with
              | 0 => (match (some d : Option Rat) with | none => true | some q => decide (ds[0]?.getD 0 ≤ q))
              | i + 1 => decide (ds[i + 1]?.getD 0 ≤ ds[i]?.getD 0)) := by
            funext i
            cases i <;> simp
          have e2 : ((fun i => (r :: rs)[i]?) ∘ Nat.succ) = (fun i => rs[i]?) := by
            funext i; simp
          rw [e1, e2]
        cases p with
        | none =>
          rw [mdlFilter]
          simp only [if_true, List.filterMap_cons, List.getElem?_cons_zero]
          rw [← htail]
        | some q =>
          rw [mdlFilter]
          simp only [List.getElem?_cons_zero, Option.getD_some, decide_eq_true_eq] at htail ⊢
          split
          · simp only [List.filterMap_cons, List.getElem?_cons_zero]
            rw [← htail]
          · rw [← htail]
  rw [key rules dls none hlen.symm]
  congr 1
  apply List.filter_congr
  intro i _
  cases i with
  | zero => simp
  | succ i => simp

/-- The simplification of a ruleset by description length keeps rule 0 and, of the later rules, exactly
those `i` for which the description length of rules `0..i` is at most that of rules `0..i-1`; the kept rules
stay in order. `dl i` is the description length of rules `0..i`. -/
theorem bestSubsetCn_exact [Arith] (cn : CatNap) (rules out : List (List Cond)) (pos neg : List Label) (total : Rat)
    (h : bestSubsetCn cn rules pos neg = .ok (out, total)) :
    ∃ dl : Nat → Rat,
      (∀ i < rules.length, totalBitsCn cn (rules.take (i + 1)) pos neg = .ok (dl i)) ∧
      out = ((List.range rules.length).filter (fun i => decide (i = 0 ∨ dl i ≤ dl (i - 1)))).filterMap
        (fun i => rules[i]?) ∧
      totalBitsCn cn out pos neg = .ok total := by
  unfold bestSubsetCn at h
  obtain ⟨dls, hd, h⟩ := bind_ok_iff.mp h
  obtain ⟨t, ht, h⟩ := bind_ok_iff.mp h
  simp only [pure_eq_ok, Except.ok.injEq, Prod.mk.injEq] at h
  obtain ⟨hout, rfl⟩ := h
  subst hout
  have hlen := subsetDls_length rules _ _ _ hd
  refine ⟨fun i => dls[i]?.getD 0, ?_, ?_, ht⟩
  · intro i hi
    have := subsetDls_spec rules _ [] dls rfl hd i (dls[i]?.getD 0) (by
      rw [List.getElem?_eq_getElem (by omega)]; rfl)
    simpa using this
  · exact mdlFilter_positions rules dls hlen

/-- C46. Simplifying rules `r0, r1, ...` by description length on training rows keeps `r0` and, of the later
rules, exactly those whose addition to all the rules before it does not increase the description length in
bits (`n` is the number of possible conditions); kept rules stay in order. -/
theorem C46_simplification (df : Frame) (cf : Feat) (cn : CatNap) (hb : CatNap.build df cf = .ok cn)
    (hu : df.UniqueIndex) (rules out : List (List Cond)) (pos neg : List Label) (total : Rat)
    (hs : Sensible df cf rules pos neg) (h : bestSubsetCn cn rules pos neg = .ok (out, total)) :
    out = ((List.range rules.length).filter (fun i => @decide (i = 0 ∨
        totalBits df cn.conds.length (rules.take (i + 1)) pos neg ≤
          totalBits df cn.conds.length (rules.take i) pos neg) (Classical.dec _))).filterMap (fun i => rules[i]?) ∧
      StandsFor total (totalBits df cn.conds.length out pos neg) := by
  obtain ⟨dl, h1, h2, h3⟩ := bestSubsetCn_exact cn rules out pos neg total h
  have hsub : ∀ rs : List (List Cond), rs.Sublist rules → Sensible df cf rs pos neg := fun rs hrs =>
    ⟨fun r hr => hs.over r (hrs.subset hr), hs.pos_mem, hs.neg_mem,
      hs.nonempty.imp (fun h hm => h (hrs.subset hm)) id⟩
  have hdl : ∀ i < rules.length, StandsFor (dl i) (totalBits df cn.conds.length (rules.take (i + 1)) pos neg) :=
    fun i hi => totalBitsCn_bits hb hu (hsub _ (List.take_sublist _ _)) (h1 i hi)
  refine ⟨?_, totalBitsCn_bits hb hu (hsub _ (bestSubsetCn_sublist h)) h3⟩
  rw [h2]
  congr 1
  apply List.filter_congr
  intro i hi
  rw [List.mem_range] at hi
  rw [Bool.eq_iff_iff, decide_eq_true_eq, @decide_eq_true_eq _ (Classical.dec _)]
  cases i with
  | zero => simp
  | succ i =>
    have := (hdl (i + 1) hi).le_iff (hdl i (by omega))
    simp only [Nat.succ_ne_zero, false_or, Nat.add_sub_cancel]
    exact this

/-- C46 in words: a sublist in order that keeps the first rule. -/
theorem C46_sublist [Arith] (cn : CatNap) (r : List Cond) (rules out : List (List Cond)) (pos neg : List Label)
    (total : Rat) (h : bestSubsetCn cn (r :: rules) pos neg = .ok (out, total)) :
    ∃ rest, out = r :: rest ∧ rest.Sublist rules := by
  unfold bestSubsetCn at h
  obtain ⟨dls, hd, h⟩ := bind_ok_iff.mp h
  obtain ⟨t, ht, h⟩ := bind_ok_iff.mp h
  simp only [pure_eq_ok, Except.ok.injEq, Prod.mk.injEq] at h
  have hlen := subsetDls_length (r :: rules) _ _ _ hd
  cases dls with
  | nil => simp at hlen
  | cons d ds =>
    simp only [List.length_cons, Nat.add_right_cancel_iff] at hlen
    rw [List.zip_cons_cons, mdlFilter] at h
    refine ⟨_, h.1.symm, ?_⟩
    have := mdlFilter_sublist (rules.zip ds) (some d)
    rwa [List.map_fst_zip (by omega)] at this

/-- C46, whole runs: the final stage of RIPPER's training is such a simplification (over all training rows)
of the ruleset of the previous stages. -/
theorem C46_ripper_simplifies [Arith] (fuel : Nat) (R : PyRandom) (hp : Hyper) (init : List (List Cond)) (cn : CatNap)
    (pos neg : List Label) (g g' : R.G) (out : List (List Cond))
    (h : ripperStages fuel R cn hp init pos neg g = .ok (out, g')) :
    ∃ rules total, bestSubsetCn cn rules pos neg = .ok (out, total) := by
  obtain ⟨st, r2, r3, g2, dl, hs⟩ := ripperStages_ok h
  exact ⟨r3, dl, hs.simplify⟩

/-- A simplification that drops the second of two rules. -/
example : ∀ cn, CatNap.build Demo.conj Demo.fc = .ok cn →
    (bestSubsetCn cn [[⟨Demo.fa, Demo.vx⟩, ⟨Demo.fb, Demo.vx⟩], [⟨Demo.fa, Demo.vy⟩]]
      (labelSet (posRows Demo.conj Demo.fc Demo.vp).index) (labelSet (negRows Demo.conj Demo.fc Demo.vp).index)).map Prod.fst =
      .ok [[⟨Demo.fa, Demo.vx⟩, ⟨Demo.fb, Demo.vx⟩]] := by
  intro cn h
  have : CatNap.build Demo.conj Demo.fc = .ok _ := CatNap.build_ok (by decide +kernel)
  rw [this] at h
  injection h with h
  subst h
  decide +kernel

/-! ### one optimisation pass -/

/-- The value is the first least of a list of alternatives. -/
def Spec.FirstLeast {A : Type} (alts : List (A × ℝ)) (a : A) : Prop :=
  ∃ n v, alts[n]? = some (a, v) ∧ (∀ p ∈ alts, v ≤ p.2) ∧ ∀ (j : Nat) (p : A × ℝ), j < n → alts[j]? = some p → v < p.2

/-- The ruleset with rule `i` exchanged; an alternative that is no rule (`none`) leaves the rule out. -/
def Spec.exchanged (rules : List (List Cond)) (i : Nat) : Option (List Cond) → List (List Cond)
  | none => rules.eraseIdx i
  | some r => rules.set i r

/-- Same number of conditions and the same set of printed conditions. -/
def Spec.PrintsAs (a b : List Cond) : Prop :=
  a.length = b.length ∧ ∀ t, t ∈ a.map Cond.text ↔ t ∈ b.map Cond.text

/-- `r` is `grown` cut after the condition where `value` is highest, the earliest such cut (at least one condition stays). -/
def Spec.BestCut (value : List Cond → ℚ) (grown r : List Cond) : Prop :=
  (grown = [] ∧ r = []) ∨ ∃ k, 1 ≤ k ∧ k ≤ grown.length ∧ r = grown.take k ∧
    ∀ j, 1 ≤ j → j ≤ grown.length → value (grown.take j) ≤ value r ∧ (j < k → value (grown.take j) < value r)

/-- Share of the pruning examples the rule classifies correctly. -/
noncomputable def Spec.ruleAccuracy (df : Frame) (pos neg : List Label) (r : List Cond) : ℚ :=
  (nCovered df r pos + (neg.length - nCovered df r neg)) / (pos.length + neg.length)

theorem pruneLoopRs_best {metric : List Cond → Except PyErr (Option Rat)} {val : List Cond → Rat} {rule : List Cond}
    (hm : ∀ k v, 1 ≤ k → metric (rule.take k) = .ok (some v) → v = val (rule.take k)) :
    ∀ (n m : Nat) (b : Option (List Cond)) (v : Rat) (o : List Cond), n < m → n ≤ rule.length →
    (∀ x, b = some x → x = rule.take m ∧ v = val x) →
    pruneLoopRs metric rule n (b, v) = .ok (some o) →
    ∃ k, o = rule.take k ∧ v ≤ val o ∧ ((b = some o ∧ k = m) ∨ 1 ≤ k ∧ k ≤ n) ∧
      ∀ j, 1 ≤ j → j ≤ n → val (rule.take j) ≤ val o ∧ (j < k → val (rule.take j) < val o) := by
  intro n
  induction n with
  | zero =>
    intro m b v o _ _ hb h
    cases b with
    | none => simp [pruneLoopRs] at h
    | some b =>
      simp only [pruneLoopRs, Except.ok.injEq, Option.some.injEq] at h
      subst h
      obtain ⟨h1, h2⟩ := hb b rfl
      exact ⟨m, h1, le_of_eq h2, Or.inl ⟨rfl, rfl⟩, fun j h1 h2 => by omega⟩
  | succ n ih =>
    intro m b v o hnm hn hb h
    rw [pruneLoopRs] at h
    cases hmet : metric (rule.take (n + 1)) with
    | error e => rw [hmet] at h; simp at h
    | ok w =>
      rw [hmet] at h
      simp only [ok_bind] at h
      cases w with
      | none => simp at h
      | some w =>
        have hw := hm _ _ (by omega) hmet
        simp only at h
        by_cases hv : v ≤ w
        · simp only [hv, if_true] at h
          obtain ⟨k, h1, h2, h3, h4⟩ := ih (n + 1) _ _ _ (by omega) (by omega)
            (by intro x hx; injection hx with hx; subst hx; exact ⟨rfl, hw⟩) h
          refine ⟨k, h1, le_trans hv h2, ?_, ?_⟩
          · rcases h3 with ⟨_, rfl⟩ | h3
            · exact Or.inr ⟨by omega, le_refl _⟩
            · exact Or.inr ⟨h3.1, by omega⟩
          · intro j hj1 hj2
            rcases Nat.lt_or_ge n j with hj | hj
            · have : j = n + 1 := by omega
              subst this
              rw [← hw]
              refine ⟨h2, fun hk => ?_⟩
              rcases h3 with ⟨_, rfl⟩ | h3 <;> omega
            · exact h4 j hj1 hj
        · simp only [hv, if_false] at h
          obtain ⟨k, h1, h2, h3, h4⟩ := ih m _ _ _ (by omega) (by omega) hb h
          refine ⟨k, h1, h2, ?_, ?_⟩
          · rcases h3 with h3 | h3
            · exact Or.inl h3
            · exact Or.inr ⟨h3.1, by omega⟩
          · intro j hj1 hj2
            rcases Nat.lt_or_ge n j with hj | hj
            · have : j = n + 1 := by omega
              subst this
              rw [← hw]
              have : w < val o := lt_of_lt_of_le (not_le.mp hv) h2
              exact ⟨le_of_lt this, fun _ => this⟩
            · exact h4 j hj1 hj

theorem pruneRuleOn_best {metric : List Cond → Except PyErr (Option Rat)} {val : List Cond → Rat} {rule o : List Cond}
    (hm : ∀ k v, 1 ≤ k → metric (rule.take k) = .ok (some v) → v = val (rule.take k))
    {rules : List (List Cond)} {i : Nat} (h0 : rules[i]? = some rule)
    (h : pruneRuleOn metric rule rules i = .ok (some o)) : BestCut val rule o := by
  rw [pruneRuleOn_eq h0] at h
  split at h
  · rename_i he
    injection h with h; injection h with h; subst h; exact Or.inl ⟨he, he⟩
  · obtain ⟨k, h1, _, h3, h4⟩ := pruneLoopRs_best hm _ (rule.length + 1) _ _ _ (by omega) (le_refl _)
      (by intro x hx; cases hx) h
    rcases h3 with ⟨h3, _⟩ | h3
    · cases h3
    · exact Or.inr ⟨k, h3.1, h3.2, h1, h4⟩

theorem iReplaced_eq {l : List (List Cond)} {i : Nat} (hi : i < l.length) (o : Option (List Cond)) :
    iReplaced l i o = exchanged l i o := by
  cases o with
  | none => simp [iReplaced, exchanged, List.eraseIdx_eq_take_drop_succ]
  | some v => simp [iReplaced, exchanged, List.set_eq_take_append_cons_drop, hi]

/-- Bits of an alternative for rule `i`: those of the ruleset with it in place of the rule; an alternative
that prints like the rule counts `odl`. -/
noncomputable def Spec.altBits (df : Frame) (n : Nat) (rules : List (List Cond)) (i : Nat) (rule : List Cond)
    (odl : ℝ) (pos neg : List Label) (alt : Option (List Cond)) : ℝ :=
  @ite _ (∃ r, alt = some r ∧ PrintsAs r rule) (Classical.dec _) odl
    (totalBits df n (exchanged rules i alt) pos neg)

theorem overCols_closed {df : Frame} {cf : Feat} {cn : CatNap} (hb : CatNap.build df cf = .ok cn) :
    ClosedRule cn (OverCols df cf) where
  nil := by intro c hc; simp at hc
  snoc := by
    intro pos neg r c hr hu x hx
    rcases List.mem_append.mp hx with hx | hx
    · exact hr x hx
    · simp only [List.mem_singleton] at hx; subst hx; exact overCols_conds hb hu.mem
  pre := fun r s hr hs c hc => hr c (hs.subset hc)

theorem condsEq_prints {a b : List Cond} : condsEq a b = true ↔ PrintsAs a b := condsEq_iff

/-- C47, the choice for one rule. Whatever examples (`growPos`, `growNeg`, `prunePos`, `pruneNeg`) it is made
on: a replacement (grown from nothing) and a revision (grown from the rule) are each cut to the prefix with the
highest accuracy on the pruning examples (the shortest one on ties), and
the choice is the alternative among rule, replacement and revision with the least description length on
all training rows, the earliest on ties. The rule itself counts the description length `odl` passed in: by
the next theorems that of the simplified ruleset. -/
theorem C47_choice (df : Frame) (cf : Feat) (cn : CatNap) (hb : CatNap.build df cf = .ok cn)
    (hu : df.UniqueIndex) (hp : Hyper) (fuel : Nat) (rules : List (List Cond)) (i : Nat) (rule best : List Cond)
    (hrule : rules[i]? = some rule) (pos neg : List Label) (hpos : pos ≠ []) (hneg : neg ≠ [])
    (hs : Sensible df cf rules pos neg) (x : Rat) (odl : ℝ) (hx : StandsFor x odl)
    (growPos prunePos growNeg pruneNeg : List Label)
    (h : optimizeChoice fuel cn hp rules x i rule pos neg growPos prunePos growNeg pruneNeg = .ok best) :
    ∃ grownRep grownRev replacement revision,
      growRuleCn fuel cn { minRuleSamples := hp.lim.minRuleSamples } growPos growNeg [] = .ok grownRep ∧
      growRuleCn fuel cn { minRuleSamples := hp.lim.minRuleSamples } growPos growNeg rule = .ok grownRev ∧
      (∀ r, replacement = some r → r <+: grownRep) ∧ (∀ r, revision = some r → r <+: grownRev) ∧
      (prunePos ≠ [] → replacement ≠ none ∧ revision ≠ none) ∧
      (∀ r, (replacement = some r → BestCut (ruleAccuracy df prunePos pruneNeg) grownRep r) ∧
        (revision = some r → BestCut (ruleAccuracy df prunePos pruneNeg) grownRev r)) ∧
      FirstLeast [(some rule, odl),
        (replacement, altBits df cn.conds.length rules i rule odl pos neg replacement),
        (revision, altBits df cn.conds.length rules i rule odl pos neg revision)] (some best) := by
  obtain ⟨gRep, gRev, prRep, prRev, repDl, revDl, n, hc⟩ := optimizeChoice_ok h
  have hi : i < rules.length := (List.getElem?_eq_some_iff.mp hrule).1
  have hw := CatNap.build_WF hb
  have hov : OverCols df cf rule := hs.over rule (List.mem_of_getElem? hrule)
  have hrep : ∀ r, prRep = some r → r <+: gRep := by
    intro r hr
    have := hc.pruneRep
    rw [hr] at this
    exact (pruneRuleOn_prefix (iReplaced_getElem _ _ _ hi) this).1
  have hrev : ∀ r, prRev = some r → r <+: gRev := by
    intro r hr
    have := hc.pruneRev
    rw [hr] at this
    exact (pruneRuleOn_prefix (iReplaced_getElem _ _ _ hi) this).1
  have hcl := overCols_closed hb
  have hsens : ∀ o : Option (List Cond), (∀ r, o = some r → OverCols df cf r) →
      Sensible df cf (iReplaced rules i o) pos neg := by
    intro o ho
    refine ⟨?_, hs.pos_mem, hs.neg_mem, Or.inr ⟨hpos, hneg⟩⟩
    intro r hr
    cases o with
    | none =>
      unfold iReplaced at hr
      rcases List.mem_append.mp hr with hr | hr
      · exact hs.over r (List.mem_of_mem_take hr)
      · exact hs.over r (List.mem_of_mem_drop hr)
    | some v =>
      rcases mem_iReplaced hr with rfl | hr
      · exact ho _ rfl
      · exact hs.over r hr
  have hs1 := hsens prRep (fun r hr => hcl.pre _ _ (hcl.grow hw hcl.nil hc.growRep) (hrep r hr))
  have hs2 := hsens prRev (fun r hr => hcl.pre _ _ (hcl.grow hw hov hc.growRev) (hrev r hr))
  have bits : ∀ (o : Option (List Cond)) (d : Rat), Sensible df cf (iReplaced rules i o) pos neg →
      ((∃ r, o = some r ∧ condsEq r rule = true ∧ d = x) ∨
      ((∀ r, o = some r → condsEq r rule = false) ∧ totalBitsCn cn (iReplaced rules i o) pos neg = .ok d)) →
      StandsFor d (altBits df cn.conds.length rules i rule odl pos neg o) := by
    intro o d hso hd
    unfold altBits
    rcases hd with ⟨r, h1, h2, rfl⟩ | ⟨h1, h2⟩
    · rw [if_pos ⟨r, h1, condsEq_prints.mp h2⟩]; exact hx
    · rw [if_neg]
      · rw [← iReplaced_eq hi]; exact totalBitsCn_bits hb hu hso h2
      · rintro ⟨r, hr, he⟩
        have := h1 r hr
        rw [condsEq_prints.mpr he] at this
        cases this
  have b1 := bits prRep repDl hs1 hc.dlRep
  have b2 := bits prRev revDl hs2 hc.dlRev
  refine ⟨gRep, gRev, prRep, prRev, hc.growRep, hc.growRev, hrep, hrev, ?_, ?_, ?_⟩
  · intro hpp
    refine ⟨?_, ?_⟩
    · obtain ⟨p, hp⟩ := pruneOpt_total (cn := cn) (d := pruneNeg) hpp (iReplaced_getElem rules i gRep hi)
      have := hc.pruneRep
      rw [hp] at this
      injection this with this
      rw [← this]; simp
    · obtain ⟨p, hp⟩ := pruneOpt_total (cn := cn) (d := pruneNeg) hpp (iReplaced_getElem rules i gRev hi)
      have := hc.pruneRev
      rw [hp] at this
      injection this with this
      rw [← this]; simp
  · intro r
    have hval : ∀ (gr : List Cond), OverCols df cf gr → ∀ k v, 1 ≤ k →
        ripperOptMetricCn cn prunePos pruneNeg (gr.take k) = .ok (some v) →
        v = ruleAccuracy df prunePos pruneNeg (gr.take k) := by
      intro gr ho k v _ hv
      have hok : OverCols df cf (gr.take k) := fun c hc => ho c (List.mem_of_mem_take hc)
      unfold ripperOptMetricCn at hv
      simp only at hv
      split at hv
      · cases hv
      · simp only [Except.ok.injEq, Option.some.injEq] at hv
        rw [← hv, ruleAccuracy, nCovered_eq hb hu hok, nCovered_eq hb hu hok]
        have e : ∀ a b : Int, Arith.quot a b = (a : Rat) / b := fun _ _ => rfl
        rw [e]; push_cast; rfl
    refine ⟨fun hr => ?_, fun hr => ?_⟩
    · have := hc.pruneRep
      rw [hr] at this
      exact pruneRuleOn_best (hval _ (hcl.grow hw hcl.nil hc.growRep)) (iReplaced_getElem _ _ _ hi) this
    · have := hc.pruneRev
      rw [hr] at this
      exact pruneRuleOn_best (hval _ (hcl.grow hw hov hc.growRev)) (iReplaced_getElem _ _ _ hi) this
  · obtain ⟨m, v, hm, hv, hle, hlt⟩ := (C44_argmin [x, repDl, revDl]).2 (by simp)
    rw [hc.min] at hm
    injection hm with hm
    subst hm
    have l0 := hle x (by simp)
    have l1 := hle repDl (by simp)
    have l2 := hle revDl (by simp)
    rcases hc.pick with ⟨rfl, rfl⟩ | ⟨rfl, hbest⟩ | ⟨hn0, hn1, hbest⟩
    · simp only [List.getElem?_cons_zero, Option.some.injEq] at hv
      subst hv
      refine ⟨0, odl, rfl, ?_, by intro j p hj; omega⟩
      simp only [List.mem_cons, List.not_mem_nil, or_false]
      rintro p (rfl | rfl | rfl)
      · exact le_refl _
      · exact (hx.le_iff b1).mp l1
      · exact (hx.le_iff b2).mp l2
    · simp only [List.getElem?_cons_succ, List.getElem?_cons_zero, Option.some.injEq] at hv
      subst hv
      have k0 := hlt 0 x (by omega) rfl
      refine ⟨1, _, by rw [← hbest]; rfl, ?_, ?_⟩
      · simp only [List.mem_cons, List.not_mem_nil, or_false]
        rintro p (rfl | rfl | rfl)
        · exact (b1.le_iff hx).mp l0
        · exact le_refl _
        · exact (b1.le_iff b2).mp l2
      · intro j p hj hp'
        have : j = 0 := by omega
        subst this
        simp only [List.getElem?_cons_zero, Option.some.injEq] at hp'
        subst hp'
        exact (b1.lt_iff hx).mp k0
    · have hn2 : n = 2 := by
        have := (List.getElem?_eq_some_iff.mp hv).1
        simp only [List.length_cons, List.length_nil] at this
        omega
      subst hn2
      simp only [List.getElem?_cons_succ, List.getElem?_cons_zero, Option.some.injEq] at hv
      subst hv
      have k0 := hlt 0 x (by omega) rfl
      have k1 := hlt 1 repDl (by omega) rfl
      refine ⟨2, _, by rw [← hbest]; rfl, ?_, ?_⟩
      · simp only [List.mem_cons, List.not_mem_nil, or_false]
        rintro p (rfl | rfl | rfl)
        · exact (b2.le_iff hx).mp l0
        · exact (b2.le_iff b1).mp l1
        · exact le_refl _
      · intro j p hj hp'
        have : j = 0 ∨ j = 1 := by omega
        rcases this with rfl | rfl
        · simp only [List.getElem?_cons_zero, Option.some.injEq] at hp'
          subst hp'
          exact (b2.lt_iff hx).mp k0
        · simp only [List.getElem?_cons_succ, List.getElem?_cons_zero, Option.some.injEq] at hp'
          subst hp'
          exact (b2.lt_iff b1).mp k1

/-- C47, a whole pass. It returns as many rules as it was given; each is the rule at the same position or
the choice made for it, where `odl` is the description length of the simplified ruleset. -/
theorem C47_pass [Arith] (fuel : Nat) (R : PyRandom) (cn : CatNap) (hp : Hyper) (seed : Option Int)
    (rules out : List (List Cond)) (pos neg : List Label) (g g' : R.G)
    (h : optimizeCn fuel R cn hp seed rules pos neg g = .ok (out, g')) :
    out.length = rules.length ∧
    ∃ simplified odl, bestSubsetCn cn rules pos neg = .ok (simplified, odl) ∧
      ∀ j r', out[j]? = some r' → ∃ r, rules[j]? = some r ∧ (r' = r ∨ ∃ growPos prunePos growNeg pruneNeg,
        optimizeChoice fuel cn hp rules odl j r pos neg growPos prunePos growNeg pruneNeg = .ok r') := by
  obtain ⟨mdl, odl, h1, h2, h3⟩ := optimizeCn_spec h
  exact ⟨h2, mdl, odl, h1, h3⟩

/-- C47, the pass does use its choices: when it comes to a rule with growing examples left and no limit
reached, the rule is exchanged for the choice made on the current split, unless a rule that prints like the
choice is already in the new ruleset, in which case the rule stays. -/
theorem C47_pass_uses_choice [Arith] (fuel : Nat) (R : PyRandom) (cn : CatNap) (hp : Hyper) (ps : Rat) (seed : Option Int)
    (original : List (List Cond)) (odl : Rat) (allPos allNeg : List Label) (i : Nat) (rule : List Cond)
    (rest new out : List (List Cond)) (pos neg : List Label) (g g' : R.G) (hi : i < new.length)
    (h : optimizeLoop fuel R cn hp ps seed original odl allPos allNeg i (rule :: rest) new pos neg g = .ok (out, g')) :
    let s := randomSplit R g pos (Arith.complement ps) seed
    let t := randomSplit R s.2.2 neg (Arith.complement ps) seed
    (s.1 = [] ∨ stopEarly hp.lim new pos.length neg.length = true → out = new) ∧
    (s.1 ≠ [] → stopEarly hp.lim new pos.length neg.length = false →
      ∃ best, optimizeChoice fuel cn hp original odl i rule allPos allNeg s.1 s.2.1 t.1 t.2.1 = .ok best ∧
        ((¬ ∃ r ∈ new, PrintsAs r best) → out[i]? = some best) ∧
        ((∃ r ∈ new, PrintsAs r best) → out[i]? = some rule)) := by
  intro s t
  rw [optimizeLoop] at h
  rcases hp1 : randomSplit R g pos (Arith.complement ps) seed with ⟨a, b, g1⟩
  rcases hp2 : randomSplit R g1 neg (Arith.complement ps) seed with ⟨c, d, g2⟩
  have hs : s = (a, b, g1) := hp1
  have ht : t = (c, d, g2) := by show randomSplit R s.2.2 neg (Arith.complement ps) seed = _; rw [hs]; exact hp2
  rw [hs, ht]
  simp only [hp1, hp2] at h ⊢
  refine ⟨?_, ?_⟩
  · intro hc
    by_cases ha : a = []
    · rw [if_pos ha] at h
      simp only [pure_eq_ok, Except.ok.injEq, Prod.mk.injEq] at h
      exact h.1.symm
    · have hst : stopEarly hp.lim new pos.length neg.length = true := by
        rcases hc with h | h
        · exact absurd h ha
        · exact h
      rw [if_neg ha, if_pos hst] at h
      simp only [pure_eq_ok, Except.ok.injEq, Prod.mk.injEq] at h
      exact h.1.symm
  · intro ha hst
    rw [if_neg ha, if_neg (by rw [hst]; simp)] at h
    obtain ⟨best, hbest, h⟩ := bind_ok_iff.mp h
    refine ⟨best, hbest, ?_⟩
    generalize hv : (if (!condsIn best new) = true then best else rule) = v at h
    have hout : out[i]? = some v := by
      have hset : (new.set i v)[i]? = some v := by
        rw [List.getElem?_set_self (by simpa using hi)]
      split at h
      · simp only [pure_eq_ok, Except.ok.injEq, Prod.mk.injEq] at h
        rw [← h.1]; exact hset
      · obtain ⟨h1, h2⟩ := optimizeLoop_spec _ _ _ _ _ _ _ _ h
        have hio : i < out.length := by rw [h1]; simpa using hi
        obtain ⟨x, hx⟩ : ∃ x, out[i]? = some x := ⟨_, List.getElem?_eq_getElem hio⟩
        rcases h2 i x hx with h | ⟨h, _⟩
        · rw [hset] at h; rw [hx, ← h]
        · omega
    have hin : condsIn best new = true ↔ ∃ r ∈ new, PrintsAs r best := by
      unfold condsIn
      simp only [List.any_eq_true, condsEq_prints]
    constructor
    · intro hno
      have : condsIn best new = false := by rw [← Bool.not_eq_true, hin]; exact hno
      rw [hout, ← hv, this]; simp
    · intro hyes
      rw [hout, ← hv, hin.mpr hyes]; simp

/-- A pass that exchanges the rule `a = x` for its revision `a = x and b = x`. -/
example : ∀ cn, CatNap.build Demo.conj Demo.fc = .ok cn →
    (optimizeCn 19 Demo.R0 cn { pruneSize := some (1 / 2) } none [[⟨Demo.fa, Demo.vx⟩]]
      (labelSet (posRows Demo.conj Demo.fc Demo.vp).index)
      (labelSet (negRows Demo.conj Demo.fc Demo.vp).index) ()).map Prod.fst =
    .ok [[⟨Demo.fa, Demo.vx⟩, ⟨Demo.fb, Demo.vx⟩]] := by
  intro cn h
  have : CatNap.build Demo.conj Demo.fc = .ok _ := CatNap.build_ok (by decide +kernel)
  rw [this] at h
  injection h with h
  subst h
  decide +kernel

end Witt
