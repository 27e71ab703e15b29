import Verif.Lemmas.RipperTotal
import Verif.Lemmas.Fit
import Verif.Props.Scores
/-
RIPPER never raises: bounds on the number of conditions, description lengths are defined.
-/
namespace Witt
open Spec
variable [Arith] [Arith.Lawful]

variable {fuel : Nat} {R : PyRandom} {cn : CatNap} {hp : Hyper} {allPos allNeg : List Label}
variable {df : Frame} {cf : Feat}

/-! ### counting candidate conditions -/

omit [Arith] [Arith.Lawful] in
theorem two_le_length {α : Type} {l : List α} {a b : α} (ha : a ∈ l) (hb : b ∈ l) (h : a ≠ b) : 2 ≤ l.length := by
  match l, ha, hb with
  | [x], ha, hb =>
    simp at ha hb; exact absurd (ha.trans hb.symm) h
  | _ :: _ :: _, _, _ => simp

omit [Arith] [Arith.Lawful] in
theorem varied_count (hb : CatNap.build df cf = .ok cn) {f : Feat} (h : Varied df cf f) :
    2 ≤ (cn.conds.filter (fun c => c.feature = f)).length := by
  obtain ⟨h1, h2, row, hr, row', hr', hs, hn⟩ := h
  rw [CatNap.build_conds hb]
  obtain ⟨v, hv, hvk⟩ := unique_rep (f := f) hr
  obtain ⟨w, hw, hwk⟩ := unique_rep (f := f) hr'
  have hmem : ∀ v ∈ df.unique f, (⟨f, v⟩ : Cond) ∈
      (possibleConds (df.dropCol cf)).filter (fun c => c.feature = f) := by
    intro v hv
    rw [List.mem_filter]
    exact ⟨mem_possibleConds.mpr ⟨Frame.mem_dropCol.mpr ⟨h1, h2⟩, hv⟩, by simp⟩
  refine two_le_length (hmem v hv) (hmem w hw) ?_
  intro he
  injection he with _ he
  subst he
  have := Val.sameKind_trans (by rw [Val.sameKind_symm]; exact hvk) hwk
  unfold Val.sameKind at this
  simp only [Bool.or_eq_true, Bool.and_eq_true, beq_iff_eq] at this
  rcases this with h | h
  · exact hs (Val.pyEq_iff.mp h)
  · exact hn h

omit [Arith] [Arith.Lawful] in
theorem sum_filter_le {α : Type} [DecidableEq α] (f : Cond → α) (l : List Cond) : ∀ (fs : List α), fs.Nodup →
    (fs.map (fun x => (l.filter (fun c => f c = x)).length)).sum ≤ l.length := by
  induction l with
  | nil => intro fs _; simp
  | cons c l ih =>
    intro fs hn
    have key : ∀ fs : List α, fs.Nodup → (fs.map (fun x => ((c :: l).filter (fun c => f c = x)).length)).sum ≤
        (fs.map (fun x => (l.filter (fun c => f c = x)).length)).sum + (if f c ∈ fs then 1 else 0) := by
      intro fs
      induction fs with
      | nil => intro _; simp
      | cons a fs ihf =>
        intro hn
        have := ihf (List.nodup_cons.mp hn).2
        have hna := (List.nodup_cons.mp hn).1
        simp only [List.map_cons, List.sum_cons, List.mem_cons]
        by_cases he : f c = a
        · have hnf : f c ∉ fs := he ▸ hna
          rw [if_neg hnf] at this
          rw [if_pos (Or.inl he), List.filter_cons_of_pos (by simpa using he), List.length_cons]
          omega
        · rw [List.filter_cons_of_neg (by simpa using he)]
          by_cases hf : f c ∈ fs
          · rw [if_pos hf] at this; rw [if_pos (Or.inr hf)]; omega
          · rw [if_neg hf] at this; rw [if_neg (by simp [he, hf])]; omega
    have h1 := key fs hn
    have h2 := ih fs hn
    have h3 : (if f c ∈ fs then 1 else 0) ≤ 1 := by split <;> omega
    rw [List.length_cons]
    omega

/-- A rule that tests distinct columns, each with at least two values. -/
def GoodRule (df : Frame) (cf : Feat) (r : List Cond) : Prop :=
  (r.map Cond.feature).Nodup ∧ ∀ c ∈ r, Varied df cf c.feature

omit [Arith] [Arith.Lawful] in
theorem GoodRule.count (hb : CatNap.build df cf = .ok cn) {r : List Cond} (h : GoodRule df cf r) :
    2 * r.length ≤ cn.conds.length := by
  have h1 := sum_filter_le Cond.feature cn.conds _ h.1
  have h2 : ∀ fs : List Feat, (∀ f ∈ fs, Varied df cf f) →
      2 * fs.length ≤ (fs.map (fun x => (cn.conds.filter (fun c => c.feature = x)).length)).sum := by
    intro fs
    induction fs with
    | nil => intro _; simp
    | cons f fs ih =>
      intro hf
      have := ih (fun x hx => hf x (by simp [hx]))
      have := varied_count hb (hf f (by simp))
      simp only [List.map_cons, List.sum_cons, List.length_cons]
      omega
  have h3 := h2 (r.map Cond.feature) (by
    intro f hf
    obtain ⟨c, hc, rfl⟩ := List.mem_map.mp hf
    exact h.2 c hc)
  rw [List.length_map] at h3
  omega

omit [Arith] [Arith.Lawful] in
theorem GoodRule.over {r : List Cond} (h : GoodRule df cf r) : OverCols df cf r :=
  fun c hc => ⟨(h.2 c hc).1, (h.2 c hc).2.1⟩

omit [Arith] [Arith.Lawful] in
theorem goodRule_closed (hb : CatNap.build df cf = .ok cn) (hu : df.UniqueIndex) :
    ClosedRule cn (GoodRule df cf) where
  nil := ⟨by simp, by simp⟩
  pre := by
    intro r s h hs
    exact ⟨h.1.sublist (hs.sublist.map _), fun c hc => h.2 c (hs.subset hc)⟩
  snoc := by
    intro pos neg r c h hus
    have hnew := useful_new_feature hb hu h.over hus
    have hrc : OverCols df cf (r ++ [c]) := overCols_append.mpr
      ⟨h.over, by intro x hx; simp at hx; subst hx; exact overCols_conds hb hus.mem⟩
    refine ⟨?_, ?_⟩
    · rw [List.map_append, List.nodup_append]
      refine ⟨h.1, by simp, ?_⟩
      intro f hf f' hf' he
      simp at hf'
      obtain ⟨d, hd, rfl⟩ := List.mem_map.mp hf
      exact hnew d hd (he.trans hf')
    · intro x hx
      rcases List.mem_append.mp hx with hx | hx
      · exact h.2 x hx
      · simp at hx; subst hx
        obtain ⟨h1, h2⟩ := overCols_conds hb hus.mem
        obtain ⟨l, _, hl⟩ := hus.keeps
        obtain ⟨row, hrow, _, hf⟩ := (CatNap.hit_iff hb hu hrc).mp hl
        obtain ⟨l', _, hl', hl''⟩ := hus.loses
        obtain ⟨row', hrow', hlab, hf'⟩ := (CatNap.hit_iff hb hu h.over).mp hl'
        have hm : (row.cell x.feature).pyEq x.val = true := Cond.met_iff.mpr (hf x (by simp))
        have hnm : ¬ (row'.cell x.feature).pyEq x.val = true := by
          intro hmet
          have h6 : cn.hit (r ++ [x]) l' = true := by
            rw [CatNap.hit_iff hb hu hrc]
            refine ⟨row', hrow', hlab, ?_⟩
            intro y hy
            rcases List.mem_append.mp hy with hy | hy
            · exact hf' y hy
            · simp at hy; subst hy; exact Cond.met_iff.mp hmet
          rw [h6] at hl''; cases hl''
        refine ⟨h1, h2, row, hrow, row', hrow', ?_, ?_⟩
        · intro hs
          rw [← Val.pyEq_iff] at hs
          exact hnm (Val.pyEq_trans (by rw [Val.pyEq_symm]; exact hs) hm)
        · rintro ⟨hn, _⟩
          rw [hn] at hm
          simp [Val.pyEq] at hm

/-! ### description lengths are defined -/

omit [Arith.Lawful] in
theorem ruleTheory_ok {n k : Nat} (h : 2 * max k 1 ≤ n) : ∃ t, ruleTheory n k = .ok t := by
  unfold ruleTheory
  simp only
  rw [if_neg (by omega), if_neg (by omega), if_neg (by omega)]
  exact ⟨_, rfl⟩

omit [Arith.Lawful] in
theorem log2Exp_pos {x : Int} (h : 0 < x) : ∃ v, log2Exp x = .ok v := by
  unfold log2Exp
  rw [if_neg (by omega)]
  exact ⟨_, rfl⟩

omit [Arith] [Arith.Lawful] in
theorem nCr_pos {n r : Int} (h : r ≤ n ∨ r ≤ 0) : 0 < nCr n r := by
  rcases le_or_gt r 0 with h0 | h0
  · rw [C43_nCr_nonpos _ _ h0]; omega
  · have hrn : r ≤ n := by rcases h with h | h <;> omega
    obtain ⟨r', rfl⟩ := Int.eq_ofNat_of_zero_le (le_of_lt h0)
    obtain ⟨n', rfl⟩ := Int.eq_ofNat_of_zero_le (show 0 ≤ n by omega)
    rw [C43_nCr]
    have := Nat.choose_pos (n := n') (k := r') (by omega)
    exact_mod_cast this

omit [Arith.Lawful] in
/-- The data bits are always defined. -/
theorem exceptionsCn_ok (rs : List (List Cond)) (pos neg : List Label) :
    ∃ v, exceptionsCn cn rs pos neg = .ok v := by
  unfold exceptionsCn
  simp only
  generalize hP : (cn.rulesetCovers rs (some pos)).length = P
  generalize hN : (cn.rulesetCovers rs (some neg)).length = N
  have h1 : 0 < nCr ((P : Int) + N) N := nCr_pos (by omega)
  have h2 : 0 < nCr ((pos.length : Int) + neg.length - (P + N)) (pos.length - P) := by
    refine nCr_pos ?_
    rcases hc : rs.any List.isEmpty with _ | _
    · rw [CatNap.rulesetCovers_nonuniv hc] at hP hN
      have := List.length_filter_le (cn.hitAny rs) neg
      omega
    · rw [CatNap.rulesetCovers_univ hc] at hP
      split at hP
      · rename_i hn; subst hn; right; simp
      · right; omega
  obtain ⟨a, ha⟩ := log2Exp_pos h1
  obtain ⟨b, hb⟩ := log2Exp_pos h2
  rw [ha, hb]
  exact ⟨_, rfl⟩

/-- Rules whose description length is defined. -/
def Fits (cn : CatNap) (rules : List (List Cond)) : Prop := ∀ r ∈ rules, 2 * max r.length 1 ≤ cn.conds.length

omit [Arith.Lawful] in
theorem theorySum_ok {n : Nat} : ∀ (rs : List (List Cond)) (t : Rat), (∀ r ∈ rs, 2 * max r.length 1 ≤ n) →
    ∃ u, theorySum n t rs = .ok u
  | [], _, _ => ⟨_, rfl⟩
  | r :: rs, t, h => by
    obtain ⟨x, hx⟩ := ruleTheory_ok (h r (by simp))
    rw [theorySum, hx, ok_bind]
    exact theorySum_ok rs _ (fun x hx => h x (by simp [hx]))

omit [Arith.Lawful] in
theorem rsTheory_ok {n : Nat} (rs : List (List Cond)) (h : ∀ r ∈ rs, 2 * max r.length 1 ≤ n) :
    ∃ t, rsTheory n rs = .ok t := theorySum_ok rs _ h

omit [Arith.Lawful] in
theorem totalBitsCn_ok {rs : List (List Cond)} (h : Fits cn rs) (pos neg : List Label) :
    ∃ t, totalBitsCn cn rs pos neg = .ok t := by
  obtain ⟨t, ht⟩ := rsTheory_ok rs h
  obtain ⟨e, he⟩ := exceptionsCn_ok (cn := cn) rs pos neg
  unfold totalBitsCn
  rw [ht, ok_bind, he]
  exact ⟨_, rfl⟩

omit [Arith.Lawful] in
theorem subsetDls_ok {pos neg : List Label} : ∀ (rules : List (List Cond)) (t : Rat) (done : List (List Cond)),
    Fits cn rules → ∃ dls, subsetDls cn pos neg t done rules = .ok dls := by
  intro rules
  induction rules with
  | nil => intros; exact ⟨_, rfl⟩
  | cons r rs ih =>
    intro t done h
    obtain ⟨x, hx⟩ := ruleTheory_ok (h r (by simp))
    obtain ⟨e, he⟩ := exceptionsCn_ok (cn := cn) (done ++ [r]) pos neg
    obtain ⟨ds, hd⟩ := ih (Arith.addDl t x) (done ++ [r]) (fun y hy => h y (by simp [hy]))
    rw [subsetDls, hx, ok_bind, he, ok_bind, hd]
    exact ⟨_, rfl⟩

omit [Arith.Lawful] in
theorem bestSubsetCn_ok {rules : List (List Cond)} (h : Fits cn rules) (pos neg : List Label) :
    ∃ out, bestSubsetCn cn rules pos neg = .ok out := by
  obtain ⟨dls, hd⟩ := subsetDls_ok (pos := pos) (neg := neg) rules Arith.zeroDl [] h
  unfold bestSubsetCn
  rw [hd, ok_bind]
  have hsub : (mdlFilter none (rules.zip dls)).Sublist rules := by
    have := mdlFilter_sublist (rules.zip dls) none
    rwa [List.map_fst_zip (by rw [subsetDls_length _ _ _ _ hd])] at this
  obtain ⟨t, ht⟩ := totalBitsCn_ok (cn := cn) (rs := mdlFilter none (rules.zip dls))
    (fun r hr => h r (hsub.subset hr)) pos neg
  simp only [ht, ok_bind]
  exact ⟨_, rfl⟩

/-- The invariant of the stages: good rules only, and a rule exists only if there are two candidates. -/
structure AllGood (df : Frame) (cf : Feat) (cn : CatNap) (rules : List (List Cond)) : Prop where
  good : ∀ r ∈ rules, GoodRule df cf r
  two : rules ≠ [] → 2 ≤ cn.conds.length

omit [Arith] [Arith.Lawful] in
theorem AllGood.fits (hb : CatNap.build df cf = .ok cn) {rules : List (List Cond)} (h : AllGood df cf cn rules) :
    Fits cn rules := by
  intro r hr
  have h1 := (h.good r hr).count hb
  have h2 := h.two (by rintro rfl; simp at hr)
  omega

/-! ### the stages -/

theorem ripperStepCn_safe (hR : R.Lawful) (hb : CatNap.build df cf = .ok cn) (hu : df.UniqueIndex)
    {ps : Rat} (hps : hp.pruneSize = some ps) {st : RipSt R} (hf : st.neg.length < fuel) :
    ∃ o, ripperStepCn fuel R cn hp allPos allNeg st = .ok o := by
  have hw := CatNap.build_WF hb
  unfold ripperStepCn
  split
  · exact ⟨_, rfl⟩
  split
  · exact ⟨_, rfl⟩
  rcases hp1 : randomSplit R st.g st.pos (Arith.complement ps) hp.randomState with ⟨a, b, g1⟩
  rcases hp2 : randomSplit R g1 st.neg (Arith.complement ps) hp.randomState with ⟨c, d, g2⟩
  have h1 := split_fst_le hR hp2
  obtain ⟨r, hr⟩ := grow_total (fuel := fuel) hw (lim := hp.lim) (pos := a) (neg := c) (init := []) (by omega)
  simp only [hps, hp1, hp2, hr, ok_bind]
  split
  · exact ⟨_, rfl⟩
  split
  · exact ⟨_, rfl⟩
  rename_i hrn
  show ∃ o, (ripPrune cn ps b d r >>= _) = .ok o
  obtain ⟨p, hpr⟩ := ripPrune_total (cn := cn) ps b d r
  rw [hpr, ok_bind]
  have hgood : GoodRule df cf p := (goodRule_closed hb hu).pre _ _
    ((goodRule_closed hb hu).grow hw (goodRule_closed hb hu).nil hr) (ripPrune_prefix hpr).1
  have hne : p.length ≠ 0 := fun h => hrn ((ripPrune_prefix hpr).2 (List.length_eq_zero_iff.mp h))
  have hcount := hgood.count hb
  obtain ⟨t, ht⟩ := ruleTheory_ok (n := cn.conds.length) (k := p.length) (by omega)
  obtain ⟨e, he⟩ := exceptionsCn_ok (cn := cn) (st.rules ++ [p]) allPos allNeg
  simp only [ht, he, ok_bind]
  exact ⟨_, rfl⟩

theorem RipAdd.allGood (hb : CatNap.build df cf = .ok cn) (hu : df.UniqueIndex) {st st' : RipSt R}
    {rule : List Cond} (h : RipAdd fuel R cn hp allPos allNeg st st' rule) (hg : AllGood df cf cn st.rules) :
    AllGood df cf cn st'.rules := by
  have hgood : GoodRule df cf rule := (goodRule_closed hb hu).add (CatNap.build_WF hb) h
  have hc := hgood.count hb
  have hne : rule.length ≠ 0 := fun h0 => h.grown.1 (List.length_eq_zero_iff.mp h0)
  rw [h.rules]
  refine ⟨fun r hr => ?_, fun _ => by omega⟩
  rcases List.mem_append.mp hr with hr | hr
  · exact hg.good r hr
  · simp at hr; subst hr; exact hgood

theorem ripperGrowCn_safe (hR : R.Lawful) (hb : CatNap.build df cf = .ok cn) (hu : df.UniqueIndex)
    {ps : Rat} (hps : hp.pruneSize = some ps) {init : List (List Cond)} (hi : AllGood df cf cn init)
    {pos neg : List Label} (hsub : ∀ l ∈ pos, l ∈ cn.all) (hf : pos.length < fuel ∧ neg.length < fuel) (g : R.G) :
    ∃ st, ripperGrowCn fuel R cn hp init pos neg g = .ok st ∧ AllGood df cf cn st.rules := by
  unfold ripperGrowCn
  refine pyWhile_total (Q := fun a : RipSt R => AllGood df cf cn a.rules)
    (I := fun s : RipSt R => (∀ l ∈ s.pos, l ∈ cn.all) ∧ s.neg.length < fuel ∧ AllGood df cf cn s.rules)
    (m := fun s => s.pos.length) ?_ fuel _ ⟨hsub, hf.2, hi⟩ hf.1
  intro s hI
  obtain ⟨o, ho⟩ := ripperStepCn_safe (allPos := pos) (allNeg := neg) hR hb hu hps hI.2.1
  cases o with
  | done a =>
    refine Or.inl ⟨a, ho, ?_⟩
    rw [(ripperStepCn_done ho).1]
    exact hI.2.2
  | more s' =>
    obtain ⟨rule, ha⟩ := ripperStepCn_more ho
    have := ha.neg_sub.length_le
    exact Or.inr ⟨s', ho, ⟨fun l hl => hI.1 l (ha.pos_sub l hl), by have := hI.2.1; omega,
      ha.allGood hb hu hI.2.2⟩, ha.pos_lt hR (CatNap.build_WF hb) hI.1⟩

theorem pruneOpt_total {b d : List Label} (hbne : b ≠ []) {rule : List Cond} {rules : List (List Cond)} {i : Nat}
    (h0 : rules[i]? = some rule) :
    ∃ p, pruneRuleOn (ripperOptMetricCn cn b d) rule rules i = .ok (some p) := by
  have hpl : 0 < b.length := List.length_pos_of_ne_nil hbne
  let val : List Cond → Rat := fun r => Arith.quot (((cn.ruleCovers r (some b)).length : Int) +
    ((d.length : Int) - (cn.ruleCovers r (some d)).length)) ((b.length : Int) + d.length)
  have hm : ∀ r, ripperOptMetricCn cn b d r = .ok (some (val r)) := by
    intro r
    unfold ripperOptMetricCn
    simp only
    rw [if_neg (by omega)]
  have hnn : ∀ r, 0 ≤ val r := by
    intro r
    have := ruleCovers_length_le (cn := cn) (r := r) (s := d)
    exact Arith.Lawful.quot_nonneg _ _ (by omega) (by omega)
  rw [pruneRuleOn_eq_pruneRule h0 (fun k _ _ => hm _) (hnn _)]
  cases h : pruneRule (ripperOptMetricCn cn b d) rule with
  | error e => obtain ⟨x, hx⟩ := pruneRule_error h; rw [hm] at hx; cases hx
  | ok o =>
    cases o with
    | none => obtain ⟨x, hx⟩ := pruneRule_none h; rw [hm] at hx; cases hx
    | some p => exact ⟨p, rfl⟩

omit [Arith] [Arith.Lawful] in
theorem mem_iReplaced {α : Type} {l : List α} {i : Nat} {v x : α} (h : x ∈ iReplaced l i (some v)) :
    x = v ∨ x ∈ l := by
  unfold iReplaced at h
  simp only [List.append_assoc, List.mem_append, List.mem_singleton] at h
  rcases h with h | h | h
  · exact Or.inr (List.mem_of_mem_take h)
  · exact Or.inl h
  · exact Or.inr (List.mem_of_mem_drop h)

theorem optimizeChoice_safe (hb : CatNap.build df cf = .ok cn) (hu : df.UniqueIndex)
    {original : List (List Cond)} (hg : AllGood df cf cn original) {odl : Rat} {i : Nat} (hi : i < original.length)
    {rule : List Cond} (hr : GoodRule df cf rule) {a b c d : List Label} (hf : c.length < fuel) (hbne : b ≠ []) :
    ∃ best, optimizeChoice fuel cn hp original odl i rule allPos allNeg a b c d = .ok best := by
  have hw := CatNap.build_WF hb
  have hcl := goodRule_closed (cn := cn) hb hu
  have htwo : 2 ≤ cn.conds.length := hg.two (by rintro rfl; simp at hi)
  let lim : Limits := { minRuleSamples := hp.lim.minRuleSamples }
  obtain ⟨gRep, h1⟩ := grow_total (fuel := fuel) hw (lim := lim) (pos := a) (neg := c) (init := []) hf
  obtain ⟨gRev, h3⟩ := grow_total (fuel := fuel) hw (lim := lim) (pos := a) (neg := c) (init := rule) hf
  obtain ⟨pRep, h2⟩ := pruneOpt_total (cn := cn) (d := d) hbne (iReplaced_getElem original i gRep hi)
  obtain ⟨pRev, h4⟩ := pruneOpt_total (cn := cn) (d := d) hbne (iReplaced_getElem original i gRev hi)
  have hgood : ∀ p, GoodRule df cf p → ∃ t, totalBitsCn cn (iReplaced original i (some p)) allPos allNeg = .ok t := by
    intro p hp
    refine totalBitsCn_ok ?_ _ _
    refine AllGood.fits hb ⟨?_, fun _ => htwo⟩
    intro r hr
    rcases mem_iReplaced hr with rfl | hr
    · exact hp
    · exact hg.good r hr
  obtain ⟨t1, ht1⟩ := hgood pRep (hcl.pre _ _ (hcl.grow hw hcl.nil h1)
    (pruneRuleOn_prefix (iReplaced_getElem _ _ _ hi) h2).1)
  obtain ⟨t2, ht2⟩ := hgood pRev (hcl.pre _ _ (hcl.grow hw hr h3)
    (pruneRuleOn_prefix (iReplaced_getElem _ _ _ hi) h4).1)
  have e1 : ∃ u, (if condsEq pRep rule = true then (.ok odl : Except PyErr Rat)
      else totalBitsCn cn (iReplaced original i (some pRep)) allPos allNeg) = .ok u := by
    split
    · exact ⟨_, rfl⟩
    · exact ⟨_, ht1⟩
  have e2 : ∃ u, (if condsEq pRev rule = true then (.ok odl : Except PyErr Rat)
      else totalBitsCn cn (iReplaced original i (some pRev)) allPos allNeg) = .ok u := by
    split
    · exact ⟨_, rfl⟩
    · exact ⟨_, ht2⟩
  obtain ⟨u1, e1⟩ := e1
  obtain ⟨u2, e2⟩ := e2
  unfold optimizeChoice
  simp only [lim] at h1 h3
  simp only [h1, h2, h3, h4, ok_bind, e1, e2]
  simp only [argmin, ok_bind]
  split <;> exact ⟨_, rfl⟩

theorem optimizeLoop_safe (hR : R.Lawful) (hb : CatNap.build df cf = .ok cn) (hu : df.UniqueIndex)
    {ps : Rat} (hp0 : Arith.LeavesSome ps) {rs : Option Int} {original : List (List Cond)}
    (hg : AllGood df cf cn original) {odl : Rat} :
    ∀ (rest : List (List Cond)) (i : Nat) (new : List (List Cond)) (pos neg : List Label) (g : R.G),
    i + rest.length = original.length → (∀ r ∈ rest, GoodRule df cf r) → neg.length < fuel →
    ∃ out, optimizeLoop fuel R cn hp ps rs original odl allPos allNeg i rest new pos neg g = .ok out := by
  intro rest
  induction rest with
  | nil => intros; exact ⟨_, rfl⟩
  | cons rule rest ih =>
    intro i new pos neg g hlen hgr hf
    rw [optimizeLoop]
    rcases hs1 : randomSplit R g pos (Arith.complement ps) rs with ⟨a, b, g1⟩
    rcases hs2 : randomSplit R g1 neg (Arith.complement ps) rs with ⟨c, d, g2⟩
    have h1 := split_fst_le hR hs2
    have h2 := split_fst_le hR hs1
    have hl : (setDiff neg (cn.ruleCovers rule (some neg))).length ≤ neg.length := List.length_filter_le _ _
    simp only [hs2]
    split
    · exact ⟨_, rfl⟩
    rename_i hane
    split
    · exact ⟨_, rfl⟩
    have hpne : pos ≠ [] := by
      rintro rfl
      exact hane (List.length_eq_zero_iff.mp (by simpa using h2))
    have hbne : b ≠ [] := by
      have := randomSplit_prune_ne_nil hR g (l := pos) (q := Arith.complement ps) rs (hp0 _ (List.length_pos_of_ne_nil hpne)).1
        (hp0 _ (List.length_pos_of_ne_nil hpne)).2
      rw [hs1] at this
      exact this
    simp only [List.length_cons] at hlen
    obtain ⟨best, hbest⟩ := optimizeChoice_safe (fuel := fuel) (hp := hp) (allPos := allPos) (allNeg := allNeg)
      (odl := odl) (a := a) (b := b) (c := c) (d := d) hb hu hg (i := i) (by omega) (hgr rule (by simp))
      (by omega) hbne
    rw [hbest, ok_bind]
    split
    · exact ⟨_, rfl⟩
    · exact ih _ _ _ _ _ (by omega) (fun r hr => hgr r (by simp [hr])) (by simp only [rmRuleCoversCn]; omega)

theorem optimizeCn_safe (hR : R.Lawful) (hb : CatNap.build df cf = .ok cn) (hu : df.UniqueIndex)
    {ps : Rat} (hps : hp.pruneSize = some ps) (hp0 : Arith.LeavesSome ps) {rs : Option Int}
    {rules : List (List Cond)} (hg : AllGood df cf cn rules) (hf : allNeg.length < fuel) (g : R.G) :
    ∃ out g', optimizeCn fuel R cn hp rs rules allPos allNeg g = .ok (out, g') ∧ AllGood df cf cn out := by
  obtain ⟨⟨mdl, odl⟩, hbs⟩ := bestSubsetCn_ok (hg.fits hb) allPos allNeg
  obtain ⟨⟨out, g'⟩, ho⟩ := optimizeLoop_safe (fuel := fuel) (hp := hp) (allPos := allPos) (allNeg := allNeg)
    (odl := odl) (rs := rs) hR hb hu hp0 hg rules 0 rules allPos allNeg g (by simp) hg.good hf
  have : optimizeCn fuel R cn hp rs rules allPos allNeg g = .ok (out, g') := by
    unfold optimizeCn
    simp only [hbs, ok_bind, hps, ho]
  refine ⟨out, g', this, (goodRule_closed hb hu).optimize (CatNap.build_WF hb) this hg.good, ?_⟩
  intro hne
  obtain ⟨_, _, _, hl, _⟩ := optimizeCn_spec this
  exact hg.two (by rintro rfl; exact hne (List.length_eq_zero_iff.mp (by simpa using hl)))

theorem stage2_safe (hR : R.Lawful) (hb : CatNap.build df cf = .ok cn) (hu : df.UniqueIndex)
    {ps : Rat} (hps : hp.pruneSize = some ps) (hp0 : Arith.LeavesSome ps) (hf : allNeg.length < fuel) :
    ∀ (n : Nat) (rules : List (List Cond)) (g : R.G), AllGood df cf cn rules →
    ∃ out g', stage2 fuel R cn hp allPos allNeg n rules g = .ok (out, g') ∧ AllGood df cf cn out := by
  intro n
  induction n with
  | zero => intro rules g hg; exact ⟨_, _, rfl, hg⟩
  | succ n ih =>
    intro rules g hg
    obtain ⟨new, g1, ho, hg1⟩ := optimizeCn_safe (allPos := allPos) (rs := hp.randomState.map (· + 100))
      hR hb hu hps hp0 hg hf g
    rw [stage2, ho, ok_bind]
    simp only
    split
    · exact ⟨_, _, rfl, hg⟩
    · exact ih _ _ hg1

theorem ripperStages_safe (hR : R.Lawful) (hb : CatNap.build df cf = .ok cn) (hu : df.UniqueIndex)
    {ps : Rat} (hps : hp.pruneSize = some ps) (hp0 : Arith.LeavesSome ps) {init : List (List Cond)}
    (hi : AllGood df cf cn init) {pos neg : List Label} (hsub : ∀ l ∈ pos, l ∈ cn.all)
    (hf : pos.length < fuel ∧ neg.length < fuel) (g : R.G) :
    ∃ out g', ripperStages fuel R cn hp init pos neg g = .ok (out, g') ∧ AllGood df cf cn out := by
  obtain ⟨st, h1, hg1⟩ := ripperGrowCn_safe hR hb hu hps hi hsub hf g
  obtain ⟨r2, g2, h2, hg2⟩ := stage2_safe (allPos := pos) hR hb hu hps hp0 hf.2 hp.k.toNat st.rules st.g hg1
  have h3 : ∃ r3 g3, coverRemainingCn fuel R cn hp r2 pos neg g2 = .ok (r3, g3) ∧ AllGood df cf cn r3 := by
    unfold coverRemainingCn
    split
    · obtain ⟨st3, h, hg⟩ := ripperGrowCn_safe hR hb hu hps hg2 hsub hf g2
      rw [h]
      exact ⟨_, _, rfl, hg⟩
    · exact ⟨_, _, rfl, hg2⟩
  obtain ⟨r3, g3, h3, hg3⟩ := h3
  obtain ⟨⟨r4, dl⟩, h4⟩ := bestSubsetCn_ok (hg3.fits hb) pos neg
  refine ⟨r4, g3, ?_, ?_⟩
  · unfold ripperStages
    simp only [h1, h2, h3, h4, ok_bind, pure_eq_ok]
  · have hs := bestSubsetCn_sublist h4
    exact ⟨fun r hr => hg3.good r (hs.subset hr),
      fun hne => hg3.two (by rintro rfl; exact hne (List.sublist_nil.mp hs))⟩

end Witt
