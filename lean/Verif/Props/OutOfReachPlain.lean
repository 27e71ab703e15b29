import Verif.Props.OutOfReach
import Verif.Props.VerbosePlain
import Verif.Lemmas.PlainRipper
/-
C109 with `cn_optimize=False`: limits out of reach have no effect on the plain methods either, whatever the row labels.
-/
namespace Witt
open Spec

theorem FrameUseful.newFeature [Arith] {cands : List Cond} {pos neg : Frame} {r : List Cond} {c : Cond}
    (h : FrameUseful cands pos neg r c) : ∀ d ∈ r, d.feature ≠ c.feature := by
  intro d hd he
  obtain ⟨row, _, hk⟩ := h.keeps
  obtain ⟨row', _, h1, h2⟩ := h.loses
  rw [condsMet_iff] at hk h1
  have a1 : (row.cell d.feature).pyEq d.val = true := Cond.met_iff.mpr (hk d (by simp [hd]))
  have a2 : (row.cell c.feature).pyEq c.val = true := Cond.met_iff.mpr (hk c (by simp))
  have a3 : (row'.cell d.feature).pyEq d.val = true := Cond.met_iff.mpr (h1 d hd)
  unfold Cond.met at h2
  rw [← he] at a2 h2
  have a4 : d.val.pyEq c.val = true := Val.pyEq_trans (by rw [Val.pyEq_symm]; exact a1) a2
  rw [Val.pyEq_trans a3 a4] at h2
  cases h2

theorem FrameChain.distinct [Arith] {cands : List Cond} {pos neg : Frame} {r : List Cond} (h : FrameChain cands pos neg [] r) :
    (r.map Cond.feature).Nodup ∧ ∀ c ∈ r, c.feature ∈ neg.cols := by
  induction h with
  | refl => exact ⟨List.nodup_nil, by simp⟩
  | @snoc r c _ hu ih =>
    refine ⟨?_, ?_⟩
    · rw [List.map_append, List.map_singleton, List.nodup_append]
      refine ⟨ih.1, by simp, ?_⟩
      intro f hf f' hf' he
      obtain ⟨d, hd, rfl⟩ := List.mem_map.mp hf
      simp only [List.mem_singleton] at hf'
      exact hu.newFeature d hd (he.trans hf')
    · intro d hd
      rcases List.mem_append.mp hd with hd | hd
      · exact ih.2 d hd
      · simp only [List.mem_singleton] at hd; subst hd; exact hu.negCol

theorem FrameChain.short [Arith] {cands : List Cond} {pos neg : Frame} {r : List Cond} (h : FrameChain cands pos neg [] r) :
    r.length ≤ neg.cols.length := by
  obtain ⟨h1, h2⟩ := h.distinct
  have h3 := (List.subperm_of_subset h1 (l₂ := neg.cols) (by
    intro f hf; obtain ⟨c, hc, rfl⟩ := List.mem_map.mp hf; exact h2 c hc)).length_le
  rwa [List.length_map] at h3

section
variable [Arith] {R : PyRandom} {fuel : Nat} {n c : Nat} {l l' : Limits} {cands : List Cond}

omit [Arith] in
theorem numCoveredC_same {r : List Cond} {pos neg : Frame} (hc : pos.cols = neg.cols) {m : Nat} (h : numCoveredC r neg = .ok m) :
    numCoveredC r pos = .ok (rowHits r pos) := by
  have h2 := (numCoveredC_ok h).2
  rcases numCoveredC_cases r pos with ⟨h1, _⟩ | ⟨_, hn⟩
  · exact h1
  · exact absurd (fun c hd => hc ▸ h2 c hd) hn

theorem growStep_reach (h : SameReach n c l l') {pos neg : Frame} (hc : pos.cols = neg.cols) {r : List Cond} (hr : r.length < c) :
    growStep cands l pos neg r = growStep cands l' pos neg r := by
  unfold growStep
  cases hn : numCoveredC r neg with
  | error e => rfl
  | ok m =>
  simp only [ok_bind]
  by_cases h0 : m = 0
  · rw [if_pos h0, if_pos h0]
  rw [if_neg h0, if_neg h0]
  have hp := numCoveredC_same hc hn
  have h1 : atLeast r.length l.maxRuleConds = atLeast r.length l'.maxRuleConds := by
    rcases h.conds with h | ⟨h, h'⟩
    · rw [h]
    · rw [outOfReach_not h hr, outOfReach_not h' hr]
  rcases h.samples with hs | ⟨⟨hs, hs'⟩, hc, hc'⟩
  · unfold userHalt haltRule
    rw [h1, hs]
  · have : ∀ {l : Limits}, AtMostOne l.minRuleSamples → OutOfReach c l.maxRuleConds → ∀ k : Nat,
        userHalt l r m k = false := by
      intro l hs hc k
      unfold userHalt
      rw [outOfReach_not hc hr, atMostOne_not hs (by omega)]
      rfl
    rw [hp]
    have e : ∀ l : Limits, (if l.minRuleSamples.isSome = true then Except.ok (ε := PyErr) (rowHits r pos) else .ok 0) =
        .ok (if l.minRuleSamples.isSome = true then rowHits r pos else 0) := by intro l; split <;> rfl
    rw [e l, e l']
    simp only [ok_bind, this hs hc, this hs' hc', Bool.false_eq_true, if_false]

theorem growStep_samples (h : SameReach n c l l') {pos neg : Frame} (hc : pos.cols = neg.cols) {r : List Cond} :
    growStep cands { minRuleSamples := l.minRuleSamples } pos neg r = growStep cands { minRuleSamples := l'.minRuleSamples } pos neg r := by
  rcases h.samples with hs | ⟨⟨hs, hs'⟩, _⟩
  · rw [hs]
  · refine growStep_reach (n := 0) (c := r.length + 1) (l := { minRuleSamples := l.minRuleSamples })
      (l' := { minRuleSamples := l'.minRuleSamples }) ⟨Or.inl rfl, rfl, Or.inl rfl, Or.inl rfl, Or.inr ⟨⟨hs, hs'⟩, ?_, ?_⟩⟩ hc (by omega)
    · intro m hm; cases hm
    · intro m hm; cases hm

theorem growRule_samples (h : SameReach n c l l') {pos neg : Frame} (hc : pos.cols = neg.cols) (init : List Cond) :
    growRule fuel cands { minRuleSamples := l.minRuleSamples } pos neg init =
      growRule fuel cands { minRuleSamples := l'.minRuleSamples } pos neg init := by
  unfold growRule
  congr 1
  funext r
  exact growStep_samples h hc

variable [Arith.Lawful]

theorem growRule_reach (h : SameReach n c l l') {pos neg : Frame} (hc : pos.cols = neg.cols) (hlt : neg.cols.length < c) :
    growRule fuel cands l pos neg [] = growRule fuel cands l' pos neg [] := by
  unfold growRule
  refine pyWhile_agree_inv (I := fun r => FrameChain cands pos neg [] r) ?_ ?_ fuel [] .refl
  · intro r r' hI hm
    obtain ⟨⟨d, rfl, hu⟩, _⟩ := growStep_more hm
    exact .snoc hI hu
  · intro r hI
    exact growStep_reach h hc (lt_of_le_of_lt hI.short hlt)

/-! ### IREP -/

theorem irepStep_reach (h : SameReach n c l l') (hp : Hyper) {st : FrameSt R} (hc : st.pos.cols = st.neg.cols)
    (hlt : st.neg.cols.length < c) (hst : st.rules.length + st.pos.rows.length ≤ n) :
    irepStep fuel R cands { hp with lim := l } st = irepStep fuel R cands { hp with lim := l' } st := by
  unfold irepStep
  by_cases h0 : st.pos.rows = []
  · rw [if_pos h0, if_pos h0]
  have hpos : 0 < st.pos.rows.length := List.length_pos_iff.mpr h0
  rw [if_neg h0, if_neg h0]
  simp only [stopEarly_reach h (rules := st.rules) (p := st.pos.rows.length) (q := st.neg.rows.length) (by omega) (by omega)]
  split
  · rfl
  have e : ({ hp with lim := l } : Hyper).irepPrune = ({ hp with lim := l' } : Hyper).irepPrune := rfl
  rw [e]
  rcases hp1 : dfShuffledSplit R st.g st.pos (Arith.complement ({ hp with lim := l' } : Hyper).irepPrune) hp.randomState with ⟨a, b, g1⟩
  rcases hp2 : dfShuffledSplit R g1 st.neg (Arith.complement ({ hp with lim := l' } : Hyper).irepPrune) hp.randomState with ⟨d, f, g2⟩
  obtain ⟨_, _, ca, _⟩ := dfSplit_sub hp1
  obtain ⟨_, _, cd, _⟩ := dfSplit_sub hp2
  simp only [growRule_reach (fuel := fuel) (cands := cands) h (pos := a) (neg := d) (by rw [ca, cd, hc]) (by rw [cd]; exact hlt)]

theorem irepGrow_reach_limits (hR : R.Lawful) (h : SameReach n c l l') (hp : Hyper) {init : List (List Cond)} {pos neg : Frame} {g : R.G}
    (hc : pos.cols = neg.cols) (hlt : neg.cols.length < c) (hn : init.length + pos.rows.length ≤ n) :
    irepGrow fuel R cands { hp with lim := l } init pos neg g = irepGrow fuel R cands { hp with lim := l' } init pos neg g := by
  unfold irepGrow
  refine pyWhile_agree_inv (I := fun st : FrameSt R => st.pos.cols = st.neg.cols ∧ st.neg.cols.length < c ∧
    st.rules.length + st.pos.rows.length ≤ n) ?_ ?_ fuel _ ⟨hc, hlt, hn⟩
  · rintro st st' ⟨h1, h2, h3⟩ hm
    obtain ⟨rule, ha⟩ := irepStep_more hm
    have h4 := ha.pos_lt hR
    have e1 : st'.pos.cols = st.pos.cols := by rw [ha.pos]; rfl
    have e2 : st'.neg.cols = st.neg.cols := by
      rcases ha.neg with ⟨_, e⟩ | ⟨_, e⟩ <;> rw [e]
      rfl
    refine ⟨by rw [e1, e2, h1], by rw [e2]; exact h2, ?_⟩
    rw [ha.rules, List.length_append, List.length_singleton]
    omega
  · rintro st ⟨h1, h2, h3⟩
    exact irepStep_reach h hp h1 h2 h3

/-! ### RIPPER -/

theorem ripperStep_reach (h : SameReach n c l l') (hp : Hyper) {allPos allNeg : Frame} {st : FrameRipSt R}
    (hc : st.pos.cols = st.neg.cols) (hlt : st.neg.cols.length < c) (hst : st.rules.length + st.pos.rows.length ≤ n) :
    ripperStep fuel R cands { hp with lim := l } allPos allNeg st = ripperStep fuel R cands { hp with lim := l' } allPos allNeg st := by
  unfold ripperStep
  by_cases h0 : st.pos.rows = []
  · rw [if_pos (Or.inl h0), if_pos (Or.inl h0)]
  have hpos : 0 < st.pos.rows.length := List.length_pos_iff.mpr h0
  simp only [stopEarly_reach h (rules := st.rules) (p := st.pos.rows.length) (q := st.neg.rows.length) (by omega) (by omega)]
  split
  · rfl
  split
  · rfl
  cases hp.pruneSize with
  | none => rfl
  | some ps =>
  rcases hp1 : dfShuffledSplit R st.g st.pos (Arith.complement ps) hp.randomState with ⟨a, b, g1⟩
  rcases hp2 : dfShuffledSplit R g1 st.neg (Arith.complement ps) hp.randomState with ⟨d, f, g2⟩
  obtain ⟨_, _, ca, _⟩ := dfSplit_sub hp1
  obtain ⟨_, _, cd, _⟩ := dfSplit_sub hp2
  simp only [hp1, hp2, growRule_reach (fuel := fuel) (cands := cands) h (pos := a) (neg := d) (by rw [ca, cd, hc]) (by rw [cd]; exact hlt)]

theorem FrameRipReach.count {hp : Hyper} {allPos allNeg : Frame} {st0 st : FrameRipSt R}
    (h : FrameRipReach fuel R cands hp allPos allNeg st0 st) :
    st.rules.length + st.pos.rows.length ≤ st0.rules.length + st0.pos.rows.length := by
  induction h with
  | start => exact le_refl _
  | add hs ha ih =>
    have := ha.pos_lt
    rw [ha.rules, List.length_append]
    simp only [List.length_cons, List.length_nil]
    omega

theorem ripperGrow_reach_limits (h : SameReach n c l l') (hp : Hyper) {init : List (List Cond)} {pos neg : Frame} {g : R.G}
    (hc : pos.cols = neg.cols) (hlt : neg.cols.length < c) (hn : init.length + pos.rows.length ≤ n) :
    ripperGrow fuel R cands { hp with lim := l } init pos neg g = ripperGrow fuel R cands { hp with lim := l' } init pos neg g := by
  unfold ripperGrow
  refine pyWhile_agree_inv (I := fun st : FrameRipSt R => st.pos.cols = st.neg.cols ∧ st.neg.cols.length < c ∧
    st.rules.length + st.pos.rows.length ≤ n) ?_ ?_ fuel _ ⟨hc, hlt, hn⟩
  · rintro st st' ⟨h1, h2, h3⟩ hm
    obtain ⟨rule, ha⟩ := ripperStep_more hm
    have h4 := ha.pos_lt
    have e1 : st'.pos.cols = st.pos.cols := by rw [ha.pos]; rfl
    have e2 : st'.neg.cols = st.neg.cols := by rw [ha.neg]; rfl
    refine ⟨by rw [e1, e2, h1], by rw [e2]; exact h2, ?_⟩
    rw [ha.rules, List.length_append, List.length_singleton]
    omega
  · rintro st ⟨h1, h2, h3⟩
    exact ripperStep_reach h hp h1 h2 h3

omit [Arith.Lawful] in
theorem optimizeChoiceDf_reach (h : SameReach n c l l') (hp : Hyper) {original : List (List Cond)} {odl : Rat} {i : Nat} {rule : List Cond}
    {allPos allNeg a b d f : Frame} (hc : a.cols = d.cols) :
    optimizeChoiceDf fuel cands { hp with lim := l } original odl i rule allPos allNeg a b d f =
      optimizeChoiceDf fuel cands { hp with lim := l' } original odl i rule allPos allNeg a b d f := by
  unfold optimizeChoiceDf
  simp only [growRule_samples (fuel := fuel) (cands := cands) h hc]

omit [Arith.Lawful] in
theorem optimizeLoopDf_reach (h : SameReach n c l l') (hp : Hyper) {ps : Rat} {rs : Option Int} {original : List (List Cond)}
    {odl : Rat} {allPos allNeg : Frame} :
    ∀ (rest : List (List Cond)) (i : Nat) (new : List (List Cond)) (pos neg : Frame) (g : R.G), pos.cols = neg.cols →
    (pos.rows ≠ [] → new.length < n) →
    optimizeLoopDf fuel R cands { hp with lim := l } ps rs original odl allPos allNeg i rest new pos neg g =
      optimizeLoopDf fuel R cands { hp with lim := l' } ps rs original odl allPos allNeg i rest new pos neg g := by
  intro rest
  induction rest with
  | nil => intros; rfl
  | cons rule rest ih =>
    intro i new pos neg g hc hn
    rw [optimizeLoopDf, optimizeLoopDf]
    rcases hp1 : dfShuffledSplit R g pos (Arith.complement ps) rs with ⟨a, b, g1⟩
    rcases hp2 : dfShuffledSplit R g1 neg (Arith.complement ps) rs with ⟨d, f, g2⟩
    obtain ⟨sa, _, ca, _⟩ := dfSplit_sub hp1
    obtain ⟨_, _, cd, _⟩ := dfSplit_sub hp2
    simp only [hp2]
    by_cases ha : a.rows = []
    · rw [if_pos ha, if_pos ha]
    obtain ⟨row, hrow⟩ := List.exists_mem_of_ne_nil _ ha
    have hne : pos.rows ≠ [] := List.ne_nil_of_mem (sa row hrow)
    have hpos : 0 < pos.rows.length := List.length_pos_iff.mpr hne
    have hlt := hn hne
    rw [if_neg ha, if_neg ha]
    simp only [stopEarly_reach h (rules := new) (p := pos.rows.length) (q := neg.rows.length) hlt (by omega),
      optimizeChoiceDf_reach (fuel := fuel) h hp (show a.cols = d.cols by rw [ca, cd, hc])]
    split
    · rfl
    refine bind_congr fun best => ?_
    refine bind_congr_ok fun x hx => ?_
    obtain ⟨pos', neg'⟩ := x
    obtain ⟨e1, e2, _⟩ := rmCoveredRule_ok hx
    dsimp only
    rw [ih _ _ pos' neg' _ (by rw [e1, e2]; exact hc) (fun _ => by rw [List.length_set]; exact hlt)]

omit [Arith.Lawful] in
theorem optimizeDf_reach (h : SameReach n c l l') (hp : Hyper) {rs : Option Int} {allPos allNeg : Frame}
    {rules : List (List Cond)} {g : R.G} (hc : allPos.cols = allNeg.cols) (hn : allPos.rows ≠ [] → rules.length < n) :
    optimizeDf fuel R cands { hp with lim := l } rs rules allPos allNeg g =
      optimizeDf fuel R cands { hp with lim := l' } rs rules allPos allNeg g := by
  unfold optimizeDf
  refine bind_congr fun x => ?_
  obtain ⟨mdl, odl⟩ := x
  dsimp only
  have hl := fun ps => optimizeLoopDf_reach (R := R) (cands := cands) (fuel := fuel) h hp (ps := ps) (rs := rs) (original := rules) (odl := odl)
    (allPos := allPos) (allNeg := allNeg) rules 0 rules allPos allNeg g hc hn
  obtain ⟨ps, k, a, lim, al, r⟩ := hp
  cases ps with
  | none => rfl
  | some ps => exact hl ps

omit [Arith.Lawful] in
theorem stage2Df_reach (h : SameReach n c l l') (hp : Hyper) {allPos allNeg : Frame} (hc : allPos.cols = allNeg.cols) :
    ∀ (k : Nat) (rules : List (List Cond)) (g : R.G), (allPos.rows ≠ [] → rules.length < n) →
    stage2Df fuel R cands { hp with lim := l } allPos allNeg k rules g = stage2Df fuel R cands { hp with lim := l' } allPos allNeg k rules g := by
  intro k
  induction k with
  | zero => intros; rfl
  | succ k ih =>
    intro rules g hn
    rw [stage2Df, stage2Df, optimizeDf_reach h hp hc hn]
    refine bind_congr_ok fun x hx => ?_
    obtain ⟨new, g'⟩ := x
    dsimp only
    split
    · rfl
    · refine ih new g' (fun hne => ?_)
      obtain ⟨_, _, _, hl, _⟩ := optimizeDf_spec hx
      rw [hl]; exact hn hne

theorem ripperStagesDf_reach {S : SetOps} {old : Option (List Cond)} (h : SameReach n c l l') (hp : Hyper)
    {init : List (List Cond)} {pos neg : Frame} {g : R.G} (hc : pos.cols = neg.cols) (hlt : neg.cols.length < c)
    (hn : init.length + 2 * pos.rows.length ≤ n) :
    ripperStagesDf fuel R S { hp with lim := l } old init pos neg g = ripperStagesDf fuel R S { hp with lim := l' } old init pos neg g := by
  unfold ripperStagesDf
  dsimp only
  rw [ripperGrow_reach_limits h hp hc hlt (by omega)]
  refine bind_congr_ok fun st hst => ?_
  obtain ⟨s, hs1, he, _⟩ := ripperGrow_reach hst
  have hc1 := hs1.count
  have hlen : st.rules.length ≤ init.length + pos.rows.length := by rw [he]; simp only at hc1; omega
  have hlt' : pos.rows ≠ [] → st.rules.length < n := fun hne => by
    have := List.length_pos_iff.mpr hne
    omega
  rw [stage2Df_reach h hp hc _ _ _ hlt']
  refine bind_congr_ok fun x hx => ?_
  obtain ⟨r2, g2⟩ := x
  have h2 : r2.length = st.rules.length :=
    stage2Df_spec (P := fun rules => rules.length = st.rules.length)
      (fun rules out g g' hr ho => by
        obtain ⟨_, _, _, hl, _⟩ := optimizeDf_spec ho
        rw [hl, hr]) _ _ _ _ _ rfl hx
  dsimp only
  have hcov : ∀ cs : List Cond, coverRemainingDf fuel R S cs { hp with lim := l } r2 pos neg g2 =
      coverRemainingDf fuel R S cs { hp with lim := l' } r2 pos neg g2 := by
    intro cs
    unfold coverRemainingDf
    refine bind_congr_ok fun y hy => ?_
    obtain ⟨pos', neg'⟩ := y
    obtain ⟨s1, _, s3, s4⟩ := rmCoveredRuleset_sub hy
    have := s1.length_le
    dsimp only
    rw [ripperGrow_reach_limits h hp (by rw [s3, s4, hc]) (by rw [s4]; exact hlt) (by omega)]
  rw [hcov]

end

theorem dropCol_lt {df : Frame} {cf : Feat} (hcf : cf ∈ df.cols) : (df.dropCol cf).cols.length < df.cols.length := by
  show (df.cols.filter (fun f => decide (f ≠ cf))).length < df.cols.length
  rcases Nat.lt_or_ge (df.cols.filter (fun f => decide (f ≠ cf))).length df.cols.length with h | h
  · exact h
  · have := (List.filter_sublist (l := df.cols)).eq_of_length_le h
    rw [List.filter_eq_self] at this
    have := this cf hcf
    simp at this

/-- C109 for IREP with `cn_optimize=False`, on any labelled frame. -/
theorem C109_irep_plain [Arith] [Arith.Lawful] (R : PyRandom) (hR : R.Lawful) (S : SetOps) (hp : Hyper) (old : Option (List Cond))
    (init : List (List Cond)) (df : Frame) (cf : Feat) (pc : Val) (l l' : Limits)
    (h : SameReach (init.length + (posRows df cf pc).rows.length) df.cols.length l l') (fuel : Nat) (g : R.G) :
    irepFitPlain fuel R S { hp with lim := l } old init df cf pc g = irepFitPlain fuel R S { hp with lim := l' } old init df cf pc g := by
  unfold irepFitPlain
  split
  · rfl
  split
  · rfl
  rename_i hcf
  rw [not_not] at hcf
  dsimp only
  rw [irepGrow_reach_limits hR h hp (pos := posExamples df cf pc) (neg := negExamples df cf pc) rfl (dropCol_lt hcf) (le_refl _), h.total]

/-- C109 for RIPPER with `cn_optimize=False`, on any labelled frame. -/
theorem C109_ripper_plain [Arith] [Arith.Lawful] (R : PyRandom) (S : SetOps) (hp : Hyper) (old : Option (List Cond))
    (init : List (List Cond)) (df : Frame) (cf : Feat) (pc : Val) (l l' : Limits)
    (h : SameReach (init.length + 2 * (posRows df cf pc).rows.length) df.cols.length l l') (fuel : Nat) (g : R.G) :
    ripperFitPlain fuel R S { hp with lim := l } old init df cf pc g = ripperFitPlain fuel R S { hp with lim := l' } old init df cf pc g := by
  unfold ripperFitPlain
  split
  · rfl
  split
  · rfl
  rename_i hcf
  rw [not_not] at hcf
  rw [ripperStagesDf_reach h hp (pos := posExamples df cf pc) (neg := negExamples df cf pc) rfl (dropCol_lt hcf) (le_refl _)]
  dsimp only
  rw [h.total]

/-- C109 for the API with `cn_optimize=False`: on any data, whatever its row labels, `fit` of a classifier with other limits, differing
only out of reach, raises the same exception, or leaves the same object but for the limits stored in it. -/
theorem C109_fit_plain [Arith] [Arith.Lawful] (S : SetOps) (a : Method) (ha : a = .irepPlain S ∨ a = .ripperPlain S) (R : PyRandom)
    (hR : R.Lawful) (F : PyFloat) (P : PandasCut) (d : FitData) (init : ModelArg) (c : Clf) (l : Limits)
    (h : ∀ start, init.toRuleset = .ok start →
      SameReach (start.rules.length + 2 * d.X.rows.length) ((d.names.getD d.X.cols).length + 1) c.hyper.lim l) (fuel : Nat) (g : R.G) :
    completed (a.fit fuel R F P d init g (c.withLimits l)) =
      (completed (a.fit fuel R F P d init g c)).map (fun p => (p.1, p.2.withLimits l)) := by
  rw [Method.fit_completed, Method.fit_completed]
  cases a.early init with
  | error e => rfl
  | ok _ =>
  simp only [ok_bind]
  have hn : (c.withLimits l).nBins = c.nBins := rfl
  have hh : (c.withLimits l).hyper = { c.hyper with lim := l } := rfl
  rw [hn, hh]
  cases hpre : preprocessTraining F P c.nBins d with
  | error e => rfl
  | ok q =>
  obtain ⟨df, cf, pc, b⟩ := q
  simp only [ok_bind]
  cases hinit : init.toRuleset with
  | error e => rfl
  | ok start =>
  obtain ⟨_, hcf, df0, ht, _, _, _, _, _, hc, _⟩ := preprocessTraining_ok hpre
  have hcl := toTraining_cols_length ht
  rw [← hc] at hcl
  have hpl : (posRows df.toFrame cf pc).rows.length ≤ d.X.rows.length := by
    rw [← preprocessTraining_length hpre]
    simp only [posRows, Frame.keep]
    exact List.length_filter_le _ _
  have h' := h start hinit
  have htrain : a.train fuel R { c.hyper with lim := l } start.possible (start.rules.map Rule.conds) df.toFrame cf pc g =
      a.train fuel R c.hyper start.possible (start.rules.map Rule.conds) df.toFrame cf pc g := by
    rcases ha with rfl | rfl
    · exact (C109_irep_plain R hR S c.hyper _ _ df.toFrame cf pc c.hyper.lim l
        (h'.mono (by rw [List.length_map]; omega) hcl) fuel g).symm
    · exact (C109_ripper_plain R S c.hyper _ _ df.toFrame cf pc c.hyper.lim l
        (h'.mono (by rw [List.length_map]; omega) hcl) fuel g).symm
  simp only [ok_bind, htrain]
  cases a.train fuel R c.hyper start.possible (start.rules.map Rule.conds) df.toFrame cf pc g with
  | error e => rfl
  | ok mg => rfl

open Demo in
/-- The hypotheses hold of exclusive or, with four limits out of reach: the same two rules as without them. -/
example : (∀ start, ModelArg.toRuleset .nothing = .ok start →
      SameReach (start.rules.length + 2 * xorData.X.rows.length) ((xorData.names.getD xorData.X.cols).length + 1) newIrep.hyper.lim
        outOfReach) ∧
    rulesOf (after (Clf.irepFitPlain 5 R0 S0 F P xorData .nothing () newIrep)) =
      some [[⟨fa, vx⟩, ⟨fb, vx⟩], [⟨fa, vy⟩, ⟨fb, vy⟩]] ∧
    rulesOf (after (Clf.irepFitPlain 5 R0 S0 F P xorData .nothing () (newIrep.withLimits outOfReach))) =
      some [[⟨fa, vx⟩, ⟨fb, vx⟩], [⟨fa, vy⟩, ⟨fb, vy⟩]] := by
  refine ⟨?_, by decide +kernel, by decide +kernel⟩
  intro start hs
  have h0 : start.rules.length = 0 := by cases hs; rfl
  have hr : xorData.X.rows.length = 4 := by decide +kernel
  have hc : (xorData.names.getD xorData.X.cols).length = 2 := by decide +kernel
  rw [h0, hr, hc]
  have hnone : ∀ n, OutOfReach n none := fun n m hm => by cases hm
  have hnone' : AtMostOne none := fun m hm => by cases hm
  have hsome : ∀ n m : Nat, n ≤ m → OutOfReach n (some (m : Int)) := fun n m h k hk => by cases hk; exact_mod_cast h
  have hone : AtMostOne (some 1) := fun m hm => by cases hm; exact le_refl _
  exact ⟨.inr ⟨hnone _, hsome 8 8 (by decide)⟩, rfl, .inr ⟨hnone', hone⟩, .inr ⟨hnone _, hsome 3 3 (by decide)⟩,
    .inr ⟨⟨hnone', hone⟩, hnone _, hsome 3 3 (by decide)⟩⟩

end Witt
