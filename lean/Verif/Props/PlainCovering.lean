import Verif.Props.Covering
/-
C91 with `cn_optimize=False`: separate and conquer on DataFrames.
-/
namespace Witt
open Spec

namespace Spec
/-- The rows of the frame no rule of `earlier` fires on, in their order. -/
def UncoveredRows (earlier : List (List Cond)) (d : Frame) : List Row :=
  d.rows.filter (fun row => decide (∀ r ∈ earlier, ¬ FiresC row r))

/-- How many rows the rule fires on. -/
def firings (r : List Cond) (d : Frame) : Nat := (d.rows.filter (fun row => decide (FiresC row r))).length

/-- The share of the rows the rule classifies correctly, as the program computes it. -/
def rowsCorrect [Arith] (pos neg : Frame) (r : List Cond) : Rat :=
  Arith.quot ((firings r pos : Int) + ((neg.rows.length : Int) - firings r neg)) ((pos.rows.length : Int) + neg.rows.length)

/-- RIPPER's worth of a rule, `(p - n + 1) / (p + n + 1)`. -/
def rowsWorth [Arith] (pos neg : Frame) (r : List Cond) : Rat :=
  Arith.quot ((firings r pos : Int) - firings r neg + 1) ((firings r pos : Int) + firings r neg + 1)

/-- Of the rows the rule fires on, at least half are positive (and there is one). -/
def RowsHalfRight [Arith] (pos neg : Frame) (r : List Cond) : Prop :=
  0 < firings r pos + firings r neg ∧ 1 / 2 ≤ Arith.quot (firings r pos) ((firings r pos : Int) + firings r neg)

/-- IREP proposes `rule` from the rows left, as in `IrepProposes`. -/
def IrepProposesPlain [Arith] (fuel : Nat) (cands : List Cond) (hp : Hyper) (posLeft negLeft : List Row)
    (rule : List Cond) (taken : Prop) : Prop :=
  ∃ growPos prunePos growNeg pruneNeg grown,
    (growPos.rows ++ prunePos.rows).Perm posLeft ∧ (growNeg.rows ++ pruneNeg.rows).Perm negLeft ∧
    growRule fuel cands hp.lim growPos growNeg [] = .ok grown ∧
    ((hp.irepPrune = 0 ∧ prunePos.rows = [] ∧ pruneNeg.rows = [] ∧ rule = grown ∧ taken) ∨
     (hp.irepPrune ≠ 0 ∧ BestCut (rowsCorrect prunePos pruneNeg) grown rule ∧
      (taken ↔ RowsHalfRight prunePos pruneNeg rule)))

/-- RIPPER learns `rule` from the rows left: as in `RipperLearns`, except that a grown rule is always cut. -/
def RipperLearnsPlain [Arith] (fuel : Nat) (cands : List Cond) (hp : Hyper) (posLeft negLeft : List Row)
    (rule : List Cond) : Prop :=
  ∃ growPos prunePos growNeg pruneNeg grown,
    (growPos.rows ++ prunePos.rows).Perm posLeft ∧ (growNeg.rows ++ pruneNeg.rows).Perm negLeft ∧ growPos.rows ≠ [] ∧
    growRule fuel cands hp.lim growPos growNeg [] = .ok grown ∧ grown ≠ [] ∧
    CutBy (rowsWorth prunePos pruneNeg) grown rule
end Spec

theorem firings_eq (r : List Cond) (d : Frame) : rowHits r d = firings r d := by
  unfold rowHits firings
  congr 2
  funext row
  rw [Bool.eq_iff_iff, decide_eq_true_eq, condsMet_iff]

theorem uncoveredRows_nil (d : Frame) : UncoveredRows [] d = d.rows := by
  unfold UncoveredRows; simp

theorem dropHits_rows {d : Frame} (hu : d.UniqueIndex) (r : List Cond) :
    (d.dropLabels (hitLabels r d)).rows = d.rows.filter (fun row => decide (¬ FiresC row r)) := by
  unfold Frame.dropLabels
  apply List.filter_congr
  intro row hrow
  rw [Bool.eq_iff_iff]
  simp only [Bool.not_eq_true', decide_eq_true_eq]
  rw [← Bool.not_eq_true, List.contains_iff_mem, mem_hitLabels, not_iff_not]
  constructor
  · rintro ⟨row', h1, h2, h3⟩
    rw [row_eq_of_label hu h1 hrow h3] at h2
    exact condsMet_iff.mp h2
  · intro h
    exact ⟨row, hrow, condsMet_iff.mpr h, rfl⟩

theorem uncoveredRows_snoc {d e : Frame} (he : e.rows = UncoveredRows earlier d) (hu : e.UniqueIndex)
    (rule : List Cond) : (e.dropLabels (hitLabels rule e)).rows = UncoveredRows (earlier ++ [rule]) d := by
  rw [dropHits_rows hu, he]
  unfold UncoveredRows
  rw [List.filter_filter]
  apply List.filter_congr
  intro row _
  rw [Bool.eq_iff_iff]
  simp only [Bool.and_eq_true, decide_eq_true_eq, List.mem_append, List.mem_singleton]
  constructor
  · rintro ⟨h1, h2⟩ r (h | rfl)
    · exact h2 r h
    · exact h1
  · intro h
    exact ⟨h rule (Or.inr rfl), fun r hr => h r (Or.inl hr)⟩

theorem loc_own_index {d : Frame} (hu : d.UniqueIndex) : (d.loc d.index).rows = d.rows := by
  have key : ∀ rows : List Row, (rows.map (·.label)).Nodup →
      (rows.map (·.label)).flatMap (fun l => rows.filter (fun r => r.label == l)) = rows := by
    intro rows hn
    have : ∀ (all : List Row), (all.map (·.label)).Nodup → ∀ sub : List Row, (∀ r ∈ sub, r ∈ all) →
        (sub.map (·.label)).flatMap (fun l => all.filter (fun r => r.label == l)) = sub := by
      intro all ha sub hs
      induction sub with
      | nil => rfl
      | cons r sub ih =>
        rw [List.map_cons, List.flatMap_cons, ih fun x hx => hs x (List.mem_cons_of_mem _ hx)]
        have hf := filter_label_singleton ha (hs r List.mem_cons_self)
        exact congrArg (· ++ sub) hf
    exact this rows hn rows (fun _ h => h)
  exact key d.rows hu

theorem dfSplit_perm [Arith] {R : PyRandom} (hR : R.Lawful) {g g' : R.G} {d a b : Frame} (hu : d.UniqueIndex) {q : Rat}
    {rs : Option Int} (h : dfShuffledSplit R g d q rs = (a, b, g')) : (a.rows ++ b.rows).Perm d.rows := by
  unfold dfShuffledSplit at h
  have hm := randomSplit_perm hR g d.index q rs
  rcases hs : randomSplit R g d.index q rs with ⟨x, y, z⟩
  simp only [hs, Prod.mk.injEq] at h hm
  obtain ⟨rfl, rfl, rfl⟩ := h
  have e : (d.loc x).rows ++ (d.loc y).rows = (d.loc (x ++ y)).rows := by
    unfold Frame.loc; simp
  rw [e]
  conv_rhs => rw [← loc_own_index hu]
  unfold Frame.loc
  exact hm.flatMap_right _

/-- Pruning by a metric that has no value for some rules. -/
theorem pruneLoop_value {metric : List Cond → Except PyErr (Option Rat)} {val : List Cond → Rat} {rule : List Cond}
    (hm : ∀ k v, metric (rule.take k) = .ok (some v) → v = val (rule.take k)) :
    ∀ n best o, pruneLoop metric rule n best = .ok (some o) →
      pruneLoop (fun r => .ok (some (val r))) rule n best = .ok (some o) := by
  intro n
  induction n with
  | zero => intro best o h; exact h
  | succ n ih =>
    intro best o h
    rw [pruneLoop] at h
    obtain ⟨x, hx, h⟩ := bind_ok_iff.mp h
    cases x with
    | none => simp [pure_eq_ok] at h
    | some v =>
      simp only at h
      rw [pruneLoop, ok_bind, ← hm _ _ hx]
      exact ih _ _ h

theorem pruneRule_cut {metric : List Cond → Except PyErr (Option Rat)} {val : List Cond → Rat} {rule o : List Cond}
    (hm : ∀ k v, metric (rule.take k) = .ok (some v) → v = val (rule.take k)) (hne : rule ≠ [])
    (h : pruneRule metric rule = .ok (some o)) : CutBy val rule o := by
  refine pruneRule_cutBy (value := val) hne ?_ (fun _ => rfl)
  unfold pruneRule at h ⊢
  rw [if_neg hne] at h ⊢
  exact pruneLoop_value hm _ _ _ h

section plain
variable {R : PyRandom} {hp : Hyper} {fuel : Nat} {cands : List Cond} [Arith]

theorem irepMetric_value {b d : Frame} {r : List Cond} {v : Rat} (h : irepMetric b d r = .ok (some v)) :
    v = rowsCorrect b d r ∧ b.rows.length + d.rows.length ≠ 0 := by
  unfold irepMetric at h
  obtain ⟨p, h1, h⟩ := bind_ok_iff.mp h
  obtain ⟨n, h2, h⟩ := bind_ok_iff.mp h
  split at h
  · cases h
  · rename_i hz
    simp only [pure_eq_ok, Except.ok.injEq, Option.some.injEq] at h
    rw [← h, (numCoveredC_ok h1).1, (numCoveredC_ok h2).1, firings_eq, firings_eq]
    exact ⟨rfl, hz⟩

theorem ripperGrowMetric_value {b d : Frame} {r : List Cond} {v : Rat} (h : ripperGrowMetric b d r = .ok (some v)) :
    v = rowsWorth b d r := by
  unfold ripperGrowMetric at h
  obtain ⟨p, h1, h⟩ := bind_ok_iff.mp h
  obtain ⟨n, h2, h⟩ := bind_ok_iff.mp h
  simp only [pure_eq_ok, Except.ok.injEq, Option.some.injEq] at h
  rw [← h, (numCoveredC_ok h1).1, (numCoveredC_ok h2).1, firings_eq, firings_eq]
  rfl

theorem irepPrunePlain_cut [Arith.Lawful] {b d : Frame} {grown rule : List Cond}
    (h : pruneRule (irepMetric b d) grown = .ok (some rule)) : BestCut (rowsCorrect b d) grown rule := by
  by_cases hne : grown = []
  · subst hne
    injection h with h; injection h with h
    exact Or.inl ⟨rfl, h.symm⟩
  · refine cutBy_best (pruneRule_cut (fun k v hv => (irepMetric_value hv).1) hne h) ?_
    have hz : b.rows.length + d.rows.length ≠ 0 := by
      unfold pruneRule at h
      rw [if_neg hne] at h
      obtain ⟨n, hn⟩ : ∃ n, grown.length = n + 1 := ⟨grown.length - 1, by
        have := List.length_pos_iff.mpr hne; omega⟩
      rw [hn, pruneLoop] at h
      obtain ⟨x, hx, h⟩ := bind_ok_iff.mp h
      cases x with
      | none => simp [pure_eq_ok] at h
      | some v => exact (irepMetric_value hx).2
    refine Arith.Lawful.quot_nonneg _ _ ?_ (by omega)
    have : firings grown d ≤ d.rows.length := List.length_filter_le _ _
    omega

theorem rowsHalfRight_iff {b d : Frame} {r : List Cond} {o : Option Rat} (h : precisionDf r b d = .ok o) :
    RowsHalfRight b d r ↔ ∃ q, o = some q ∧ q ≠ 0 ∧ 1 / 2 ≤ q := by
  unfold precisionDf at h
  obtain ⟨p, h1, h⟩ := bind_ok_iff.mp h
  obtain ⟨n, h2, h⟩ := bind_ok_iff.mp h
  rw [(numCoveredC_ok h1).1, (numCoveredC_ok h2).1, firings_eq, firings_eq] at h
  unfold RowsHalfRight
  split at h
  · rename_i hz
    simp only [pure_eq_ok, Except.ok.injEq] at h
    subst h
    constructor
    · rintro ⟨h, _⟩; omega
    · rintro ⟨q, h, _⟩; cases h
  · rename_i hz
    simp only [pure_eq_ok, Except.ok.injEq] at h
    subst h
    constructor
    · rintro ⟨_, h⟩
      refine ⟨_, rfl, ?_, h⟩
      intro h0
      rw [h0] at h
      norm_num at h
    · rintro ⟨q, h, _, h'⟩
      injection h with h
      subst h
      exact ⟨by omega, h'⟩

/-- The growing state is determined by the rules learned. -/
theorem irepPlain_covering [Arith.Lawful] (hR : R.Lawful) {init : List (List Cond)} {P N : Frame} (hP : P.UniqueIndex)
    (hN : N.UniqueIndex) {g : R.G} {s : FrameSt R} (h : FrameReach fuel R cands hp ⟨init, P, N, g⟩ s) :
    s.pos.UniqueIndex ∧ s.neg.UniqueIndex ∧
    ∃ learned, s.rules = init ++ learned ∧ s.pos.rows = UncoveredRows learned P ∧
      s.neg.rows = (if hp.irepPrune = 0 then N.rows else UncoveredRows learned N) ∧
      ∀ (j : Nat) rule, learned[j]? = some rule →
        IrepProposesPlain fuel cands hp (UncoveredRows (learned.take j) P)
          (if hp.irepPrune = 0 then N.rows else UncoveredRows (learned.take j) N) rule True := by
  induction h with
  | start =>
    exact ⟨hP, hN, [], by simp, (uncoveredRows_nil P).symm, by simp [uncoveredRows_nil], by intro j rule h; simp at h⟩
  | @add s s' rule _ ha ih =>
    obtain ⟨u1, u2, learned, h1, h2, h3, h4⟩ := ih
    have hn : s'.neg.UniqueIndex := by
      rcases ha.neg with ⟨_, e⟩ | ⟨_, e⟩ <;> rw [e]
      · exact u2
      · exact dropLabels_unique u2
    refine ⟨by rw [ha.pos]; exact dropLabels_unique u1, hn, learned ++ [rule],
      by rw [ha.rules, h1, List.append_assoc], ?_, ?_, ?_⟩
    · rw [ha.pos, uncoveredRows_snoc h2 u1]
    · rcases ha.neg with ⟨hz, e⟩ | ⟨hz, e⟩
      · rw [e, h3, if_pos hz, if_pos hz]
      · rw [if_neg hz] at h3
        rw [e, if_neg hz, uncoveredRows_snoc h3 u2]
    · intro j r hj
      rcases Nat.lt_trichotomy j learned.length with hlt | heq | hgt
      · rw [List.getElem?_append_left hlt] at hj
        rw [List.take_append_of_le_length (le_of_lt hlt)]
        exact h4 j r hj
      · subst heq
        rw [List.getElem?_append_right (le_refl _)] at hj
        simp only [Nat.sub_self, List.getElem?_cons_zero, Option.some.injEq] at hj
        subst hj
        rw [List.take_left' rfl, ← h2, ← h3]
        obtain ⟨a, b, c, d, g1, grown, e1, e2, e3, e4⟩ := ha.how
        have p1 := dfSplit_perm hR u1 e1
        have p2 := dfSplit_perm hR u2 e2
        refine ⟨a, b, c, d, grown, p1, p2, e3, ?_⟩
        rcases e4 with ⟨hz, e⟩ | ⟨hz, e, q, hq, hq'⟩
        · rw [hz, Arith.Lawful.complement_zero] at e1 e2
          have key : ∀ (g g' : R.G) (d a b : Frame) (rs : Option Int), dfShuffledSplit R g d 1 rs = (a, b, g') →
              b.rows = [] := by
            intro g g' d a b rs h
            unfold dfShuffledSplit at h
            have hm := (randomSplit_one hR g d.index rs).2
            rcases hs : randomSplit R g d.index 1 rs with ⟨x, y, z⟩
            simp only [hs, Prod.mk.injEq] at h hm
            obtain ⟨rfl, rfl, rfl⟩ := h
            rw [hm]; rfl
          exact Or.inl ⟨hz, key _ _ _ _ _ _ e1, key _ _ _ _ _ _ e2, e, trivial⟩
        · refine Or.inr ⟨hz, irepPrunePlain_cut e, ?_⟩
          exact ⟨fun _ => (rowsHalfRight_iff hq).mpr ⟨q, rfl, hq'⟩, fun _ => trivial⟩
      · rw [List.getElem?_eq_none (by simp; omega)] at hj; cases hj

/-- A growing loop ends with an iteration that ends it. -/
theorem irepGrow_last {init : List (List Cond)} {pos neg : Frame} {g : R.G} {st : FrameSt R}
    (h : irepGrow fuel R cands hp init pos neg g = .ok st) :
    ∃ s, FrameReach fuel R cands hp ⟨init, pos, neg, g⟩ s ∧ irepStep fuel R cands hp s = .ok (.done st) := by
  unfold irepGrow at h
  refine pyWhile_inv (I := fun s => FrameReach fuel R cands hp ⟨init, pos, neg, g⟩ s)
    (Q := fun a => ∃ s, FrameReach fuel R cands hp ⟨init, pos, neg, g⟩ s ∧ irepStep fuel R cands hp s = .ok (.done a))
    ?_ ?_ fuel _ st .start h
  · intro s s' hI hb
    obtain ⟨rule, ha⟩ := irepStep_more hb
    exact .add hI ha
  · intro s a hI hb
    exact ⟨s, hI, hb⟩

/-- Why an iteration is the last one. -/
theorem irepStep_last [Arith.Lawful] (hR : R.Lawful) {st st' : FrameSt R} (u1 : st.pos.UniqueIndex)
    (u2 : st.neg.UniqueIndex) (h : irepStep fuel R cands hp st = .ok (.done st')) :
    st'.rules = st.rules ∧ (st.pos.rows = [] ∨
      stopEarly hp.lim st.rules st.pos.rows.length st.neg.rows.length = true ∨
      ∃ rule, IrepProposesPlain fuel cands hp st.pos.rows st.neg.rows rule False) := by
  refine ⟨(irepStep_done h).1, ?_⟩
  unfold irepStep at h
  split at h
  · rename_i hz; exact Or.inl hz
  split at h
  · rename_i hs; exact Or.inr (Or.inl hs)
  refine Or.inr (Or.inr ?_)
  rcases hp1 : dfShuffledSplit R st.g st.pos (Arith.complement hp.irepPrune) hp.randomState with ⟨a, b, g1⟩
  rcases hp2 : dfShuffledSplit R g1 st.neg (Arith.complement hp.irepPrune) hp.randomState with ⟨c, d, g2⟩
  have p1 := dfSplit_perm hR u1 hp1
  have p2 := dfSplit_perm hR u2 hp2
  simp only [hp1, hp2] at h
  obtain ⟨grown, hg, h⟩ := bind_ok_iff.mp h
  split at h
  · obtain ⟨cov, hc, h⟩ := bind_ok_iff.mp h
    simp [pure_eq_ok] at h
  · rename_i hz
    obtain ⟨o, hpr, h⟩ := bind_ok_iff.mp h
    cases o with
    | none => simp at h
    | some pruned =>
      simp only at h
      obtain ⟨q, hq, h⟩ := bind_ok_iff.mp h
      refine ⟨pruned, a, b, c, d, grown, p1, p2, hg, Or.inr ⟨hz, irepPrunePlain_cut hpr, ?_⟩⟩
      rw [rowsHalfRight_iff hq]
      refine ⟨False.elim, ?_⟩
      rintro ⟨q', rfl, hq0, hq1⟩
      simp only at h
      split at h
      · rename_i hc
        rcases hc with hc | hc
        · exact hq0 hc
        · exact absurd hq1 (not_le.mpr hc)
      · obtain ⟨⟨pos', neg'⟩, hrm, h⟩ := bind_ok_iff.mp h
        simp [pure_eq_ok] at h

/-- RIPPER's growing state is determined by the rules learned. -/
theorem ripperPlain_covering [Arith.Lawful] (hR : R.Lawful) {init : List (List Cond)} {P N : Frame} (hP : P.UniqueIndex)
    (hN : N.UniqueIndex) {g : R.G} {dl : Option (Rat × Rat)} {diff : Rat} {s : FrameRipSt R}
    (h : FrameRipReach fuel R cands hp P N ⟨init, P, N, dl, diff, g⟩ s) :
    s.pos.UniqueIndex ∧ s.neg.UniqueIndex ∧
    ∃ learned, s.rules = init ++ learned ∧ s.pos.rows = UncoveredRows learned P ∧
      s.neg.rows = UncoveredRows learned N ∧
      ∀ (j : Nat) rule, learned[j]? = some rule →
        RipperLearnsPlain fuel cands hp (UncoveredRows (learned.take j) P) (UncoveredRows (learned.take j) N) rule := by
  induction h with
  | start =>
    exact ⟨hP, hN, [], by simp, (uncoveredRows_nil P).symm, (uncoveredRows_nil N).symm, by intro j rule h; simp at h⟩
  | @add s s' rule _ ha ih =>
    obtain ⟨u1, u2, learned, h1, h2, h3, h4⟩ := ih
    refine ⟨by rw [ha.pos]; exact dropLabels_unique u1, by rw [ha.neg]; exact dropLabels_unique u2,
      learned ++ [rule], by rw [ha.rules, h1, List.append_assoc], ?_, ?_, ?_⟩
    · rw [ha.pos, uncoveredRows_snoc h2 u1]
    · rw [ha.neg, uncoveredRows_snoc h3 u2]
    · intro j r hj
      rcases Nat.lt_trichotomy j learned.length with hlt | heq | hgt
      · rw [List.getElem?_append_left hlt] at hj
        rw [List.take_append_of_le_length (le_of_lt hlt)]
        exact h4 j r hj
      · subst heq
        rw [List.getElem?_append_right (le_refl _)] at hj
        simp only [Nat.sub_self, List.getElem?_cons_zero, Option.some.injEq] at hj
        subst hj
        rw [List.take_left' rfl, ← h2, ← h3]
        obtain ⟨ps, a, b, c, d, g1, grown, e0, e1, e2, e3, e4, e5, e6⟩ := ha.how
        exact ⟨a, b, c, d, grown, dfSplit_perm hR u1 e1, dfSplit_perm hR u2 e2, e3, e4, e5,
          pruneRule_cut (fun k v hv => ripperGrowMetric_value hv) e5 e6⟩
      · rw [List.getElem?_eq_none (by simp; omega)] at hj; cases hj

/-- The choices of a pass are made on the rows no earlier rule of the given ruleset fires on. -/
theorem optimizeLoopDf_examples (hR : R.Lawful) {ps : Rat} {rs : Option Int} {original : List (List Cond)} {odl : Rat}
    {allPos allNeg : Frame} :
    ∀ (rest : List (List Cond)) (i : Nat) (new : List (List Cond)) (pos neg : Frame) (g : R.G)
      (out : List (List Cond)) (g' : R.G),
    optimizeLoopDf fuel R cands hp ps rs original odl allPos allNeg i rest new pos neg g = .ok (out, g') →
    original.drop i = rest → pos.UniqueIndex → neg.UniqueIndex →
    pos.rows = UncoveredRows (original.take i) allPos → neg.rows = UncoveredRows (original.take i) allNeg →
    ∀ j x, out[j]? = some x → new[j]? = some x ∨
      (i ≤ j ∧ ∃ rule, rest[j - i]? = some rule ∧ (x = rule ∨ ∃ a b c d : Frame,
        (a.rows ++ b.rows).Perm (UncoveredRows (original.take j) allPos) ∧
        (c.rows ++ d.rows).Perm (UncoveredRows (original.take j) allNeg) ∧
        optimizeChoiceDf fuel cands hp original odl j rule allPos allNeg a b c d = .ok x)) := by
  intro rest
  induction rest with
  | nil =>
    intro i new pos neg g out g' h
    simp only [optimizeLoopDf, Except.ok.injEq, Prod.mk.injEq] at h
    obtain ⟨rfl, rfl⟩ := h
    exact fun _ _ _ _ _ j x h => Or.inl h
  | cons rule rest ih =>
    intro i new pos neg g out g' h hd u1 u2 hpos hneg
    rw [optimizeLoopDf] at h
    rcases hp1 : dfShuffledSplit R g pos (Arith.complement ps) rs with ⟨a, b, g1⟩
    rcases hp2 : dfShuffledSplit R g1 neg (Arith.complement ps) rs with ⟨c, d, g2⟩
    have p1 := dfSplit_perm hR u1 hp1
    have p2 := dfSplit_perm hR u2 hp2
    rw [hpos] at p1; rw [hneg] at p2
    simp only [hp1, hp2] at h
    split at h
    · simp only [pure_eq_ok, Except.ok.injEq, Prod.mk.injEq] at h
      obtain ⟨rfl, rfl⟩ := h
      exact fun j x h => Or.inl h
    split at h
    · simp only [pure_eq_ok, Except.ok.injEq, Prod.mk.injEq] at h
      obtain ⟨rfl, rfl⟩ := h
      exact fun j x h => Or.inl h
    obtain ⟨best, hbest, h⟩ := bind_ok_iff.mp h
    generalize hv : (if (!condsIn best new) = true then best else rule) = v at h
    have hset : ∀ j x, (new.set i v)[j]? = some x → new[j]? = some x ∨
        (i ≤ j ∧ ∃ r, (rule :: rest)[j - i]? = some r ∧ (x = r ∨ ∃ a b c d : Frame,
          (a.rows ++ b.rows).Perm (UncoveredRows (original.take j) allPos) ∧
          (c.rows ++ d.rows).Perm (UncoveredRows (original.take j) allNeg) ∧
          optimizeChoiceDf fuel cands hp original odl j r allPos allNeg a b c d = .ok x)) := by
      intro j x hx
      rw [List.getElem?_set] at hx
      split at hx
      · rename_i hij
        subst hij
        split at hx
        · injection hx with hx
          refine Or.inr ⟨le_refl _, rule, by simp, ?_⟩
          subst hx hv
          split
          · exact Or.inr ⟨a, b, c, d, p1, p2, hbest⟩
          · exact Or.inl rfl
        · cases hx
      · exact Or.inl hx
    have hi : original[i]? = some rule := by
      have := congrArg (·[0]?) hd
      simpa using this
    have htake : original.take (i + 1) = original.take i ++ [rule] := by
      rw [List.take_add_one, hi]; rfl
    have hdrop : original.drop (i + 1) = rest := by
      rw [← List.drop_drop, hd]; rfl
    obtain ⟨⟨pos', neg'⟩, hrm, h⟩ := bind_ok_iff.mp h
    obtain ⟨e1, e2, _, _⟩ := rmCoveredRule_ok hrm
    simp only at h
    split at h
    · simp only [pure_eq_ok, Except.ok.injEq, Prod.mk.injEq] at h
      obtain ⟨rfl, _⟩ := h
      exact hset
    · have h2 := ih (i + 1) _ _ _ _ _ _ h hdrop (by rw [e1]; exact dropLabels_unique u1)
        (by rw [e2]; exact dropLabels_unique u2)
        (by rw [htake, e1]; exact uncoveredRows_snoc hpos u1 _)
        (by rw [htake, e2]; exact uncoveredRows_snoc hneg u2 _)
      intro j x hx
      rcases h2 j x hx with h | ⟨hj, r, hr, h⟩
      · exact hset j x h
      · refine Or.inr ⟨by omega, r, ?_, h⟩
        have : j - i = (j - (i + 1)) + 1 := by omega
        rw [this, List.getElem?_cons_succ]
        exact hr

end plain

theorem posExamples_unique {df : Frame} (hu : df.UniqueIndex) (cf : Feat) (pc : Val) :
    (posExamples df cf pc).UniqueIndex ∧ (negExamples df cf pc).UniqueIndex := by
  unfold Frame.UniqueIndex Frame.index at *
  constructor <;> exact hu.sublist (List.filter_sublist.map _)

/-- C91, IREP with `cn_optimize=False`: as C91_irep_separates_and_conquers, on the rows of the training data. -/
theorem C91_plain_irep_separates_and_conquers [Arith] [Arith.Lawful] (R : PyRandom) (hR : R.Lawful) (S : SetOps) (hp : Hyper)
    (old : Option (List Cond)) (init : List (List Cond)) (df : Frame) (hu : df.UniqueIndex) (cf : Feat) (pc : Val)
    (fuel : Nat) (g g' : R.G) (m : Fitted) (h : irepFitPlain fuel R S hp old init df cf pc g = .ok (m, g')) :
    ∃ learned, (m.ruleset.rules.map Rule.conds).Sublist (init ++ learned) ∧
      let P := posExamples df cf pc
      let N := negExamples df cf pc
      let cands := updatedConds S old P N
      let posLeft := fun rules => UncoveredRows rules P
      let negLeft := fun rules => if hp.irepPrune = 0 then N.rows else UncoveredRows rules N
      (∀ (j : Nat) rule, learned[j]? = some rule →
        IrepProposesPlain fuel cands hp (posLeft (learned.take j)) (negLeft (learned.take j)) rule True) ∧
      (posLeft learned = [] ∨
        LimitReached hp.lim (init ++ learned) ((posLeft learned).length + (negLeft learned).length) ∨
        ∃ rule, IrepProposesPlain fuel cands hp (posLeft learned) (negLeft learned) rule False) := by
  obtain ⟨_, _, st, hg, hm, _⟩ := irepFitPlain_ok h
  obtain ⟨s, hs, hd⟩ := irepGrow_last hg
  obtain ⟨hP, hN⟩ := posExamples_unique hu cf pc
  obtain ⟨u1, u2, learned, h1, h2, h3, h4⟩ := irepPlain_covering hR hP hN hs
  obtain ⟨hr, hend⟩ := irepStep_last hR u1 u2 hd
  refine ⟨learned, ?_, h4, ?_⟩
  · rw [hm, ← h1, ← hr]; exact finish_sublist _ _
  · rw [stopEarly_iff, h1, h2, h3] at hend
    exact hend

/-- C91, RIPPER's growing phase with `cn_optimize=False`. -/
theorem C91_plain_ripper_separates_and_conquers [Arith] [Arith.Lawful] (R : PyRandom) (hR : R.Lawful) (hp : Hyper)
    (cands : List Cond) (init : List (List Cond)) (pos neg : Frame) (hpos : pos.UniqueIndex) (hneg : neg.UniqueIndex)
    (fuel : Nat) (g : R.G) (st : FrameRipSt R) (h : ripperGrow fuel R cands hp init pos neg g = .ok st) :
    ∃ learned, st.rules = init ++ learned ∧
      st.pos.rows = UncoveredRows learned pos ∧ st.neg.rows = UncoveredRows learned neg ∧
      ∀ (j : Nat) rule, learned[j]? = some rule →
        RipperLearnsPlain fuel cands hp (UncoveredRows (learned.take j) pos) (UncoveredRows (learned.take j) neg) rule := by
  obtain ⟨s, hs, h1, h2, h3⟩ := ripperGrow_reach h
  obtain ⟨_, _, learned, e1, e2, e3, e4⟩ := ripperPlain_covering hR hpos hneg hs
  exact ⟨learned, by rw [h1, e1], by rw [h2, e2], by rw [h3, e3], e4⟩

/-- C91, RIPPER's optimisation with `cn_optimize=False`: the choice (C80) for a rule is made with the rows that no rule before
it, in the ruleset the pass was given, fires on. -/
theorem C91_plain_optimisation_examples [Arith] (R : PyRandom) (hR : R.Lawful) (hp : Hyper) (cands : List Cond)
    (seed : Option Int) (rules out : List (List Cond)) (pos neg : Frame) (hpos : pos.UniqueIndex) (hneg : neg.UniqueIndex)
    (fuel : Nat) (g g' : R.G) (h : optimizeDf fuel R cands hp seed rules pos neg g = .ok (out, g')) :
    ∃ simplified odl, bestSubsetDf cands.length rules pos neg = .ok (simplified, odl) ∧
      ∀ (j : Nat) r', out[j]? = some r' → ∃ r, rules[j]? = some r ∧
        (r' = r ∨ ∃ growPos prunePos growNeg pruneNeg : Frame,
          (growPos.rows ++ prunePos.rows).Perm (UncoveredRows (rules.take j) pos) ∧
          (growNeg.rows ++ pruneNeg.rows).Perm (UncoveredRows (rules.take j) neg) ∧
          optimizeChoiceDf fuel cands hp rules odl j r pos neg growPos prunePos growNeg pruneNeg = .ok r') := by
  unfold optimizeDf at h
  obtain ⟨⟨mdl, odl⟩, hbest, h⟩ := bind_ok_iff.mp h
  refine ⟨mdl, odl, hbest, ?_⟩
  simp only at h
  cases hps : hp.pruneSize with
  | none =>
    rw [hps] at h
    simp only at h
    split at h
    · simp only [pure_eq_ok, Except.ok.injEq, Prod.mk.injEq] at h
      obtain ⟨rfl, _⟩ := h
      exact fun j x hx => ⟨x, hx, Or.inl rfl⟩
    · cases h
  | some ps =>
    rw [hps] at h
    have h2 := optimizeLoopDf_examples hR _ _ _ _ _ _ _ _ h rfl hpos hneg (uncoveredRows_nil pos).symm
      (uncoveredRows_nil neg).symm
    intro j x hx
    rcases h2 j x hx with h | ⟨_, r, hr, h⟩
    · exact ⟨x, h, Or.inl rfl⟩
    · exact ⟨r, by simpa using hr, h⟩

namespace Demo
/-- Positives that need two rules. -/
def two : Frame := Frame.ofTable [fa, fb, fc]
  [(0, [vx, vy, vp]), (1, [vy, vx, vp]), (2, [vx, vy, vp]), (3, [vy, vx, vp]), (4, [vy, vy, vn]), (5, [vy, vy, vn]),
   (6, [vy, vy, vn]), (7, [vx, vx, vn])]
theorem two_unique : two.UniqueIndex := by unfold Frame.UniqueIndex; decide +kernel
end Demo

/-- The hypotheses are met, and more than one rule is learned: IREP with pruning, with and without the index. -/
example : Demo.two.UniqueIndex ∧ Demo.R0.Lawful ∧
    (irepFit 19 Demo.R0 { pruneSize := some (1 / 2) } [] Demo.two Demo.fc Demo.vp ()).map
      (fun m => m.1.ruleset.rules.map Rule.conds) = .ok [[⟨Demo.fa, Demo.vx⟩], [⟨Demo.fb, Demo.vx⟩]] ∧
    (irepFitPlain 19 Demo.R0 Demo.S0 { pruneSize := some (1 / 2) } none [] Demo.two Demo.fc Demo.vp ()).map
      (fun m => m.1.ruleset.rules.map Rule.conds) = .ok [[⟨Demo.fa, Demo.vx⟩], [⟨Demo.fb, Demo.vx⟩]] := by
  refine ⟨Demo.two_unique, Demo.R0_lawful, ?_, ?_⟩ <;> decide +kernel

/-- The second rule of that model was proposed from the two positives without `a=x`. -/
example : Uncovered Demo.two [[⟨Demo.fa, Demo.vx⟩]] [0, 1, 2, 3] = [1, 3] := by
  have h : ∀ l ∈ ([0, 1, 2, 3] : List Label), Covered Demo.two [⟨Demo.fa, Demo.vx⟩] l ↔ l = 0 ∨ l = 2 := by
    intro l hl
    have : Covered Demo.two [⟨Demo.fa, Demo.vx⟩] l ↔
        (Demo.two.rows.any fun row => decide (row.label = l) && condsMet [⟨Demo.fa, Demo.vx⟩] row) = true := by
      unfold Covered
      simp only [List.any_eq_true, Bool.and_eq_true, decide_eq_true_eq, condsMet_iff]
    rw [this]
    clear this
    revert l
    decide +kernel
  unfold Uncovered
  simp [h]

/-- RIPPER's growing phase, and a pass of its optimisation that changes the second rule. -/
example :
    (ripperGrow 19 Demo.R0 (possibleConds (Demo.two.dropCol Demo.fc)) { pruneSize := some (1 / 2) } []
      (posExamples Demo.two Demo.fc Demo.vp) (negExamples Demo.two Demo.fc Demo.vp) ()).map (fun st => st.rules) =
      .ok [[⟨Demo.fa, Demo.vx⟩], [⟨Demo.fb, Demo.vx⟩]] ∧
    (optimizeDf 19 Demo.R0 (possibleConds (Demo.two.dropCol Demo.fc)) { pruneSize := some (1 / 2) } none
      [[⟨Demo.fa, Demo.vx⟩], [⟨Demo.fa, Demo.vy⟩]] (posExamples Demo.two Demo.fc Demo.vp)
      (negExamples Demo.two Demo.fc Demo.vp) ()).map Prod.fst =
      .ok [[⟨Demo.fa, Demo.vx⟩], [⟨Demo.fa, Demo.vy⟩, ⟨Demo.fb, Demo.vx⟩]] := by
  refine ⟨?_, ?_⟩ <;> decide +kernel

example : ∀ cn, CatNap.build Demo.two Demo.fc = .ok cn →
    (ripperGrowCn 19 Demo.R0 cn { pruneSize := some (1 / 2) } [] [0, 1, 2, 3] [4, 5, 6, 7] ()).map (fun st => st.rules) =
      .ok [[⟨Demo.fa, Demo.vx⟩], [⟨Demo.fb, Demo.vx⟩]] ∧
    (optimizeCn 19 Demo.R0 cn { pruneSize := some (1 / 2) } none [[⟨Demo.fa, Demo.vx⟩], [⟨Demo.fa, Demo.vy⟩]]
      [0, 1, 2, 3] [4, 5, 6, 7] ()).map Prod.fst = .ok [[⟨Demo.fa, Demo.vx⟩], [⟨Demo.fb, Demo.vx⟩]] := by
  intro cn h
  have : CatNap.build Demo.two Demo.fc = .ok _ := CatNap.build_ok (by decide +kernel)
  rw [this] at h
  injection h with h
  subst h
  refine ⟨?_, ?_⟩ <;> decide +kernel

end Witt
