import Verif.Props.Irrelevant
import Verif.Lemmas.PlainIrep
import Verif.Props.Plain
/-
C98 with `cn_optimize=False`.
-/
namespace Witt
open Spec

/-! ### the candidates without the column -/

theorem sharedConds_dropCol (S : SetOps) (pos neg : Frame) (e : Feat) :
    sharedConds S (pos.dropCol e) (neg.dropCol e) = (sharedConds S pos neg).filter (fun c => decide (c.feature ≠ e)) := by
  unfold sharedConds
  show List.flatMap (fun f => (S.inter (pos.unique f) (neg.unique f)).map fun v => ({ feature := f, val := v } : Cond))
    (pos.dropCol e).cols = _
  unfold Frame.dropCol
  dsimp only
  induction pos.cols with
  | nil => rfl
  | cons f l ih =>
    rw [List.filter_cons, List.flatMap_cons, List.filter_append, ← ih]
    by_cases hf : f = e
    · subst hf
      rw [if_neg (by simp)]
      have : ∀ vs : List Val, (vs.map fun v => ({ feature := f, val := v } : Cond)).filter (fun c => decide (c.feature ≠ f)) = [] := by
        intro vs
        rw [List.filter_eq_nil_iff]
        intro c hc
        obtain ⟨v, -, rfl⟩ := List.mem_map.mp hc
        simp
      rw [this]; rfl
    · rw [if_pos (by simp [hf]), List.flatMap_cons]
      have : ∀ vs : List Val, (vs.map fun v => ({ feature := f, val := v } : Cond)).filter (fun c => decide (c.feature ≠ e)) =
          vs.map fun v => ({ feature := f, val := v } : Cond) := by
        intro vs
        rw [List.filter_eq_self]
        intro c hc
        obtain ⟨v, -, rfl⟩ := List.mem_map.mp hc
        simp [hf]
      rw [this]

/-- The candidates on the column `e` tell no rows apart, or only rows that a candidate before them tells apart. -/
def Idle (df : Frame) (e : Feat) (cols : List Feat) (cands : List Cond) : Prop :=
  ∃ l1 l2, cands = l1 ++ l2 ∧ NotOn e l1 ∧ ∀ c ∈ l2, c.feature = e → e ∈ cols ∧
    ((∀ row ∈ df.rows, c.met row = true) ∨ (∀ row ∈ df.rows, c.met row = false) ∨
      ∃ d ∈ l1, ∀ row ∈ df.rows, d.met row = c.met row)

theorem bestLoopM_append (score : List Cond → Except PyErr Rat) (l l' : List (List Cond)) : ∀ b : Option (List Cond) × Rat,
    bestLoopM score b (l ++ l') = (bestLoopM score b l >>= fun b => bestLoopM score b l') := by
  induction l with
  | nil => intro b; rfl
  | cons a l ih =>
    intro b
    rw [List.cons_append, bestLoopM, bestLoopM]
    cases score a with
    | error x => rfl
    | ok g => exact ih _

theorem bestLoopM_without (score : List Cond → Except PyErr Rat) (f : Cond → List Cond) (keep : Cond → Bool) (l : List Cond) :
    ∀ b : Option (List Cond) × Rat, (∀ c ∈ l, keep c = false → ∃ v, score (f c) = .ok v ∧ v ≤ b.2) →
      bestLoopM score b ((l.filter keep).map f) = bestLoopM score b (l.map f) := by
  induction l with
  | nil => intro b _; rfl
  | cons a l ih =>
    intro b h
    rw [List.filter_cons, List.map_cons]
    cases hk : keep a with
    | true =>
      rw [if_pos rfl, List.map_cons, bestLoopM, bestLoopM]
      cases score (f a) with
      | error x => rfl
      | ok g =>
        simp only [ok_bind]
        refine ih _ fun c hc hkc => ?_
        obtain ⟨v, hv, hle⟩ := h c (List.mem_cons_of_mem _ hc) hkc
        refine ⟨v, hv, le_trans hle ?_⟩
        split
        · rename_i hl; exact hl.le
        · exact le_refl _
    | false =>
      have hft : (if false = true then a :: l.filter keep else l.filter keep) = l.filter keep := if_neg Bool.false_ne_true
      rw [hft, bestLoopM]
      obtain ⟨v, hv, hle⟩ := h a List.mem_cons_self hk
      rw [hv]
      simp only [ok_bind]
      rw [if_neg (not_lt.mpr hle)]
      exact ih b fun c hc => h c (List.mem_cons_of_mem _ hc)

theorem bestLoopM_congr {score score' : List Cond → Except PyErr Rat} {l : List (List Cond)} (h : ∀ c ∈ l, score c = score' c) :
    ∀ b : Option (List Cond) × Rat, bestLoopM score b l = bestLoopM score' b l := by
  induction l with
  | nil => intro b; rfl
  | cons a l ih =>
    intro b
    rw [bestLoopM, bestLoopM, h a List.mem_cons_self]
    cases score' a with
    | error x => rfl
    | ok g => exact ih (fun c hc => h c (List.mem_cons_of_mem _ hc)) _

theorem numCoveredC_dropCol {e : Feat} {r : List Cond} (hr : NotOn e r) (d : Frame) : numCoveredC r (d.dropCol e) = numCoveredC r d := by
  unfold numCoveredC
  rw [condsCover_dropCol hr]
  cases condsCover r d with
  | error x => rfl
  | ok d => rfl

theorem NotOn.snoc {e : Feat} {r : List Cond} (hr : NotOn e r) {c : Cond} (hc : c.feature ≠ e) : NotOn e (r ++ [c]) := by
  intro x hx
  rcases List.mem_append.mp hx with hx | hx
  · exact hr x hx
  · rw [List.mem_singleton] at hx; exact hx ▸ hc

section grow
variable [Arith] [Arith.Lawful] {df : Frame} {e : Feat} {cands : List Cond}

omit [Arith.Lawful] in
theorem gainDf_dropCol {r s : List Cond} (hr : NotOn e r) (hs : NotOn e s) (pos neg : Frame) :
    gainDf r s (pos.dropCol e) (neg.dropCol e) = gainDf r s pos neg := by
  unfold gainDf
  rw [numCoveredC_dropCol hr, numCoveredC_dropCol hr, numCoveredC_dropCol hs, numCoveredC_dropCol hs]

omit [Arith.Lawful] in
theorem gainDf_value {r s : List Cond} {pos neg : Frame} (h1 : ∀ c ∈ r, c.feature ∈ pos.cols) (h2 : ∀ c ∈ s, c.feature ∈ pos.cols)
    (hc : neg.cols = pos.cols) :
    gainDf r s pos neg = .ok (Arith.gain (rowHits r pos) (rowHits r neg) (rowHits s pos) (rowHits s neg)) := by
  have ok : ∀ {r : List Cond} {d : Frame}, (∀ c ∈ r, c.feature ∈ d.cols) → numCoveredC r d = .ok (rowHits r d) := by
    intro r d h
    rcases numCoveredC_cases r d with ⟨h1, _⟩ | ⟨_, h2⟩
    · exact h1
    · exact absurd h h2
  unfold gainDf
  rw [ok h1, ok h2, ok (d := neg) (hc ▸ h1), ok (d := neg) (hc ▸ h2)]
  rfl

omit [Arith] [Arith.Lawful] in
theorem rowHits_snoc_congr {r : List Cond} {c d : Cond} {X : Frame} (hX : ∀ row ∈ X.rows, row ∈ df.rows)
    (h : ∀ row ∈ df.rows, d.met row = c.met row) : rowHits (r ++ [c]) X = rowHits (r ++ [d]) X := by
  unfold rowHits
  congr 1
  refine List.filter_congr fun row hrow => ?_
  rw [condsMet_append, condsMet_append]
  simp only [condsMet, List.all_cons, List.all_nil, h row (hX row hrow)]

omit [Arith] [Arith.Lawful] in
theorem rowHits_snoc_all {r : List Cond} {c : Cond} {X : Frame} (hX : ∀ row ∈ X.rows, row ∈ df.rows)
    (h : ∀ row ∈ df.rows, condsMet r row = true → c.met row = true) : rowHits (r ++ [c]) X = rowHits r X := by
  unfold rowHits
  congr 1
  refine List.filter_congr fun row hrow => ?_
  rw [condsMet_append]
  cases hm : condsMet r row with
  | false => rfl
  | true => simp [condsMet, h row (hX row hrow) hm]

omit [Arith] [Arith.Lawful] in
theorem rowHits_snoc_none {r : List Cond} {c : Cond} {X : Frame} (hX : ∀ row ∈ X.rows, row ∈ df.rows)
    (h : ∀ row ∈ df.rows, c.met row = false) : rowHits (r ++ [c]) X = 0 := by
  unfold rowHits
  rw [List.length_eq_zero_iff, List.filter_eq_nil_iff]
  intro row hrow
  rw [condsMet_append]
  simp [condsMet, h row (hX row hrow)]

/-- The next condition is chosen alike with and without the superfluous column. -/
theorem bestSuccessor_dropCol {r : List Cond} {pos neg : Frame} (hi : Idle df e pos.cols cands) (hr : NotOn e r)
    (hc : neg.cols = pos.cols) (hp : ∀ row ∈ pos.rows, row ∈ df.rows) (hn : ∀ row ∈ neg.rows, row ∈ df.rows)
    (hrc : ∀ c ∈ r, c.feature ∈ pos.cols) :
    bestSuccessor r (cands.filter (fun c => decide (c.feature ≠ e))) (pos.dropCol e) (neg.dropCol e) =
      bestSuccessor r cands pos neg := by
  unfold bestSuccessor successors
  congr 1
  have hs : ∀ s ∈ ((cands.filter (fun c => decide (c.feature ≠ e))).filter (fun c => !condIn c r)).map (fun c => r ++ [c]),
      gainDf r s (pos.dropCol e) (neg.dropCol e) = gainDf r s pos neg := by
    intro s hs
    obtain ⟨c, hc, rfl⟩ := List.mem_map.mp hs
    have hce : c.feature ≠ e := of_decide_eq_true (List.mem_filter.mp (List.mem_filter.mp hc).1).2
    exact gainDf_dropCol hr (hr.snoc hce) pos neg
  rw [bestLoopM_congr hs]
  obtain ⟨l1, l2, rfl, h1, h2⟩ := hi
  rw [List.filter_append, List.filter_eq_self.mpr (fun c hc => decide_eq_true (h1 c hc)), List.filter_append, List.filter_append,
    List.map_append, List.map_append, bestLoopM_append, bestLoopM_append]
  cases hb : bestLoopM (fun s => gainDf r s pos neg) (none, 1) ((l1.filter (fun c => !condIn c r)).map (fun c => r ++ [c])) with
  | error x => rfl
  | ok b =>
    obtain ⟨_, hb1, _, hbs⟩ := bestLoopM_spec _ _ _ hb
    simp only [ok_bind]
    rw [List.filter_filter, List.filter_congr (fun c _ => Bool.and_comm _ _), ← List.filter_filter]
    refine bestLoopM_without _ _ _ _ _ fun c hcm hk => ?_
    obtain ⟨hcm, hnew⟩ := List.mem_filter.mp hcm
    have hce : c.feature = e := by simpa using hk
    obtain ⟨hec, hcase⟩ := h2 c hcm hce
    have hsc : ∀ x ∈ r ++ [c], x.feature ∈ pos.cols := by
      intro x hx
      rcases List.mem_append.mp hx with hx | hx
      · exact hrc x hx
      · rw [List.mem_singleton] at hx; rw [hx, hce]; exact hec
    refine ⟨_, gainDf_value hrc hsc hc, ?_⟩
    rcases hcase with hcase | hcase | ⟨d, hd, hcase⟩
    · rw [rowHits_snoc_all hp (fun row hrow _ => hcase row hrow), rowHits_snoc_all hn (fun row hrow _ => hcase row hrow),
        Arith.Lawful.gain_same]
      exact hb1
    · rw [rowHits_snoc_none hp hcase]
      exact le_trans (gain_le_one_of_none _ _ _) hb1
    · cases hdr : condIn d r with
      | true =>
        have hall : ∀ row ∈ df.rows, condsMet r row = true → c.met row = true := by
          intro row hrow hm
          unfold condIn at hdr
          obtain ⟨d', hd', he⟩ := List.any_eq_true.mp hdr
          have hm' : d'.met row = true := List.all_eq_true.mp hm d' hd'
          rw [← hcase row hrow]
          unfold Cond.pyEq at he
          simp only [Bool.and_eq_true, beq_iff_eq] at he
          unfold Cond.met at hm' ⊢
          rw [← he.1]
          exact Val.pyEq_trans hm' he.2
        rw [rowHits_snoc_all hp hall, rowHits_snoc_all hn hall, Arith.Lawful.gain_same]
        exact hb1
      | false =>
        obtain ⟨v, hv, hle⟩ := hbs (r ++ [d]) (List.mem_map.mpr ⟨d, List.mem_filter.mpr ⟨hd, by simp [hdr]⟩, rfl⟩)
        rw [rowHits_snoc_congr hp hcase, rowHits_snoc_congr hn hcase, ← (gainDf_ok hv).1]
        exact hle

theorem growStep_dropCol {r : List Cond} {pos neg : Frame} (hi : Idle df e pos.cols cands) (hr : NotOn e r)
    (hc : neg.cols = pos.cols) (hp : ∀ row ∈ pos.rows, row ∈ df.rows) (hn : ∀ row ∈ neg.rows, row ∈ df.rows) (lim : Limits) :
    growStep (cands.filter (fun c => decide (c.feature ≠ e))) lim (pos.dropCol e) (neg.dropCol e) r =
      growStep cands lim pos neg r := by
  unfold growStep
  rw [numCoveredC_dropCol hr, numCoveredC_dropCol hr]
  rcases numCoveredC_cases r neg with ⟨h1, h2⟩ | ⟨h1, _⟩
  · rw [h1, bestSuccessor_dropCol hi hr hc hp hn (hc ▸ h2)]
  · rw [h1]; rfl

/-- Growing a rule over frames with and without the superfluous column gives the same rule, not mentioning it. -/
theorem growRule_dropCol {pos neg : Frame} (hi : Idle df e pos.cols cands)
    (hc : neg.cols = pos.cols) (hp : ∀ row ∈ pos.rows, row ∈ df.rows) (hn : ∀ row ∈ neg.rows, row ∈ df.rows) (lim : Limits)
    (fuel : Nat) {r : List Cond} (hr : NotOn e r) :
    OutRel (fun a a' => a = a' ∧ NotOn e a) (growRule fuel cands lim pos neg r)
      (growRule fuel (cands.filter (fun c => decide (c.feature ≠ e))) lim (pos.dropCol e) (neg.dropCol e) r) := by
  unfold growRule
  refine pyWhile_rel (rs := fun s s' => s = s' ∧ NotOn e s) ?_ fuel r r ⟨rfl, hr⟩
  rintro s _ ⟨rfl, hs⟩
  have hst := growStep_dropCol hi hs hc hp hn lim
  rw [← hst]
  cases hg : growStep (cands.filter (fun c => decide (c.feature ≠ e))) lim (pos.dropCol e) (neg.dropCol e) s with
  | error x => exact .err x
  | ok o =>
    cases o with
    | more t =>
      obtain ⟨⟨c, rfl, hu⟩, _⟩ := growStep_more hg
      exact .more ⟨rfl, hs.snoc (of_decide_eq_true (List.mem_filter.mp hu.mem).2)⟩
    | done t =>
      refine .done ⟨rfl, ?_⟩
      rcases (growStep_cases hg).2 with ⟨_, h⟩ | ⟨_, _, h⟩ | ⟨_, _, ⟨_, h⟩ | ⟨r'', _, h⟩⟩
      · injection h with h; exact h ▸ hs
      · injection h with h; exact h ▸ haltRule_notOn hs lim
      · injection h with h; exact h ▸ hs
      · cases h

omit [Arith.Lawful] in
theorem irepMetric_dropCol {r : List Cond} (hr : NotOn e r) (pos neg : Frame) :
    irepMetric (pos.dropCol e) (neg.dropCol e) r = irepMetric pos neg r := by
  unfold irepMetric
  rw [numCoveredC_dropCol hr, numCoveredC_dropCol hr]
  rfl

omit [Arith.Lawful] in
theorem precisionDf_dropCol {r : List Cond} (hr : NotOn e r) (pos neg : Frame) :
    precisionDf r (pos.dropCol e) (neg.dropCol e) = precisionDf r pos neg := by
  unfold precisionDf
  rw [numCoveredC_dropCol hr, numCoveredC_dropCol hr]

omit [Arith.Lawful] in
theorem dfShuffledSplit_dropCol (R : PyRandom) (g : R.G) (d : Frame) (e : Feat) (q : Rat) (rs : Option Int) :
    dfShuffledSplit R g (d.dropCol e) q rs = ((dfShuffledSplit R g d q rs).1.dropCol e, (dfShuffledSplit R g d q rs).2.1.dropCol e,
      (dfShuffledSplit R g d q rs).2.2) := rfl

/-- The same state but for the column `e`, which no rule mentions. -/
structure FramesWithout {R : PyRandom} (df : Frame) (e : Feat) (cols : List Feat) (s s' : FrameSt R) : Prop where
  rules : s'.rules = s.rules
  pos : s'.pos = s.pos.dropCol e
  neg : s'.neg = s.neg.dropCol e
  g : s'.g = s.g
  posCols : s.pos.cols = cols
  negCols : s.neg.cols = cols
  posRows : ∀ row ∈ s.pos.rows, row ∈ df.rows
  negRows : ∀ row ∈ s.neg.rows, row ∈ df.rows
  notOn : ∀ r ∈ s.rules, NotOn e r

theorem irepStep_dropCol {R : PyRandom} {cols : List Feat} (hi : Idle df e cols cands) (fuel : Nat) (hp : Hyper) (s s' : FrameSt R)
    (hs : FramesWithout df e cols s s') : StepRel (FramesWithout df e cols) (FramesWithout df e cols)
      (irepStep fuel R cands hp s) (irepStep fuel R (cands.filter (fun c => decide (c.feature ≠ e))) hp s') := by
  obtain ⟨rules, pos, neg, g⟩ := s
  obtain ⟨rules', pos', neg', g'⟩ := s'
  obtain ⟨h1, h2, h3, h4, h5, h6, h7, h8, h9⟩ := hs
  dsimp only at h1 h2 h3 h4 h5 h6 h7 h8 h9
  subst h1 h2 h3 h4 h5
  unfold irepStep
  dsimp only
  rw [Frame.dropCol_rows, Frame.dropCol_rows]
  split
  · exact .done ⟨rfl, rfl, rfl, rfl, rfl, h6, h7, h8, h9⟩
  split
  · exact .done ⟨rfl, rfl, rfl, rfl, rfl, h6, h7, h8, h9⟩
  rw [dfShuffledSplit_dropCol]
  rcases e1 : dfShuffledSplit R g' pos (Arith.complement hp.irepPrune) hp.randomState with ⟨posGrow, posPrune, g1⟩
  dsimp only
  rw [dfShuffledSplit_dropCol]
  rcases e2 : dfShuffledSplit R g1 neg (Arith.complement hp.irepPrune) hp.randomState with ⟨negGrow, negPrune, g2⟩
  dsimp only
  obtain ⟨a1, a2, a3, a4⟩ := dfSplit_sub e1
  obtain ⟨b1, b2, b3, b4⟩ := dfSplit_sub e2
  have hg := growRule_dropCol (pos := posGrow) (neg := negGrow) (a3 ▸ hi) (by rw [b3, h6, a3])
    (fun row h => h7 row (a1 row h)) (fun row h => h8 row (b1 row h)) hp.lim fuel (r := []) (by intro c hc; simp at hc)
  revert hg
  generalize growRule fuel cands hp.lim posGrow negGrow [] = o
  generalize growRule fuel (cands.filter (fun c => decide (c.feature ≠ e))) hp.lim (posGrow.dropCol e) (negGrow.dropCol e) [] = o'
  intro hg
  have happ : ∀ r, NotOn e r → ∀ r' ∈ rules' ++ [r], NotOn e r' := by
    intro r hr r' hr'
    rcases List.mem_append.mp hr' with hr' | hr'
    · exact h9 r' hr'
    · rw [List.mem_singleton] at hr'; exact hr' ▸ hr
  have hsub : ∀ (d : Frame) ls, ∀ row ∈ (d.dropLabels ls).rows, row ∈ d.rows := fun d ls row h => (List.mem_filter.mp h).1
  cases hg with
  | err x => exact .err x
  | ok hg =>
    rename_i grown _
    obtain ⟨rfl, hn⟩ := hg
    simp only [ok_bind]
    by_cases h0 : hp.irepPrune = 0
    · rw [if_pos h0, if_pos h0, condsCover_dropCol hn]
      cases condsCover grown pos with
      | error x => exact .err x
      | ok d =>
        exact .more ⟨rfl, rfl, rfl, rfl, rfl, h6, fun row h => h7 row (hsub _ _ row h), h8, happ _ hn⟩
    rw [if_neg h0, if_neg h0]
    have hpr : pruneRule (irepMetric posPrune negPrune) grown =
        pruneRule (irepMetric (posPrune.dropCol e) (negPrune.dropCol e)) grown := by
      unfold pruneRule
      split
      · rfl
      · exact pruneLoop_congr (fun n => (irepMetric_dropCol (fun c hc => hn c (List.mem_of_mem_take hc)) _ _).symm) _ _
    rw [← hpr]
    cases hq : pruneRule (irepMetric posPrune negPrune) grown with
    | error x => exact .err x
    | ok o =>
      cases o with
      | none => exact .err _
      | some pruned =>
        have hpn : NotOn e pruned := by
          intro c hc
          exact hn c ((pruneRule_prefix hq).1.subset hc)
        simp only [ok_bind]
        rw [precisionDf_dropCol hpn]
        cases precisionDf pruned posPrune negPrune with
        | error x => exact .err x
        | ok o =>
          simp only [ok_bind]
          cases o with
          | none => exact .done ⟨rfl, rfl, rfl, rfl, rfl, h6, h7, h8, h9⟩
          | some q =>
            dsimp only
            split
            · exact .done ⟨rfl, rfl, rfl, rfl, rfl, h6, h7, h8, h9⟩
            · unfold rmCoveredRule
              rw [condsCover_dropCol hpn, condsCover_dropCol hpn]
              cases condsCover pruned pos with
              | error x => exact .err x
              | ok d =>
                cases condsCover pruned neg with
                | error x => exact .err x
                | ok d' =>
                  exact .more ⟨rfl, rfl, rfl, rfl, rfl, h6, fun row h => h7 row (hsub _ _ row h),
                    fun row h => h8 row (hsub _ _ row h), happ _ hpn⟩
end grow

/-- The candidates on a column that adds nothing are idle. -/
theorem idle_of_addsNothing {S : SetOps} (hS : S.Lawful) {df : Frame} {cf e : Feat} (pc : Val)
    (ha : AddsNothing df cf e) {old : Option (List Cond)} (ho : ∀ l, old = some l → NotOn e l) :
    Idle df e (posExamples df cf pc).cols (updatedConds S old (posExamples df cf pc) (negExamples df cf pc)) := by
  have hold : NotOn e (old.getD []) := by
    cases old with
    | none => intro c hc; simp at hc
    | some l => exact ho l rfl
  have hP : ∀ row ∈ (posExamples df cf pc).rows, row ∈ df.rows := fun row h => (List.mem_filter.mp h).1
  have hN : ∀ row ∈ (negExamples df cf pc).rows, row ∈ df.rows := fun row h => (List.mem_filter.mp h).1
  unfold updatedConds
  rcases ha with ha | ⟨f, before, after, hcols, hf, heb, hfc, hrep⟩
  · refine ⟨old.getD [], sharedConds S (posExamples df cf pc) (negExamples df cf pc), rfl, hold, fun c hc he => ?_⟩
    unfold sharedConds at hc
    obtain ⟨f', hf', hc⟩ := List.mem_flatMap.mp hc
    obtain ⟨v, hv, rfl⟩ := List.mem_map.mp hc
    dsimp only at he
    subst he
    refine ⟨hf', ?_⟩
    rcases ha with ha | ha
    · by_cases hm : ∃ row ∈ df.rows, Cond.met ⟨f', v⟩ row = true
      · obtain ⟨row0, hr0, hm⟩ := hm
        refine Or.inl fun row hrow => ?_
        have := ha row hrow row0 hr0
        rw [← Val.pyEq_iff] at this
        exact Val.pyEq_trans this hm
      · push Not at hm
        exact Or.inr (Or.inl fun row hrow => by simpa using hm row hrow)
    · refine Or.inr (Or.inl fun row hrow => ?_)
      unfold Cond.met
      dsimp only
      rw [ha row hrow]
      cases v <;> rfl
  · let part (cols : List Feat) : List Cond := (cols.filter (· ≠ cf)).flatMap (fun f =>
      (S.inter ((posExamples df cf pc).unique f) ((negExamples df cf pc).unique f)).map (fun v => ({ feature := f, val := v } : Cond)))
    refine ⟨old.getD [] ++ part before, part after, ?_, ?_, ?_⟩
    · rw [List.append_assoc]
      congr 1
      unfold sharedConds
      have : (posExamples df cf pc).cols = df.cols.filter (· ≠ cf) := rfl
      rw [this, hcols, List.filter_append, List.flatMap_append]
    · intro c hc
      rcases List.mem_append.mp hc with hc | hc
      · exact hold c hc
      · obtain ⟨f', hf', hc⟩ := List.mem_flatMap.mp hc
        obtain ⟨v, -, rfl⟩ := List.mem_map.mp hc
        intro he
        exact heb (he ▸ (List.mem_filter.mp hf').1)
    · intro c hc he
      obtain ⟨f', hf', hc⟩ := List.mem_flatMap.mp hc
      obtain ⟨v, hv, rfl⟩ := List.mem_map.mp hc
      dsimp only at he
      subst he
      refine ⟨?_, ?_⟩
      · show f' ∈ df.cols.filter (· ≠ cf)
        rw [hcols, List.filter_append]
        exact List.mem_append_right _ hf'
      by_cases hv0 : v = .nan
      · refine Or.inr (Or.inl fun row hrow => ?_)
        subst hv0
        unfold Cond.met
        dsimp only
        cases row.cell f' <;> rfl
      obtain ⟨x, hx, hxv⟩ := hS.left _ _ _ hv
      obtain ⟨y, hy, hyv⟩ := hS.right _ _ _ hv
      have hxv : x.pyEq v = true := hxv.resolve_right (fun h => hv0 h.2)
      have hyv : y.pyEq v = true := hyv.resolve_right (fun h => hv0 h.2)
      obtain ⟨ra, hra, rfl⟩ := mem_unique hx
      obtain ⟨rb, hrb, rfl⟩ := mem_unique hy
      have hab : Same (ra.cell f') (rb.cell f') := by
        rw [← Val.pyEq_iff]
        exact Val.pyEq_trans hxv (by rw [Val.pyEq_symm]; exact hyv)
      have hfab := (hrep ra (hP ra hra) rb (hN rb hrb)).mp hab
      rw [← Val.pyEq_iff] at hfab
      obtain ⟨xa, hxa, hka⟩ := unique_rep (f := f) hra
      obtain ⟨xb, hxb, hkb⟩ := unique_rep (f := f) hrb
      have kind : ∀ {w u : Val}, w.sameKind u = true → u.pyEq u = true → w.pyEq u = true := by
        intro w u h hu
        unfold Val.sameKind at h
        simp only [Bool.or_eq_true, Bool.and_eq_true, beq_iff_eq] at h
        rcases h with h | ⟨_, h⟩
        · exact h
        · rw [h] at hu; cases hu
      have haa : (ra.cell f).pyEq (ra.cell f) = true := Val.pyEq_trans hfab (by rw [Val.pyEq_symm]; exact hfab)
      have hbb : (rb.cell f).pyEq (rb.cell f) = true := Val.pyEq_trans (by rw [Val.pyEq_symm]; exact hfab) hfab
      have e1 := kind hka haa
      have e2 := kind hkb hbb
      have e3 : xa.pyEq xb = true := Val.pyEq_trans (Val.pyEq_trans e1 hfab) (by rw [Val.pyEq_symm]; exact e2)
      obtain ⟨w, hw, hwx⟩ := hS.all _ _ xa xb hxa hxb e3
      have hwa : w.pyEq (ra.cell f) = true := Val.pyEq_trans hwx e1
      refine Or.inr (Or.inr ⟨⟨f, w⟩, List.mem_append_right _ (List.mem_flatMap.mpr ⟨f, List.mem_filter.mpr ⟨hf, by simp [hfc]⟩,
        List.mem_map.mpr ⟨w, hw, rfl⟩⟩), fun row hrow => ?_⟩)
      unfold Cond.met
      dsimp only
      have hrr := hrep row hrow ra (hP ra hra)
      rw [← Val.pyEq_iff, ← Val.pyEq_iff] at hrr
      rw [Bool.eq_iff_iff]
      constructor
      · intro hm
        exact Val.pyEq_trans (hrr.mpr (Val.pyEq_trans hm hwa)) hxv
      · intro hm
        exact Val.pyEq_trans (hrr.mp (Val.pyEq_trans hm (by rw [Val.pyEq_symm]; exact hxv))) (by rw [Val.pyEq_symm]; exact hwa)

section fit
variable [Arith] [Arith.Lawful] {R : PyRandom}

/-- C98, `cn_optimize=False`: the same, for every order in which sets are enumerated. -/
theorem C98_irep_plain_superfluous_column (fuel : Nat) (S : SetOps) (hS : S.Lawful) (hp : Hyper) (old : Option (List Cond))
    {init : List (List Cond)} {df : Frame} {cf e : Feat} (pc : Val) (g : R.G) (hcf : e ≠ cf)
    (hi : ∀ r ∈ init, ∀ c ∈ r, c.feature ≠ e) (ho : ∀ l, old = some l → ∀ c ∈ l, c.feature ≠ e)
    (ha : ConstantColumn df e ∨ RepeatedColumn df cf e) :
    learnt (irepFitPlain fuel R S hp old init (df.dropCol e) cf pc g) = learnt (irepFitPlain fuel R S hp old init df cf pc g) := by
  unfold irepFitPlain
  rw [Frame.dropCol_rows]
  by_cases h0 : df.rows = []
  · rw [if_pos h0, if_pos h0]
  rw [if_neg h0, if_neg h0]
  by_cases h1 : cf ∉ df.cols
  · rw [if_pos h1, if_pos (fun h => h1 (Frame.mem_dropCol.mp h).1)]
  push Not at h1
  have h1' : cf ∈ (df.dropCol e).cols := Frame.mem_dropCol.mpr ⟨h1, fun h => hcf h.symm⟩
  rw [if_neg (not_not.mpr h1), if_neg (not_not.mpr h1')]
  have hpe : posExamples (df.dropCol e) cf pc = (posExamples df cf pc).dropCol e := dropCol_comm (posRows df cf pc) e cf
  have hne : negExamples (df.dropCol e) cf pc = (negExamples df cf pc).dropCol e := dropCol_comm (negRows df cf pc) e cf
  have hcands : updatedConds S old (posExamples (df.dropCol e) cf pc) (negExamples (df.dropCol e) cf pc) =
      (updatedConds S old (posExamples df cf pc) (negExamples df cf pc)).filter (fun c => decide (c.feature ≠ e)) := by
    unfold updatedConds
    rw [hpe, hne, sharedConds_dropCol, List.filter_append]
    congr 1
    refine (List.filter_eq_self.mpr fun c hc => ?_).symm
    cases old with
    | none => simp at hc
    | some l => exact decide_eq_true (ho l rfl c hc)
  have hrun : OutRel (FramesWithout (R := R) df e (posExamples df cf pc).cols)
      (irepGrow fuel R (updatedConds S old (posExamples df cf pc) (negExamples df cf pc)) hp init (posExamples df cf pc)
        (negExamples df cf pc) g)
      (irepGrow fuel R (updatedConds S old (posExamples (df.dropCol e) cf pc) (negExamples (df.dropCol e) cf pc)) hp init
        (posExamples (df.dropCol e) cf pc) (negExamples (df.dropCol e) cf pc) g) := by
    rw [hcands]
    exact pyWhile_rel (irepStep_dropCol (idle_of_addsNothing hS pc ha ho) fuel hp) fuel _ _
      ⟨rfl, hpe, hne, rfl, rfl, rfl, fun row h => (List.mem_filter.mp h).1, fun row h => (List.mem_filter.mp h).1, hi⟩
  dsimp only
  revert hrun
  generalize updatedConds S old (posExamples df cf pc) (negExamples df cf pc) = cands
  generalize updatedConds S old (posExamples (df.dropCol e) cf pc) (negExamples (df.dropCol e) cf pc) = cands'
  generalize irepGrow fuel R cands hp init (posExamples df cf pc) (negExamples df cf pc) g = o
  generalize irepGrow fuel R cands' hp init (posExamples (df.dropCol e) cf pc) (negExamples (df.dropCol e) cf pc) g = o'
  intro hrun
  cases hrun with
  | err x => rfl
  | ok hst =>
    rename_i st st'
    obtain ⟨rules, _, _, g1⟩ := st
    obtain ⟨rules', _, _, g1'⟩ := st'
    obtain ⟨k1, -, -, k4, -, -, -, -, hn⟩ := hst
    dsimp only at k1 k4 hn
    subst k1 k4
    simp only [ok_bind]
    obtain ⟨k1, k2, k3⟩ := recalibrate_dropCol (e := e) (fun h => hcf h.symm) df pc hp.alpha
      (rs := { rules := rules'.map (fun c => { conds := c }), possible := some cands })
      (rs' := { rules := rules'.map (fun c => { conds := c }), possible := some cands' })
      (by intro r hr; obtain ⟨c, hc, rfl⟩ := List.mem_map.mp hr; exact hn c hc) rfl rfl
    revert k1 k2 k3
    generalize recalibrate { rules := rules'.map (fun c => { conds := c }), possible := some cands } df cf pc hp.alpha = q
    generalize recalibrate { rules := rules'.map (fun c => { conds := c }), possible := some cands' } (df.dropCol e) cf pc
      hp.alpha = q'
    obtain ⟨⟨rules, un, poss⟩, x⟩ := q
    obtain ⟨⟨rules', un', poss'⟩, x'⟩ := q'
    intro k1 k2 k3
    dsimp only at k1 k2 k3
    subst k1 k2 k3
    cases x' with
    | some x => rfl
    | none => rfl

/-- C98, `cn_optimize=False`: no rule mentions the column. -/
theorem C98_irep_plain_unused (fuel : Nat) (S : SetOps) (hS : S.Lawful) (hp : Hyper) (old : Option (List Cond))
    {init : List (List Cond)} {df : Frame} {cf e : Feat} (pc : Val) (g g' : R.G) (hcf : e ≠ cf)
    (hi : ∀ r ∈ init, ∀ c ∈ r, c.feature ≠ e) (ho : ∀ l, old = some l → ∀ c ∈ l, c.feature ≠ e)
    (ha : ConstantColumn df e ∨ RepeatedColumn df cf e) (m : Fitted)
    (h : irepFitPlain fuel R S hp old init df cf pc g = .ok (m, g')) :
    ∀ r ∈ m.ruleset.rules, ∀ c ∈ r.conds, c.feature ≠ e := by
  obtain ⟨m', h', hr, _⟩ := learnt_ok (C98_irep_plain_superfluous_column (R := R) fuel S hS hp old pc g hcf hi ho ha) h
  intro r hm c hc
  rw [← hr] at hm
  rcases C70_irep_conditions_shared R S hS hp old init _ cf pc fuel g g' m' h' r hm with h1 | h1
  · exact hi _ h1 c hc
  · rcases h1 c hc with h2 | h2
    · cases old with
      | none => simp at h2
      | some l => exact ho l rfl c h2
    · exact (Frame.mem_dropCol.mp h2.1.1).2

/-- C98, `cn_optimize=False`: the model trained without the column answers alike. -/
theorem C98_irep_plain_same_answers (fuel : Nat) (S : SetOps) (hS : S.Lawful) (hp : Hyper) (old : Option (List Cond))
    {init : List (List Cond)} {df : Frame} {cf e : Feat} (pc : Val) (g g' : R.G) (hcf : e ≠ cf)
    (hi : ∀ r ∈ init, ∀ c ∈ r, c.feature ≠ e) (ho : ∀ l, old = some l → ∀ c ∈ l, c.feature ≠ e)
    (ha : ConstantColumn df e ∨ RepeatedColumn df cf e) (m : Fitted)
    (h : irepFitPlain fuel R S hp old init df cf pc g = .ok (m, g')) :
    ∃ m', irepFitPlain fuel R S hp old init (df.dropCol e) cf pc g = .ok (m', g') ∧ ∀ X : Frame,
      m'.ruleset.predict (X.dropCol e) = m.ruleset.predict X ∧
      m'.ruleset.predictProbaReasons (X.dropCol e) = m.ruleset.predictProbaReasons X := by
  obtain ⟨m', h', h1, h2, _⟩ := learnt_ok (C98_irep_plain_superfluous_column (R := R) fuel S hS hp old pc g hcf hi ho ha) h
  exact ⟨m', h', fun X => Ruleset.predictProba_dropCol (C98_irep_plain_unused (R := R) fuel S hS hp old pc g g' hcf hi ho ha m h)
    h1 h2 X⟩
end fit

namespace Demo
/-- Values found in both classes; the column `d` is constant. -/
def flatShared : Frame := Frame.ofTable [fa, fb, fd, fc]
  [(0, [vx, vx, vx, vp]), (1, [vx, vy, vx, vp]), (2, [vy, vx, vx, vn]), (3, [vx, vy, vx, vn]), (4, [vy, vy, vx, vn]),
   (5, [vy, vx, vx, vp])]
/-- The same examples; the column `d` repeats the column `a` in other words. -/
def twiceShared : Frame := Frame.ofTable [fa, fb, fd, fc]
  [(0, [vx, vx, vy, vp]), (1, [vx, vy, vy, vp]), (2, [vy, vx, vx, vn]), (3, [vx, vy, vy, vn]), (4, [vy, vy, vx, vn]),
   (5, [vy, vx, vx, vp])]
end Demo

/-- The hypotheses are met, and the models learned have rules. -/
example : Demo.S0.Lawful ∧ ConstantColumn Demo.flatShared Demo.fd ∧ RepeatedColumn Demo.twiceShared Demo.fc Demo.fd ∧
    Demo.rulesLearnt (irepFitPlain 9 Demo.R0 Demo.S0 { pruneSize := none } none [] Demo.flatShared Demo.fc Demo.vp ()) =
      some [[⟨Demo.fa, Demo.vx⟩, ⟨Demo.fb, Demo.vx⟩], [⟨Demo.fa, Demo.vx⟩], [⟨Demo.fb, Demo.vx⟩]] ∧
    Demo.rulesLearnt (irepFitPlain 9 Demo.R0 Demo.S0 { pruneSize := none } none [] Demo.twiceShared Demo.fc Demo.vp ()) =
      some [[⟨Demo.fa, Demo.vx⟩, ⟨Demo.fb, Demo.vx⟩], [⟨Demo.fa, Demo.vx⟩], [⟨Demo.fb, Demo.vx⟩]] := by
  refine ⟨Demo.S0_lawful, ?_, ?_, ?_, ?_⟩
  · left
    intro row hr row' hr'
    rw [← Val.pyEq_iff]
    revert row row'
    decide +kernel
  · refine ⟨Demo.fa, [Demo.fa, Demo.fb], [Demo.fd, Demo.fc], by decide +kernel, by decide +kernel, by decide +kernel,
      by decide +kernel, ?_⟩
    intro row hr row' hr'
    rw [← Val.pyEq_iff, ← Val.pyEq_iff]
    revert row row'
    decide +kernel
  · decide +kernel
  · decide +kernel
end Witt
