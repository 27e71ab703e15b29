import Verif.Props.PlainApi
import Verif.Props.RoundedPlain
import Verif.Props.Irrelevant
import Verif.Props.Limits
/-
C107: what `RIPPER.fit(..., cn_optimize=False)` can raise on valid data, and when it raises nothing.
-/
namespace Witt
open Spec

/-- The computation raises nothing but what `E` allows. -/
def Raises {α : Type} (E : PyErr → Prop) (x : Except PyErr α) : Prop := ∀ e, x = .error e → E e

section
variable {E : PyErr → Prop}

theorem Raises.ok {α : Type} (a : α) : Raises E (.ok a : Except PyErr α) := by intro e h; cases h

theorem Raises.pure {α : Type} (a : α) : Raises E (pure a : Except PyErr α) := by intro e h; cases h

theorem Raises.of_ok {α : Type} {x : Except PyErr α} (h : ∃ a, x = .ok a) : Raises E x := by
  obtain ⟨a, rfl⟩ := h; exact .ok a

theorem Raises.bind {α β : Type} {x : Except PyErr α} {f : α → Except PyErr β} (hx : Raises E x)
    (hf : ∀ a, x = .ok a → Raises E (f a)) : Raises E (x >>= f) := by
  cases x with
  | error e => intro e' h; exact hx e' (by simpa [error_bind] using h)
  | ok a => exact hf a rfl

/-- What is known of the rules that arise (`P`, and `L` of their number) and of the operations on them. -/
structure Tame [Arith] (E : PyErr → Prop) (P : List Cond → Prop) (L : Nat → Prop) (cols : List Feat) (lim : Limits) : Prop where
  feats : ∀ r, P r → ∀ c ∈ r, c.feature ∈ cols
  exc : ∀ rules (pos neg : Frame), pos.cols = cols → neg.cols = cols → (∀ r ∈ rules, P r) → L rules.length →
    Raises E (exceptionsDf rules pos neg)
  acc : ∀ rules (pos neg : Frame) v, (∀ r ∈ rules, P r) → L rules.length → rulesetAccuracy rules pos neg = .ok (some v) →
    E .unboundLocal ∨ 0 ≤ v
  less : ∀ m m', m ≤ m' → L m' → L m
  go : ∀ rules a b, stopEarly lim rules a b = false → L (rules.length + 1)

/-- What is known of the candidates. -/
structure TameCands [Arith] [Arith.Lawful] (E : PyErr → Prop) (P : List Cond → Prop) (cols : List Feat) (cands : List Cond) : Prop where
  closed : ClosedOn cands P
  theory : ∀ r, P r → Raises E (ruleTheory cands.length r.length)
  feats : ∀ c ∈ cands, c.feature ∈ cols

variable [Arith] [Arith.Lawful] {P : List Cond → Prop} {L : Nat → Prop} {cols : List Feat} {cands : List Cond} {hp : Hyper}
  {R : PyRandom} {fuel : Nat} {allPos allNeg : Frame} {S : SetOps}

omit [Arith] [Arith.Lawful] in
theorem rulesNumCovered_known {rules : List (List Cond)} {d : Frame} (h : ∀ r ∈ rules, ∀ c ∈ r, c.feature ∈ d.cols) :
    ∃ k, rulesNumCovered rules d = .ok k := by
  unfold rulesNumCovered Ruleset.numCovered
  obtain ⟨x, hx, -⟩ := Ruleset.covers_ok (rs := { rules := rules.map (fun c => { conds := c }) }) (df := d)
    (Or.inr (by
      intro r hr c hc
      obtain ⟨r0, hr0, rfl⟩ := List.mem_map.mp hr
      exact h r0 hr0 c hc))
  rw [hx]
  exact ⟨_, rfl⟩

theorem TameCands.theorySum (hC : TameCands E P cols cands) : ∀ (rules : List (List Cond)) (t : Rat), (∀ r ∈ rules, P r) →
    Raises E (theorySum cands.length t rules) := by
  intro rules
  induction rules with
  | nil => intro t _; exact .ok _
  | cons r rs ih =>
    intro t h
    rw [Witt.theorySum]
    exact (hC.theory r (h r (by simp))).bind fun _ _ => ih _ (fun x hx => h x (by simp [hx]))

theorem Tame.subsetDls (hT : Tame E P L cols hp.lim) (hC : TameCands E P cols cands) {pos neg : Frame} (hpc : pos.cols = cols)
    (hnc : neg.cols = cols) : ∀ (rules : List (List Cond)) (t : Rat) (done : List (List Cond)), (∀ r ∈ done ++ rules, P r) →
    L (done ++ rules).length → Raises E (subsetDlsDf cands.length pos neg t done rules) := by
  intro rules
  induction rules with
  | nil => intros; exact .ok _
  | cons r rs ih =>
    intro t done h hl
    rw [subsetDlsDf]
    have e : done ++ r :: rs = (done ++ [r]) ++ rs := by simp
    rw [e] at h hl
    refine (hC.theory r (h r (by simp))).bind fun _ _ => (hT.exc _ pos neg hpc hnc (fun x hx => h x (List.mem_append_left _ hx))
      (hT.less _ _ (by simp) hl)).bind fun _ _ => (ih _ _ h hl).bind fun _ _ => .pure _

theorem Tame.bestSubset (hT : Tame E P L cols hp.lim) (hC : TameCands E P cols cands) {pos neg : Frame} (hpc : pos.cols = cols)
    (hnc : neg.cols = cols) (rules : List (List Cond)) (h : ∀ r ∈ rules, P r) (hl : L rules.length) :
    Raises E (bestSubsetDf cands.length rules pos neg) := by
  unfold bestSubsetDf
  refine (hT.subsetDls hC hpc hnc rules _ [] (by simpa using h) (by simpa using hl)).bind fun dls hd => ?_
  have hsub : (mdlFilter none (rules.zip dls)).Sublist rules := by
    have := mdlFilter_sublist (rules.zip dls) none
    rwa [List.map_fst_zip (by rw [subsetDlsDf_length _ _ _ _ hd])] at this
  refine Raises.bind ?_ fun _ _ => .pure _
  unfold totalBitsDf rsTheory
  exact (hC.theorySum _ _ (fun r hr => h r (hsub.subset hr))).bind fun _ _ =>
    (hT.exc _ pos neg hpc hnc (fun r hr => h r (hsub.subset hr)) (hT.less _ _ hsub.length_le hl)).bind fun _ _ => .pure _

/-- Growing one rule raises nothing, and the rule is as before. -/
theorem TameCands.grow (hC : TameCands E P cols cands) (hPf : ∀ r, P r → ∀ c ∈ r, c.feature ∈ cols) {lim : Limits} {a c B : Frame}
    {start : List Cond} (hB : ∀ row ∈ c.rows, row ∈ B.rows) (hf : B.rows.length < fuel) (ha : a.cols = cols) (hc : c.cols = cols)
    (hs : P start) : ∃ r, growRule fuel cands lim a c start = .ok r ∧ P r := by
  obtain ⟨r, hr⟩ := growRule_total (fuel := fuel) (cands := cands) (lim := lim) (pos := a) (neg := c) (B := B) (init := start) hB hf
    (fun x hx => by rw [ha, hc]; exact ⟨hC.feats x hx, hC.feats x hx⟩) (fun x hx => by rw [ha, hc]; exact ⟨hPf _ hs x hx, hPf _ hs x hx⟩)
  exact ⟨r, hr, hC.closed.grow hs hr⟩

theorem Tame.step (hT : Tame E P L cols hp.lim) (hC : TameCands E P cols cands) {ps : Rat} (hps : hp.pruneSize = some ps)
    (hpc : allPos.cols = cols) (hnc : allNeg.cols = cols) {st : FrameRipSt R} {B : Frame} (hB : ∀ row ∈ st.neg.rows, row ∈ B.rows)
    (hf : B.rows.length < fuel) (h1 : st.pos.cols = cols) (h2 : st.neg.cols = cols) (hr : ∀ r ∈ st.rules, P r) :
    Raises E (ripperStep fuel R cands hp allPos allNeg st) := by
  unfold ripperStep
  split
  · exact .pure _
  split
  · exact .pure _
  rename_i hgo
  have hL := hT.go _ _ _ (by simpa using hgo)
  rw [hps]
  dsimp only
  rcases hp1 : dfShuffledSplit R st.g st.pos (Arith.complement ps) hp.randomState with ⟨a, b, g1⟩
  rcases hp2 : dfShuffledSplit R g1 st.neg (Arith.complement ps) hp.randomState with ⟨c, d, g2⟩
  obtain ⟨a1, a2, a3, a4⟩ := dfSplit_sub hp1
  obtain ⟨c1, c2, c3, c4⟩ := dfSplit_sub hp2
  dsimp only
  split
  · exact .pure _
  obtain ⟨r, hg, hPr⟩ := hC.grow hT.feats (lim := hp.lim) (fun row h => hB row (c1 row h)) hf (a3.trans h1) (c3.trans h2) hC.closed.nil
  rw [hg, ok_bind]
  split
  · exact .pure _
  have hrf := hT.feats r hPr
  obtain ⟨p, hpr⟩ := pruneRule_total (metric := ripperGrowMetric b d) (rule := r) (fun n => by
    unfold ripperGrowMetric
    rw [numCoveredC_total (fun x hx => by rw [a4, h1]; exact hrf x (List.mem_of_mem_take hx)),
      numCoveredC_total (fun x hx => by rw [c4, h2]; exact hrf x (List.mem_of_mem_take hx))]
    exact ⟨_, rfl⟩)
  have hPp := hC.closed.pre _ _ hPr (pruneRule_prefix hpr).1
  rw [hpr, ok_bind]
  dsimp only
  refine (hC.theory p hPp).bind fun _ _ => (hT.exc _ allPos allNeg hpc hnc ?_ (by simpa using hL)).bind fun _ _ => Raises.bind ?_ fun _ _ => .pure _
  · intro x hx
    rcases List.mem_append.mp hx with hx | hx
    · exact hr x hx
    · simp at hx; subst hx; exact hPp
  · unfold rmCoveredRule
    rw [condsCover_ok (fun x hx => by rw [h1]; exact hT.feats p hPp x hx), condsCover_ok (fun x hx => by rw [h2]; exact hT.feats p hPp x hx)]
    exact .of_ok ⟨_, rfl⟩

theorem Tame.growing (hT : Tame E P L cols hp.lim) (hC : TameCands E P cols cands) {ps : Rat} (hps : hp.pruneSize = some ps)
    {init : List (List Cond)} {pos neg : Frame} (hpc : pos.cols = cols) (hnc : neg.cols = cols) (hi : ∀ r ∈ init, P r)
    (hf : pos.rows.length < fuel ∧ neg.rows.length < fuel) (g : R.G) : Raises E (ripperGrow fuel R cands hp init pos neg g) := by
  intro e he
  by_contra hE
  refine pyWhile_ne_error (body := ripperStep fuel R cands hp pos neg)
    (I := fun s : FrameRipSt R => (∀ row ∈ s.neg.rows, row ∈ neg.rows) ∧ s.pos.cols = cols ∧ s.neg.cols = cols ∧ ∀ r ∈ s.rules, P r)
    (m := fun s => s.pos.rows.length) ?_ ?_ fuel _ ⟨fun _ h => h, hpc, hnc, hi⟩ hf.1 he
  · intro s s' hI hb
    obtain ⟨rule, ha⟩ := ripperStep_more hb
    refine ⟨⟨fun row hr => hI.1 row (ha.neg_sub.subset hr), by rw [ha.pos]; exact hI.2.1, by rw [ha.neg]; exact hI.2.2.1, ?_⟩, ha.pos_lt⟩
    intro r hr
    rw [ha.rules] at hr
    rcases List.mem_append.mp hr with hr | hr
    · exact hI.2.2.2 r hr
    · simp at hr; subst hr
      obtain ⟨_, x, y, r', h1, h2⟩ := ha.grown
      exact hC.closed.pre _ _ (hC.closed.grow hC.closed.nil h1) h2
  · intro s hI hb
    exact hE (hT.step hC hps hpc hnc hI.1 hf.2 hI.2.1 hI.2.2.1 hI.2.2.2 e hb)

omit [Arith.Lawful] in
theorem Tame.grow_length (hT : Tame E P L cols hp.lim) {init : List (List Cond)} {pos neg : Frame} {g : R.G} {st : FrameRipSt R}
    (h : ripperGrow fuel R cands hp init pos neg g = .ok st) (hi : L init.length) : L st.rules.length := by
  obtain ⟨s, hs, h1, -⟩ := ripperGrow_reach h
  rw [h1]
  clear h1 h
  induction hs with
  | start => exact hi
  | add _ ha _ => rw [ha.rules]; simpa using hT.go _ _ _ ha.go

omit [Arith.Lawful] in
/-- The prune set is not empty. -/
theorem dfSplit_prune_some (hR : R.Lawful) {ps : Rat} (hl : Arith.LeavesSome ps) {g g' : R.G} {d a b : Frame} {rs : Option Int}
    (hd : d.rows ≠ []) (h : dfShuffledSplit R g d (Arith.complement ps) rs = (a, b, g')) : b.rows ≠ [] := by
  have hidx : d.index ≠ [] := by unfold Frame.index; simpa using hd
  have hls := hl _ (List.length_pos_of_ne_nil hidx)
  have := randomSplit_prune_ne_nil hR g (l := d.index) (q := Arith.complement ps) rs hls.1 hls.2
  unfold dfShuffledSplit at h
  rcases hrs : randomSplit R g d.index (Arith.complement ps) rs with ⟨x, y, z⟩
  rw [hrs] at h this
  simp only [Prod.mk.injEq] at h
  obtain ⟨_, rfl, _⟩ := h
  obtain ⟨l, hl⟩ := List.exists_mem_of_ne_nil _ this
  have hlm : l ∈ d.index := by
    have hperm := randomSplit_mem hR g d.index (Arith.complement ps) rs l
    rw [hrs] at hperm
    exact hperm.mpr (Or.inr hl)
  obtain ⟨row, hrow, rfl⟩ := List.mem_map.mp hlm
  exact List.ne_nil_of_mem (loc_label.mpr ⟨hrow, hl⟩)

omit [Arith] [Arith.Lawful] in
/-- Pruning on a metric that is always a number, and not negative unless `E` allows UnboundLocalError. -/
theorem pruneRuleOn_raises {metric : List Cond → Except PyErr (Option Rat)} {rule : List Cond} {rules : List (List Cond)} {i : Nat}
    (h0 : rules[i]? = some rule) (hm : ∀ n, ∃ v, metric (rule.take n) = .ok (some v) ∧ (E .unboundLocal ∨ 0 ≤ v)) :
    Raises E (pruneRuleOn metric rule rules i) ∧ ∀ o, pruneRuleOn metric rule rules i = .ok o → ∃ p, o = some p ∧ p <+: rule := by
  have hloop : ∀ n best, (E .unboundLocal ∨ (best.1 = none → 1 ≤ n ∧ best.2 = 0)) →
      Raises E (pruneLoopRs metric rule n best) ∧ ∀ o, pruneLoopRs metric rule n best = .ok o → ∃ p, o = some p := by
    intro n
    induction n with
    | zero =>
      intro best hb
      unfold pruneLoopRs
      rcases hb0 : best.1 with _ | b
      · dsimp only
        refine ⟨fun e he => ?_, fun o ho => by cases ho⟩
        injection he with he; subst he
        rcases hb with h | h
        · exact h
        · have := (h hb0).1; omega
      · exact ⟨.ok _, fun o ho => by injection ho with ho; exact ⟨b, ho.symm⟩⟩
    | succ n ih =>
      intro best hb
      obtain ⟨v, hv, hv0⟩ := hm (n + 1)
      unfold pruneLoopRs
      rw [hv, ok_bind]
      dsimp only
      apply ih
      rcases hb with h | h
      · exact Or.inl h
      · rcases hv0 with h' | h'
        · exact Or.inl h'
        · refine Or.inr fun hn => ?_
          split at hn
          · simp at hn
          · rename_i hlt
            rw [(h hn).2] at hlt
            exact absurd h' hlt
  have key : Raises E (pruneRuleOn metric rule rules i) ∧ ∀ o, pruneRuleOn metric rule rules i = .ok o → ∃ p, o = some p := by
    rw [pruneRuleOn_eq h0]
    split
    · exact ⟨.ok _, fun o ho => by injection ho with ho; exact ⟨rule, ho.symm⟩⟩
    · rename_i hne
      exact hloop _ _ (Or.inr fun _ => ⟨List.length_pos_of_ne_nil hne, rfl⟩)
  refine ⟨key.1, fun o ho => ?_⟩
  obtain ⟨p, rfl⟩ := key.2 o ho
  exact ⟨p, rfl, (pruneRuleOn_prefix h0 ho).1⟩

theorem Tame.choice (hT : Tame E P L cols hp.lim) (hC : TameCands E P cols cands) (hpc : allPos.cols = cols) (hnc : allNeg.cols = cols)
    {original : List (List Cond)} {odl : Rat} {i : Nat} {rule : List Cond} (ho : ∀ r ∈ original, P r) (hL : L original.length)
    (hi : i < original.length) (hr : P rule) {a b c d B : Frame} (hB : ∀ row ∈ c.rows, row ∈ B.rows) (hf : B.rows.length < fuel)
    (ha : a.cols = cols) (hb : b.cols = cols) (hc : c.cols = cols) (hd : d.cols = cols) (hbne : b.rows ≠ []) :
    Raises E (optimizeChoiceDf fuel cands hp original odl i rule allPos allNeg a b c d) := by
  have hrep : ∀ r, P r → (∀ x ∈ iReplaced original i (some r), P x) ∧ L (iReplaced original i (some r)).length := by
    intro r hPr
    rw [iReplaced_eq hi]
    unfold exchanged
    refine ⟨fun x hx => ?_, by simpa using hL⟩
    rcases List.mem_or_eq_of_mem_set hx with hx | rfl
    · exact ho x hx
    · exact hPr
  have hprune : ∀ r, P r → Raises E (pruneRuleOn (fun r => rulesetAccuracy (iReplaced original i (some r)) b d) r
        (iReplaced original i (some r)) i) ∧
      ∀ o, pruneRuleOn (fun r => rulesetAccuracy (iReplaced original i (some r)) b d) r (iReplaced original i (some r)) i = .ok o →
        ∃ p, o = some p ∧ p <+: r := by
    intro r hPr
    refine pruneRuleOn_raises (iReplaced_getElem _ _ _ hi) fun n => ?_
    have hPt := hC.closed.pre _ _ hPr (List.take_prefix n r)
    obtain ⟨k1, k2⟩ := hrep _ hPt
    have : ∃ v, rulesetAccuracy (iReplaced original i (some (r.take n))) b d = .ok (some v) := by
      unfold rulesetAccuracy
      have : ¬ (b.rows.length + d.rows.length = 0) := by
        have := List.length_pos_of_ne_nil hbne; omega
      dsimp only
      rw [if_neg this]
      obtain ⟨x, hx⟩ := rulesNumCovered_known (d := b) (fun r hr c hc => by rw [hb]; exact hT.feats r (k1 r hr) c hc)
      obtain ⟨y, hy⟩ := rulesNumCovered_known (d := d) (fun r hr c hc => by rw [hd]; exact hT.feats r (k1 r hr) c hc)
      rw [hx, hy]
      exact ⟨_, rfl⟩
    obtain ⟨v, hv⟩ := this
    exact ⟨v, hv, hT.acc _ _ _ _ k1 k2 hv⟩
  unfold optimizeChoiceDf
  dsimp only
  obtain ⟨gRep, h1, hP1⟩ := hC.grow hT.feats (lim := { minRuleSamples := hp.lim.minRuleSamples }) hB hf ha hc hC.closed.nil
  obtain ⟨gRev, h2, hP2⟩ := hC.grow hT.feats (lim := { minRuleSamples := hp.lim.minRuleSamples }) hB hf ha hc hr
  rw [h1, ok_bind]
  refine (hprune _ hP1).1.bind fun o1 e1 => ?_
  obtain ⟨p1, rfl, hpre1⟩ := (hprune _ hP1).2 o1 e1
  rw [h2, ok_bind]
  refine (hprune _ hP2).1.bind fun o2 e2 => ?_
  obtain ⟨p2, rfl, hpre2⟩ := (hprune _ hP2).2 o2 e2
  obtain ⟨k1, k2⟩ := hrep _ (hC.closed.pre _ _ hP1 hpre1)
  obtain ⟨k3, k4⟩ := hrep _ (hC.closed.pre _ _ hP2 hpre2)
  have hs1 := (hT.bestSubset hC hpc hnc _ k1 k2).bind (f := fun x => pure x.2) fun _ _ => .pure _
  have hs2 := (hT.bestSubset hC hpc hnc _ k3 k4).bind (f := fun x => pure x.2) fun _ _ => .pure _
  refine Raises.bind ?_ fun d1 _ => Raises.bind ?_ fun d2 _ => ?_
  · split
    · exact .ok _
    · exact hs1
  · split
    · exact .ok _
    · exact hs2
  · refine Raises.bind (.of_ok ⟨_, rfl⟩) fun best _ => ?_
    split
    · exact .pure _
    · exact .pure _
    · exact .pure _

theorem Tame.optimizeLoop (hT : Tame E P L cols hp.lim) (hC : TameCands E P cols cands) (hR : R.Lawful) {ps : Rat}
    (hl : Arith.LeavesSome ps) (hpc : allPos.cols = cols) (hnc : allNeg.cols = cols) {rs : Option Int}
    {original : List (List Cond)} {odl : Rat} (ho : ∀ r ∈ original, P r) (hL : L original.length) {B : Frame} (hf : B.rows.length < fuel) :
    ∀ (rest : List (List Cond)) (i : Nat) (new : List (List Cond)) (pos neg : Frame) (g : R.G), (∀ r ∈ rest, P r) →
      i + rest.length ≤ original.length → pos.cols = cols → neg.cols = cols → (∀ row ∈ neg.rows, row ∈ B.rows) →
      Raises E (optimizeLoopDf fuel R cands hp ps rs original odl allPos allNeg i rest new pos neg g) := by
  intro rest
  induction rest with
  | nil => intros; exact .ok _
  | cons rule rest ih =>
    intro i new pos neg g hr hi hp0 hn0 hB
    unfold optimizeLoopDf
    rcases hp1 : dfShuffledSplit R g pos (Arith.complement ps) rs with ⟨a, b, g1⟩
    rcases hp2 : dfShuffledSplit R g1 neg (Arith.complement ps) rs with ⟨c, d, g2⟩
    obtain ⟨a1, a2, a3, a4⟩ := dfSplit_sub hp1
    obtain ⟨c1, c2, c3, c4⟩ := dfSplit_sub hp2
    simp only [hp2]
    split
    · exact .pure _
    rename_i hane
    split
    · exact .pure _
    have hpne : pos.rows ≠ [] := by
      obtain ⟨row, hrow⟩ := List.exists_mem_of_ne_nil _ hane
      exact List.ne_nil_of_mem (a1 row hrow)
    have hPr : P rule := hr rule (by simp)
    have hfe := hT.feats _ hPr
    refine (hT.choice hC hpc hnc (i := i) (odl := odl) ho hL (by simp at hi; omega) hPr (fun row h => hB row (c1 row h)) hf (a3.trans hp0) (a4.trans hp0)
      (c3.trans hn0) (c4.trans hn0) (dfSplit_prune_some hR hl hpne hp1)).bind fun best _ => ?_
    unfold rmCoveredRule
    rw [condsCover_ok (fun x hx => by rw [hp0]; exact hfe x hx), condsCover_ok (fun x hx => by rw [hn0]; exact hfe x hx)]
    simp only [ok_bind, pure_eq_ok]
    split
    · exact .ok _
    · exact ih _ _ _ _ _ (fun r h => hr r (by simp [h])) (by simp at hi; omega) hp0 hn0
        (fun row h => hB row (dropLabels_sublist.subset h))

theorem Tame.optimize (hT : Tame E P L cols hp.lim) (hC : TameCands E P cols cands) (hR : R.Lawful) {ps : Rat}
    (hps : hp.pruneSize = some ps) (hl : Arith.LeavesSome ps) (hpc : allPos.cols = cols) (hnc : allNeg.cols = cols) {rs : Option Int}
    {rules : List (List Cond)} (ho : ∀ r ∈ rules, P r) (hL : L rules.length) (hf : allNeg.rows.length < fuel) (g : R.G) :
    Raises E (optimizeDf fuel R cands hp rs rules allPos allNeg g) := by
  unfold optimizeDf
  refine (hT.bestSubset hC hpc hnc rules ho hL).bind fun x _ => ?_
  rw [hps]
  exact hT.optimizeLoop hC hR hl hpc hnc ho hL hf rules 0 rules allPos allNeg g ho (by simp) hpc hnc (fun _ h => h)

theorem Tame.stage2 (hT : Tame E P L cols hp.lim) (hC : TameCands E P cols cands) (hR : R.Lawful) {ps : Rat}
    (hps : hp.pruneSize = some ps) (hl : Arith.LeavesSome ps) (hpc : allPos.cols = cols) (hnc : allNeg.cols = cols)
    (hf : allNeg.rows.length < fuel) : ∀ (n : Nat) (rules : List (List Cond)) (g : R.G), (∀ r ∈ rules, P r) → L rules.length →
    Raises E (stage2Df fuel R cands hp allPos allNeg n rules g) := by
  intro n
  induction n with
  | zero => intros; exact .ok _
  | succ n ih =>
    intro rules g hr hL
    unfold stage2Df
    refine (hT.optimize hC hR hps hl hpc hnc hr hL hf g).bind fun ⟨new, g'⟩ hn => ?_
    dsimp only
    split
    · exact .pure _
    · refine ih _ _ (hC.closed.optimize hn hr) ?_
      obtain ⟨_, _, _, hlen, _⟩ := optimizeDf_spec hn
      rw [hlen]; exact hL

/-- Stage 3. -/
theorem Tame.cover (hT : Tame E P L cols hp.lim) {ps : Rat} (hps : hp.pruneSize = some ps) {pos neg : Frame} (hpc : pos.cols = cols)
    (hnc : neg.cols = cols) (hC : TameCands E P cols cands)
    (hC3 : ∀ pos' neg' : Frame, pos'.cols = cols → neg'.cols = cols → TameCands E P cols (updatedConds S (some cands) pos' neg'))
    (hC0 : TameCands E P cols (updatedConds S none pos neg)) {rules : List (List Cond)} (hr : ∀ r ∈ rules, P r) (hL : L rules.length)
    (hf : pos.rows.length < fuel ∧ neg.rows.length < fuel) (g : R.G) :
    Raises E (coverRemainingDf fuel R S cands hp rules pos neg g) ∧
      ∀ out, coverRemainingDf fuel R S cands hp rules pos neg g = .ok out →
        (∀ r ∈ out.1, P r) ∧ L out.1.length ∧ TameCands E P cols out.2.1 := by
  have hcov : ∀ d : Frame, d.cols = cols →
      ∃ x, ({ rules := rules.map (fun c => { conds := c }) } : Ruleset).covers d = .ok x ∧ (rules = [] → x.rows = []) := by
    intro d hd
    obtain ⟨x, hx, -, hx'⟩ := Ruleset.covers_ok (rs := { rules := rules.map (fun c => { conds := c }) }) (df := d)
      (Or.inr (by
        intro r hr' c hc
        obtain ⟨r0, hr0, rfl⟩ := List.mem_map.mp hr'
        rw [hd]; exact hT.feats r0 (hr r0 hr0) c hc))
    refine ⟨x, hx, fun h0 => ?_⟩
    subst h0
    rw [List.eq_nil_iff_forall_not_mem]
    intro row hrow
    have := ((hx' row).mp hrow).2
    simp [rulesMet] at this
  obtain ⟨x, hx, hx0⟩ := hcov pos hpc
  obtain ⟨y, hy, hy0⟩ := hcov neg hnc
  have hrm : rmCoveredRuleset { rules := rules.map (fun c => { conds := c }) } pos neg =
      .ok (pos.dropLabels x.index, neg.dropLabels y.index) := by
    unfold rmCoveredRuleset
    rw [hx, hy]
    rfl
  have hnil : ∀ (d z : Frame), z.rows = [] → d.dropLabels z.index = d := by
    intro d z hz
    unfold Frame.dropLabels Frame.index
    rw [hz]
    cases d
    simp [Frame.keep]
  have hpl : (pos.dropLabels x.index).rows.length < fuel ∧ (neg.dropLabels y.index).rows.length < fuel :=
    ⟨lt_of_le_of_lt dropLabels_sublist.length_le hf.1, lt_of_le_of_lt dropLabels_sublist.length_le hf.2⟩
  have hC' : TameCands E P cols (updatedConds S (if rules = [] then none else some cands) (pos.dropLabels x.index) (neg.dropLabels y.index)) := by
    split
    · rename_i h0
      rw [hnil _ _ (hx0 h0), hnil _ _ (hy0 h0)]
      exact hC0
    · exact hC3 _ _ hpc hnc
  unfold coverRemainingDf
  rw [hrm, ok_bind]
  dsimp only
  split
  · have hg := hT.growing hC' hps (init := rules) (pos := pos.dropLabels x.index) (neg := neg.dropLabels y.index) hpc hnc hr hpl g
    refine ⟨hg.bind fun _ _ => .pure _, fun out ho => ?_⟩
    obtain ⟨st, hst, ho⟩ := bind_ok_iff.mp ho
    simp only [pure_eq_ok, Except.ok.injEq] at ho
    subst ho
    exact ⟨hC'.closed.ripperGrow hst hr, hT.grow_length hst hL, hC'⟩
  · refine ⟨.pure _, fun out ho => ?_⟩
    simp only [pure_eq_ok, Except.ok.injEq] at ho
    subst ho
    exact ⟨hr, hL, hC⟩

theorem Tame.stages (hT : Tame E P L cols hp.lim) (hR : R.Lawful) {ps : Rat} (hps : hp.pruneSize = some ps)
    (hl : Arith.LeavesSome ps) {old : Option (List Cond)} {init : List (List Cond)} {pos neg : Frame} (hpc : pos.cols = cols)
    (hnc : neg.cols = cols) (hC : TameCands E P cols (updatedConds S old pos neg))
    (hC3 : ∀ pos' neg' : Frame, pos'.cols = cols → neg'.cols = cols → TameCands E P cols (updatedConds S (some (updatedConds S old pos neg)) pos' neg'))
    (hC0 : TameCands E P cols (updatedConds S none pos neg))
    (hi : ∀ r ∈ init, P r) (hL : L init.length) (hf : pos.rows.length < fuel ∧ neg.rows.length < fuel) (g : R.G) :
    Raises E (ripperStagesDf fuel R S hp old init pos neg g) ∧
      ∀ out, ripperStagesDf fuel R S hp old init pos neg g = .ok out → ∀ r ∈ out.1, P r := by
  constructor
  · unfold ripperStagesDf
    dsimp only
    refine (hT.growing hC hps hpc hnc hi hf g).bind fun st hst => ?_
    have h1 := hC.closed.ripperGrow hst hi
    have l1 := hT.grow_length hst hL
    refine (hT.stage2 hC hR hps hl hpc hnc hf.2 _ _ _ h1 l1).bind fun ⟨r2, g2⟩ h2 => ?_
    obtain ⟨p2, l2⟩ : (∀ r ∈ r2, P r) ∧ L r2.length :=
      stage2Df_spec (P := fun rules => (∀ r ∈ rules, P r) ∧ L rules.length) (fun rules out g g' hr ho => by
        obtain ⟨_, _, _, hlen, _⟩ := optimizeDf_spec ho
        exact ⟨hC.closed.optimize ho hr.1, by rw [hlen]; exact hr.2⟩) _ _ _ _ _ ⟨h1, l1⟩ h2
    obtain ⟨e3, h3⟩ := hT.cover hps hpc hnc hC hC3 hC0 p2 l2 hf g2
    refine e3.bind fun ⟨r3, c3, g3⟩ h => ?_
    obtain ⟨p3, l3, hc3⟩ := h3 _ h
    exact (hT.bestSubset hc3 hpc hnc r3 p3 l3).bind fun _ _ => .pure _
  · rintro ⟨out, g'⟩ h
    obtain ⟨st, r2, r3, c3, g2, dl, hs⟩ := ripperStagesDf_ok h
    have h1 := hC.closed.ripperGrow hs.grow hi
    have l1 := hT.grow_length hs.grow hL
    obtain ⟨p2, l2⟩ : (∀ r ∈ r2, P r) ∧ L r2.length :=
      stage2Df_spec (P := fun rules => (∀ r ∈ rules, P r) ∧ L rules.length) (fun rules out g g' hr ho => by
        obtain ⟨_, _, _, hlen, _⟩ := optimizeDf_spec ho
        exact ⟨hC.closed.optimize ho hr.1, by rw [hlen]; exact hr.2⟩) _ _ _ _ _ ⟨h1, l1⟩ hs.optimize
    obtain ⟨p3, -, -⟩ := (hT.cover hps hpc hnc hC hC3 hC0 p2 l2 hf g2).2 _ hs.cover
    exact fun r hr => p3 r ((bestSubsetDf_sublist hs.simplify).subset hr)

omit [Arith.Lawful] in
theorem ruleTheory_raises (n k : Nat) : Raises (fun e => e = .zeroDivision ∨ e = .valueError) (ruleTheory n k) := by
  intro e h
  unfold ruleTheory at h
  dsimp only at h
  split at h
  · injection h with h; exact Or.inl h.symm
  split at h
  · injection h with h; exact Or.inl h.symm
  split at h
  · injection h with h; exact Or.inr h.symm
  · cases h

omit [Arith.Lawful] in
theorem exceptionsDf_raises {rules : List (List Cond)} {pos neg : Frame} (hp : ∀ r ∈ rules, ∀ c ∈ r, c.feature ∈ pos.cols)
    (hn : ∀ r ∈ rules, ∀ c ∈ r, c.feature ∈ neg.cols) : Raises (fun e => e = .valueError) (exceptionsDf rules pos neg) := by
  obtain ⟨a, ha⟩ := rulesNumCovered_known hp
  obtain ⟨b, hb⟩ := rulesNumCovered_known hn
  unfold exceptionsDf
  rw [ha, hb]
  simp only [ok_bind]
  have key : ∀ x, Raises (fun e => e = .valueError) (log2Exp x) := by
    intro x e h
    unfold log2Exp at h
    split at h
    · injection h with h; exact h.symm
    · cases h
  exact (key _).bind fun _ _ => (key _).bind fun _ _ => .pure _

omit [Arith.Lawful] in
/-- The end of `fit`: duplicates, trimming, calibration. -/
theorem ripperFitPlain_raises {df : Frame} {cf : Feat} {pc : Val} {old : Option (List Cond)} {init : List (List Cond)} {g : R.G}
    (hne : df.rows ≠ []) (hcf : cf ∈ df.cols) (ha : 0 < hp.alpha)
    (h : Raises E (ripperStagesDf fuel R S hp old init (posExamples df cf pc) (negExamples df cf pc) g))
    (hf : ∀ out, ripperStagesDf fuel R S hp old init (posExamples df cf pc) (negExamples df cf pc) g = .ok out →
      ∀ r ∈ out.1, ∀ c ∈ r, c.feature ∈ df.cols) : Raises E (ripperFitPlain fuel R S hp old init df cf pc g) := by
  unfold ripperFitPlain
  simp only [hne, if_false, hcf, not_true_eq_false]
  refine h.bind fun ⟨rules, g'⟩ hr => ?_
  have hf := hf _ hr
  dsimp only
  have hfeat : HasFeatures df (Ruleset.trimConds { rules := removeDups Rule.sameKey (rules.map (fun c => ({ conds := c } : Rule))) }
      hp.lim.maxTotalConds).rules := by
    intro r hr c hc
    have h1 := (trimRules_prefix (size := fun r : Rule => r.conds.length) _ _).sublist.subset hr
    have h2 := (removeDups_sublist _).subset h1
    obtain ⟨r0, hr0, rfl⟩ := List.mem_map.mp h2
    exact hf _ hr0 c hc
  rw [recalibrate_ok ha hcf hfeat]
  exact .of_ok ⟨_, rfl⟩

end

namespace Spec
/-- In every column but the class there are two different values that occur in both classes; and there is such a column. -/
def TwoShared (df : Frame) (cf : Feat) (pc : Val) : Prop :=
  (∃ f ∈ df.cols, f ≠ cf) ∧ ∀ f ∈ df.cols, f ≠ cf → ∃ p ∈ df.rows, ∃ n ∈ df.rows, ∃ p' ∈ df.rows, ∃ n' ∈ df.rows,
    Positive cf pc p ∧ Positive cf pc p' ∧ ¬ Positive cf pc n ∧ ¬ Positive cf pc n' ∧
      Same (p.cell f) (n.cell f) ∧ Same (p'.cell f) (n'.cell f) ∧ ¬ Same (p.cell f) (p'.cell f)
end Spec

/-- C107. All that `RIPPER.fit(..., cn_optimize=False)` can raise on a preprocessed training frame, if the features of the
initial model are columns other than the class, `prune_size` leaves something to prune on and `alpha` is positive: a
ZeroDivisionError, a ValueError or an UnboundLocalError. (Each is raised by some data: C74_refuted_ripper_plain.) -/
theorem C107_ripper_plain_errors [Arith] [Arith.Lawful] (R : PyRandom) (hR : R.Lawful) (S : SetOps) (hp : Hyper) (ps : Rat)
    (hps : hp.pruneSize = some ps) (hl : Arith.LeavesSome ps) (ha : 0 < hp.alpha) (old : Option (List Cond)) (init : List (List Cond))
    (df : Frame) (cf : Feat) (pc : Val) (hne : df.rows ≠ []) (hcf : cf ∈ df.cols)
    (hinit : ∀ r ∈ init, ∀ c ∈ r, c.feature ∈ df.cols ∧ c.feature ≠ cf)
    (hold : ∀ c ∈ old.getD [], c.feature ∈ df.cols ∧ c.feature ≠ cf) (fuel : Nat)
    (hf : df.rows.length < fuel) (g : R.G) (e : PyErr) (h : ripperFitPlain fuel R S hp old init df cf pc g = .error e) :
    e = .zeroDivision ∨ e = .valueError ∨ e = .unboundLocal := by
  revert e
  change Raises (fun e => e = .zeroDivision ∨ e = .valueError ∨ e = .unboundLocal) _
  have hl1 := posExamples_length (df := df) (cf := cf) (pc := pc)
  have hl2 := negExamples_length (df := df) (cf := cf) (pc := pc)
  have hcols : (negExamples df cf pc).cols = (posExamples df cf pc).cols := rfl
  have hsh : ∀ pos neg : Frame, pos.cols = (posExamples df cf pc).cols → ∀ c ∈ sharedConds S pos neg,
      c.feature ∈ (posExamples df cf pc).cols := by
    intro pos neg hc c hx
    unfold sharedConds at hx
    obtain ⟨f, hf, h⟩ := List.mem_flatMap.mp hx
    obtain ⟨v, _, rfl⟩ := List.mem_map.mp h
    rw [← hc]; exact hf
  have hT : Tame (fun e => e = .zeroDivision ∨ e = .valueError ∨ e = .unboundLocal)
      (fun r => ∀ c ∈ r, c.feature ∈ (posExamples df cf pc).cols) (fun _ => True) (posExamples df cf pc).cols hp.lim := by
    refine ⟨fun _ h => h, ?_, fun _ _ _ _ _ _ _ => Or.inl (Or.inr (Or.inr rfl)), fun _ _ _ _ => trivial, fun _ _ _ _ => trivial⟩
    intro rules pos neg h1 h2 hr _ e he
    exact Or.inr (Or.inl (exceptionsDf_raises (by rw [h1]; exact hr) (by rw [h2]; exact hr) e he))
  have hC : ∀ cands : List Cond, (∀ c ∈ cands, c.feature ∈ (posExamples df cf pc).cols) →
      TameCands (fun e => e = .zeroDivision ∨ e = .valueError ∨ e = .unboundLocal)
        (fun r => ∀ c ∈ r, c.feature ∈ (posExamples df cf pc).cols) (posExamples df cf pc).cols cands := by
    intro cands hc
    refine ⟨⟨by simp, ?_, fun r s hr hs c hc => hr c (hs.subset hc)⟩, fun r _ e he => ?_, hc⟩
    · intro p n r c hr hu x hx
      rcases List.mem_append.mp hx with hx | hx
      · exact hr x hx
      · simp only [List.mem_singleton] at hx; subst hx
        exact hc _ hu.mem
    · rcases ruleTheory_raises _ _ e he with h | h
      · exact Or.inl h
      · exact Or.inr (Or.inl h)
  have hup : ∀ (o : Option (List Cond)) (pos neg : Frame), pos.cols = (posExamples df cf pc).cols →
      (∀ c ∈ o.getD [], c.feature ∈ (posExamples df cf pc).cols) →
      ∀ c ∈ updatedConds S o pos neg, c.feature ∈ (posExamples df cf pc).cols := by
    intro o pos neg hc ho c hx
    rcases List.mem_append.mp hx with hx | hx
    · exact ho c hx
    · exact hsh _ _ hc c hx
  have hold' : ∀ c ∈ old.getD [], c.feature ∈ (posExamples df cf pc).cols := fun c hc => mem_examples_cols.mpr (hold c hc)
  have key := hT.stages (R := R) (S := S) (fuel := fuel) hR hps hl (old := old) (init := init) (pos := posExamples df cf pc)
    (neg := negExamples df cf pc) rfl hcols (hC _ (hup _ _ _ rfl hold'))
    (fun pos' neg' h1 _ => hC _ (hup _ _ _ h1 (hup _ _ _ rfl hold'))) (hC _ (hup _ _ _ rfl (by simp)))
    (fun r hr c hc => mem_examples_cols.mpr (hinit r hr c hc)) trivial (by omega) g
  exact ripperFitPlain_raises hne hcf ha key.1 (fun out ho r hr c hc => (mem_examples_cols.mp (key.2 out ho r hr c hc)).1)

theorem shared_count {S : SetOps} (hS : S.Lawful) {pos neg : Frame} (h : ∀ f ∈ pos.cols, ∃ p ∈ pos.rows, ∃ n ∈ neg.rows, ∃ p' ∈ pos.rows, ∃ n' ∈ neg.rows,
      Same (p.cell f) (n.cell f) ∧ Same (p'.cell f) (n'.cell f) ∧ ¬ Same (p.cell f) (p'.cell f)) :
    2 * pos.cols.length ≤ (sharedConds S pos neg).length := by
  have hin : ∀ f ∈ pos.cols, 2 ≤ (S.inter (pos.unique f) (neg.unique f)).length := by
    intro f hf
    obtain ⟨p, hp, n, hn, p', hp', n', hn', e1, e2, e3⟩ := h f hf
    have one : ∀ p ∈ pos.rows, ∀ n ∈ neg.rows, Same (p.cell f) (n.cell f) → ∃ v ∈ S.inter (pos.unique f) (neg.unique f), Same v (p.cell f) := by
      intro p hp n hn e
      rw [← Val.pyEq_iff] at e
      obtain ⟨w, hw, hwk⟩ := unique_rep (f := f) hp
      obtain ⟨x, hx, hxk⟩ := unique_rep (f := f) hn
      have hwp : w.pyEq (p.cell f) = true := by
        generalize p.cell f = a at *
        generalize n.cell f = b at *
        cases w <;> cases a <;> cases b <;> simp_all [Val.sameKind, Val.pyEq]
      have hwx : w.pyEq x = true := by
        generalize p.cell f = a at *
        generalize n.cell f = b at *
        cases w <;> cases a <;> cases b <;> cases x <;> simp_all [Val.sameKind, Val.pyEq]
      obtain ⟨v, hv, hvw⟩ := hS.all _ _ _ _ hw hx hwx
      exact ⟨v, hv, (Val.pyEq_iff ..).mp (Val.pyEq_trans hvw hwp)⟩
    obtain ⟨v, hv, hv1⟩ := one p hp n hn e1
    obtain ⟨v', hv', hv1'⟩ := one p' hp' n' hn' e2
    have hne : v ≠ v' := by
      rintro rfl
      exact e3 (same_trans' (same_symm' hv1) hv1')
    generalize S.inter (pos.unique f) (neg.unique f) = l at hv hv'
    match l, hv, hv' with
    | [], h, _ => simp at h
    | [x], h, h' => simp at h h'; exact absurd (h.trans h'.symm) hne
    | _ :: _ :: l, _, _ => simp
  unfold sharedConds
  rw [List.length_flatMap]
  generalize hg : (fun f => ((S.inter (pos.unique f) (neg.unique f)).map (fun v => ({ feature := f, val := v } : Cond))).length) = g
  have : ∀ f ∈ pos.cols, 2 ≤ g f := by
    intro f hf
    rw [← hg]; simpa using hin f hf
  clear hg hin h
  revert this
  generalize pos.cols = l
  intro this
  induction l with
  | nil => simp
  | cons a l ih =>
    simp only [List.map_cons, List.sum_cons, List.length_cons]
    have h1 := this a (by simp)
    have h2 := ih (fun f hf => this f (by simp [hf]))
    omega

/-- C107. When `RIPPER.fit(..., cn_optimize=False)` raises nothing: with `max_rules` at most 1 and without an initial model,
if every column has two different values that occur in both classes. -/
theorem C107_one_rule_never_raises [Arith] [Arith.Lawful] (R : PyRandom) (hR : R.Lawful) (S : SetOps) (hS : S.Lawful) (hp : Hyper) (ps : Rat)
    (hps : hp.pruneSize = some ps) (hl : Arith.LeavesSome ps) (ha : 0 < hp.alpha) (hm : ∃ k ≤ 1, hp.lim.maxRules = some k)
    (df : Frame) (cf : Feat) (pc : Val) (hcf : cf ∈ df.cols) (htwo : TwoShared df cf pc) (fuel : Nat)
    (hf : df.rows.length < fuel) (g : R.G) : ∃ m g', ripperFitPlain fuel R S hp none [] df cf pc g = .ok (m, g') := by
  suffices h : Raises (fun _ => False) (ripperFitPlain fuel R S hp none [] df cf pc g) by
    rcases hx : ripperFitPlain fuel R S hp none [] df cf pc g with e | ⟨m, g'⟩
    · exact (h e hx).elim
    · exact ⟨m, g', rfl⟩
  obtain ⟨k, hk1, hk⟩ := hm
  obtain ⟨⟨f0, hf0, hf0c⟩, htwo⟩ := htwo
  have hne : df.rows ≠ [] := by
    obtain ⟨p, hp, -⟩ := htwo f0 hf0 hf0c
    exact List.ne_nil_of_mem hp
  have hl1 := posExamples_length (df := df) (cf := cf) (pc := pc)
  have hl2 := negExamples_length (df := df) (cf := cf) (pc := pc)
  have hcols : (negExamples df cf pc).cols = (posExamples df cf pc).cols := rfl
  have hcount : 2 * (posExamples df cf pc).cols.length ≤ (sharedConds S (posExamples df cf pc) (negExamples df cf pc)).length := by
    refine shared_count hS fun f hf => ?_
    obtain ⟨h1, h2⟩ := mem_examples_cols.mp hf
    obtain ⟨p, hp, n, hn, p', hp', n', hn', a, a', b, b', e⟩ := htwo f h1 h2
    exact ⟨p, mem_posExamples.mpr ⟨hp, a⟩, n, mem_negExamples.mpr ⟨hn, b⟩, p', mem_posExamples.mpr ⟨hp', a'⟩, n', mem_negExamples.mpr ⟨hn', b'⟩, e⟩
  have hpos : 1 ≤ (posExamples df cf pc).cols.length :=
    List.length_pos_of_mem (mem_examples_cols.mpr ⟨hf0, hf0c⟩)
  generalize hcs : (posExamples df cf pc).cols = cols at *
  have hsh : ∀ pos neg : Frame, pos.cols = cols → ∀ c ∈ sharedConds S pos neg, c.feature ∈ cols := by
    intro pos neg hc c hx
    unfold sharedConds at hx
    obtain ⟨f, hf, h⟩ := List.mem_flatMap.mp hx
    obtain ⟨v, _, rfl⟩ := List.mem_map.mp h
    rw [← hc]; exact hf
  have hT : Tame (fun _ => False) (fun r => (∀ c ∈ r, c.feature ∈ cols) ∧ (r.map Cond.feature).Nodup) (fun m => m ≤ 1) cols hp.lim := by
    refine ⟨fun _ h => h.1, ?_, ?_, fun _ _ h h' => h.trans h', ?_⟩
    · intro rules pos neg h1 h2 hr hlen
      match rules, hlen with
      | [], _ =>
        have h0 : ∀ d : Frame, rulesNumCovered [] d = .ok 0 := by
          intro d
          obtain ⟨k, hk⟩ := rulesNumCovered_known (rules := []) (d := d) (by simp)
          rw [hk, rulesNumCovered_times hk]
          simp [timesCovered]
        unfold exceptionsDf
        rw [h0, h0]
        simp only [ok_bind]
        have pos_choose : ∀ a b : Nat, b ≤ a → 0 < nCr (a : Int) b := by
          intro a b hab
          rw [nCr_choose, Int.toNat_natCast, Ring.choose_natCast]
          exact_mod_cast Nat.choose_pos hab
        obtain ⟨x, hx⟩ := log2Exp_pos (pos_choose 0 0 le_rfl)
        obtain ⟨y, hy⟩ := log2Exp_pos (pos_choose (pos.rows.length + neg.rows.length) pos.rows.length (by omega))
        push_cast at hx hy
        simp only [Nat.cast_zero, add_zero, sub_zero]
        rw [hx, hy]
        exact .of_ok ⟨_, rfl⟩
      | [r], _ =>
        exact .of_ok (exceptionsDf_one (by rw [h1]; exact (hr r (by simp)).1) (by rw [h2]; exact (hr r (by simp)).1))
      | _ :: _ :: _, h => simp at h
    · intro rules pos neg v hr hlen hv
      right
      unfold rulesetAccuracy at hv
      dsimp only at hv
      split at hv
      · simp [pure_eq_ok] at hv
      rename_i hN
      obtain ⟨tp, -, hv⟩ := bind_ok_iff.mp hv
      obtain ⟨fp, hfp, hv⟩ := bind_ok_iff.mp hv
      simp only [pure_eq_ok, Except.ok.injEq, Option.some.injEq] at hv
      rw [← hv]
      have hfp' : fp ≤ neg.rows.length := by
        rw [rulesNumCovered_times hfp]
        match rules, hlen with
        | [], _ => simp [timesCovered]
        | [r], _ =>
          unfold timesCovered
          split
          · exact le_rfl
          · simpa using List.countP_le_length
        | _ :: _ :: _, h => simp at h
      exact Arith.Lawful.quot_nonneg _ _ (by omega) (by omega)
    · intro rules a b hs
      unfold stopEarly at hs
      rw [hk] at hs
      simp only [Bool.or_eq_false_iff, atLeast, decide_eq_false_iff_not] at hs
      omega
  have hC : ∀ cands : List Cond, (∀ c ∈ cands, c.feature ∈ cols) → 2 * cols.length ≤ cands.length →
      TameCands (fun _ => False) (fun r => (∀ c ∈ r, c.feature ∈ cols) ∧ (r.map Cond.feature).Nodup) cols cands := by
    intro cands hc hn
    refine ⟨⟨by simp, ?_, fun r s hr hs => ⟨fun c hc => hr.1 c (hs.subset hc), (hs.sublist.map _).nodup hr.2⟩⟩, fun r hr => ?_, hc⟩
    · intro p n r c hr hu
      refine ⟨fun x hx => ?_, ?_⟩
      · rcases List.mem_append.mp hx with hx | hx
        · exact hr.1 x hx
        · simp only [List.mem_singleton] at hx; subst hx
          exact hc _ hu.mem
      · rw [List.map_append, List.nodup_append]
        refine ⟨hr.2, by simp, ?_⟩
        rintro f hf1 f' hf2 rfl
        obtain ⟨c', hc', rfl⟩ := List.mem_map.mp hf1
        simp only [List.map_cons, List.map_nil, List.mem_singleton] at hf2
        obtain ⟨row, -, hrow⟩ := hu.keeps
        have m1 : c'.met row = true := by
          unfold condsMet at hrow
          rw [List.all_eq_true] at hrow
          exact hrow c' (by simp [hc'])
        have m2 : c.met row = true := by
          unfold condsMet at hrow
          rw [List.all_eq_true] at hrow
          exact hrow c (by simp)
        have hnew := hu.new
        unfold condIn at hnew
        rw [List.any_eq_false] at hnew
        apply hnew c' hc'
        unfold Cond.met at m1 m2
        rw [hf2] at m1
        unfold Cond.pyEq
        rw [hf2]
        have := Val.pyEq_trans (by rw [Val.pyEq_symm]; exact m1) m2
        simp [this]
    · refine .of_ok (ruleTheory_ok ?_)
      have hle : r.length ≤ cols.length := by
        have := List.Nodup.length_le_of_subset hr.2 (l₂ := cols) (by
          intro f hf
          obtain ⟨c, hc, rfl⟩ := List.mem_map.mp hf
          exact hr.1 c hc)
        simpa using this
      omega
  have hup : ∀ (o : Option (List Cond)) (pos neg : Frame), pos.cols = cols → (∀ c ∈ o.getD [], c.feature ∈ cols) →
      ∀ c ∈ updatedConds S o pos neg, c.feature ∈ cols := by
    intro o pos neg hc ho c hx
    rcases List.mem_append.mp hx with hx | hx
    · exact ho c hx
    · exact hsh _ _ hc c hx
  have h0 := hC (updatedConds S none (posExamples df cf pc) (negExamples df cf pc)) (hup _ _ _ hcs (by simp))
    (by unfold updatedConds; simpa using hcount)
  have key := hT.stages (R := R) (S := S) (fuel := fuel) hR hps hl (old := none) (init := []) (pos := posExamples df cf pc)
    (neg := negExamples df cf pc) hcs hcols h0
    (fun pos' neg' h1 _ => hC _ (hup _ _ _ h1 (hup _ _ _ hcs (by simp)))
      (by unfold updatedConds; simp only [Option.getD_none, Option.getD_some, List.nil_append, List.length_append]; omega)) h0
    (by simp) (by simp) (by omega) g
  refine ripperFitPlain_raises hne hcf ha key.1 (fun out ho r hr c hc => ?_)
  have := (key.2 out ho r hr).1 c hc
  rw [← hcs] at this
  exact (mem_examples_cols.mp this).1

/-- C107 for the API. On valid data `RIPPER.fit(..., cn_optimize=False)` raises nothing but a ZeroDivisionError, a ValueError
or an UnboundLocalError (no KeyError, IndexError, TypeError or AttributeError), if the features of the initial model and of its
possible conditions are columns of the data other than the class, `prune_size` leaves something to prune on and `alpha` is
positive. -/
theorem C107_ripper_plain_fit_errors [Arith] [Arith.Lawful] (R : PyRandom) (hR : R.Lawful) (S : SetOps) (F : PyFloat) (hF : F.Lawful) (P : PandasCut)
    (hP : P.Lawful F) (d : FitData) (hv : ValidInput d) (init : ModelArg) (start : Ruleset) (hinit : init.toRuleset = .ok start)
    (hfeat : ∀ f, Tested start f → f ∈ d.names.getD d.X.cols ∧ f ≠ classFeatName d.classFeat d.y)
    (hold : ∀ cond ∈ start.possible.getD [], cond.feature ∈ d.names.getD d.X.cols ∧
      cond.feature ≠ classFeatName d.classFeat d.y)
    (c : Clf) (ps : Rat) (hps : c.hyper.pruneSize = some ps) (hl : Arith.LeavesSome ps) (ha : 0 < c.hyper.alpha) (fuel : Nat)
    (hfuel : d.X.rows.length < fuel) (g : R.G) (e : PyErr) (c' : Clf)
    (h : Clf.ripperFitPlain fuel R S F P d init g c = .error e c') : e = .zeroDivision ∨ e = .valueError ∨ e = .unboundLocal := by
  obtain ⟨df, pc, b, hpre, hidx⟩ := valid_preprocess hF hP c.nBins hv
  obtain ⟨hne, hcf⟩ := preprocessTraining_frame hpre
  have hlen := preprocessTraining_length hpre
  obtain ⟨_, _, df0, ht, _, _, _, _, _, hcols, _⟩ := preprocessTraining_ok hpre
  obtain ⟨_, hc2, _⟩ := toTraining_ok ht
  have key := C107_ripper_plain_errors R hR S c.hyper ps hps hl ha start.possible (start.rules.map Rule.conds) df.toFrame
    (classFeatName d.classFeat d.y) pc hne hcf (by
      intro r hr x hx
      obtain ⟨r0, hr0, rfl⟩ := List.mem_map.mp hr
      rw [hcols, hc2]
      exact ⟨Or.inl (hfeat _ ⟨r0, hr0, x, hx, rfl⟩).1, (hfeat _ ⟨r0, hr0, x, hx, rfl⟩).2⟩) (by
      intro x hx
      rw [hcols, hc2]
      exact ⟨Or.inl (hold x hx).1, (hold x hx).2⟩) fuel (by omega) g
  have hfit := Method.fit_completed (.ripperPlain S) fuel R F P d init g c
  simp only [Method.early, hpre, hinit, ok_bind, Method.train] at hfit
  have h' : completed (Method.fit (.ripperPlain S) fuel R F P d init g c) = .error e := by
    show completed (Clf.ripperFitPlain fuel R S F P d init g c) = _
    rw [h]; rfl
  rw [h'] at hfit
  cases hm : ripperFitPlain fuel R S c.hyper start.possible (start.rules.map Rule.conds) df.toFrame (classFeatName d.classFeat d.y) pc g with
  | ok x => rw [hm] at hfit; cases hfit
  | error e' =>
    rw [hm] at hfit
    cases hfit
    exact key _ hm

/-- C107 for the API. On valid data in which, once numbers are binned, every column has two different values that occur in both
classes, `RIPPER(max_rules=1).fit(..., cn_optimize=False)` without an initial model raises nothing. -/
theorem C107_one_rule_fit_on_valid_data [Arith] [Arith.Lawful] (R : PyRandom) (hR : R.Lawful) (S : SetOps) (hS : S.Lawful) (F : PyFloat) (hF : F.Lawful) (P : PandasCut)
    (hP : P.Lawful F) (d : FitData) (hv : ValidInput d) (c : Clf) (ps : Rat) (hps : c.hyper.pruneSize = some ps)
    (hl : Arith.LeavesSome ps) (ha : 0 < c.hyper.alpha) (hm : ∃ k ≤ 1, c.hyper.lim.maxRules = some k)
    (htwo : ∀ df pc b, preprocessTraining F P c.nBins d = .ok (df, classFeatName d.classFeat d.y, pc, b) →
      TwoShared df.toFrame (classFeatName d.classFeat d.y) pc) (fuel : Nat)
    (hfuel : d.X.rows.length < fuel) (g : R.G) : ∃ g' c', Clf.ripperFitPlain fuel R S F P d .nothing g c = .ok g' c' := by
  obtain ⟨df, pc, b, hpre, hidx⟩ := valid_preprocess hF hP c.nBins hv
  obtain ⟨hne, hcf⟩ := preprocessTraining_frame hpre
  obtain ⟨start, hst⟩ : ∃ s, ModelArg.nothing.toRuleset = .ok s := ⟨_, rfl⟩
  have hlen := preprocessTraining_length hpre
  obtain ⟨m, g', hm⟩ := C107_one_rule_never_raises R hR S hS c.hyper ps hps hl ha hm df.toFrame (classFeatName d.classFeat d.y) pc hcf
    (htwo df pc b hpre) fuel (by omega) g
  refine ⟨g', c.fitted m b (classFeatName d.classFeat d.y) pc, completed_ok ?_⟩
  have := Method.fit_completed (.ripperPlain S) fuel R F P d .nothing g c
  have h1 : start.possible = none ∧ start.rules = [] := by cases hst; exact ⟨rfl, rfl⟩
  simp only [Method.early, hpre, hst, ok_bind, Method.train, h1.1, h1.2, List.map_nil, hm, pure_eq_ok] at this
  exact this

/-! ### concrete cases -/

instance (df : Frame) (cf : Feat) (pc : Val) : Decidable (TwoShared df cf pc) :=
  decidable_of_iff ((∃ f ∈ df.cols, f ≠ cf) ∧ ∀ f ∈ df.cols, f ≠ cf → ∃ p ∈ df.rows, ∃ n ∈ df.rows, ∃ p' ∈ df.rows, ∃ n' ∈ df.rows,
    (p.cell cf).pyEq pc = true ∧ (p'.cell cf).pyEq pc = true ∧ ¬ (n.cell cf).pyEq pc = true ∧ ¬ (n'.cell cf).pyEq pc = true ∧
      (p.cell f).pyEq (n.cell f) = true ∧ (p'.cell f).pyEq (n'.cell f) = true ∧ ¬ (p.cell f).pyEq (p'.cell f) = true)
    (by unfold TwoShared Positive; simp only [Val.pyEq_iff])

/-- The hypotheses of `C107_ripper_plain_errors` and `C107_one_rule_never_raises` hold of `Demo.bad1`, on which RIPPER raises a
ValueError without `max_rules=1` and learns a rule with it. Without two shared values in every column (`Demo.conj`) even one
rule may raise a ZeroDivisionError. -/
example : Demo.R0.Lawful ∧ Demo.S0.Lawful ∧ Arith.LeavesSome (1 / 3) ∧ Arith.LeavesSome (1 / 2) ∧
    TwoShared Demo.bad1 Demo.fc Demo.vp ∧ ¬ TwoShared Demo.conj Demo.fc Demo.vp ∧ Demo.fc ∈ Demo.bad1.cols ∧
    (ripperFitPlain 9 Demo.R0 Demo.S0 { pruneSize := some (1 / 3) } none [] Demo.bad1 Demo.fc Demo.vp ()).map
      (fun _ => ()) = .error .valueError ∧
    Demo.rulesLearnt (ripperFitPlain 9 Demo.R0 Demo.S0 { pruneSize := some (1 / 3), lim := { maxRules := some 1 } } none [] Demo.bad1
      Demo.fc Demo.vp ()) = some [[⟨Demo.fb, Demo.vz⟩]] ∧
    (ripperFitPlain 19 Demo.R0 Demo.S0 { pruneSize := some (1 / 2), lim := { maxRules := some 1 } } none [] Demo.conj Demo.fc Demo.vp ()).map
      (fun _ => ()) = .error .zeroDivision :=
  ⟨Demo.R0_lawful, Demo.S0_lawful, exact_leavesSome (by norm_num) (by norm_num), exact_leavesSome (by norm_num) (by norm_num),
    by decide +kernel, by decide +kernel, by decide +kernel, by decide +kernel, by decide +kernel, by decide +kernel⟩

/-- Those of `C107_ripper_plain_fit_errors` and `C107_one_rule_fit_on_valid_data` hold of exclusive or. -/
example : ValidInput Demo.xorData ∧ (∃ k ≤ 1, (Demo.oneRule Demo.newRipper).hyper.lim.maxRules = some k) ∧
    (∃ ps, (Demo.oneRule Demo.newRipper).hyper.pruneSize = some ps ∧ Arith.LeavesSome ps) ∧
    0 < (Demo.oneRule Demo.newRipper).hyper.alpha ∧
    (∀ df pc b, preprocessTraining Demo.F Demo.P (Demo.oneRule Demo.newRipper).nBins Demo.xorData =
        .ok (df, classFeatName Demo.xorData.classFeat Demo.xorData.y, pc, b) →
      TwoShared df.toFrame (classFeatName Demo.xorData.classFeat Demo.xorData.y) pc) ∧
    ∃ g' c', Clf.ripperFitPlain 5 Demo.R1 Demo.S0 Demo.F Demo.P Demo.xorData .nothing (0 : Nat) (Demo.oneRule Demo.newRipper) = .ok g' c' := by
  have h : ((preprocessTraining Demo.F Demo.P (Demo.oneRule Demo.newRipper).nBins Demo.xorData).toOption.map fun t =>
      decide (TwoShared t.1.toFrame (classFeatName Demo.xorData.classFeat Demo.xorData.y) t.2.2.1)) = some true := by decide +kernel
  have h' : ∀ df pc b, preprocessTraining Demo.F Demo.P (Demo.oneRule Demo.newRipper).nBins Demo.xorData =
        .ok (df, classFeatName Demo.xorData.classFeat Demo.xorData.y, pc, b) →
      TwoShared df.toFrame (classFeatName Demo.xorData.classFeat Demo.xorData.y) pc := by
    intro df pc b hpre
    rw [hpre] at h
    simpa [Except.toOption] using h
  exact ⟨Demo.xor_valid, ⟨1, le_rfl, by decide +kernel⟩, ⟨1 / 3, by decide +kernel, exact_leavesSome (by norm_num) (by norm_num)⟩,
    by decide +kernel, h', C107_one_rule_fit_on_valid_data Demo.R1 Demo.R1_lawful Demo.S0 Demo.S0_lawful Demo.F Demo.F_lawful Demo.P
      Demo.P_lawful Demo.xorData Demo.xor_valid (Demo.oneRule Demo.newRipper) (1 / 3) (by decide +kernel)
      (exact_leavesSome (by norm_num) (by norm_num)) (by decide +kernel) ⟨1, le_rfl, by decide +kernel⟩ h' 5 (by decide +kernel) (0 : Nat)⟩

end Witt
