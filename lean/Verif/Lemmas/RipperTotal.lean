import Verif.Lemmas.Ripper
/-
RIPPER: termination of every stage.
-/
namespace Witt
open Spec
variable [Arith] [Arith.Lawful]

variable {fuel : Nat} {R : PyRandom} {cn : CatNap} {hp : Hyper} {allPos allNeg : List Label}

omit [Arith.Lawful] in
theorem split_fst_le (hR : R.Lawful) {g g' : R.G} {l a b : List Label} {q : Rat} {rs : Option Int}
    (h : randomSplit R g l q rs = (a, b, g')) : a.length ≤ l.length := by
  have := randomSplit_length_le hR g l q rs
  rwa [h] at this

theorem grow_fuel {f f' : Nat} (hw : cn.WF) {lim : Limits} {pos neg : List Label} {init : List Cond}
    (hf : neg.length < f) (hf' : neg.length < f') :
    growRuleCn f cn lim pos neg init = growRuleCn f' cn lim pos neg init := by
  have h2 := ruleCovers_length_le (cn := cn) (r := init) (s := neg)
  exact growRuleCn_stable hw (by omega) (by omega)

theorem grow_total (hw : cn.WF) {lim : Limits} {pos neg : List Label} {init : List Cond}
    (hf : neg.length < fuel) : ∃ r, growRuleCn fuel cn lim pos neg init = .ok r := by
  have h2 := ruleCovers_length_le (cn := cn) (r := init) (s := neg)
  obtain ⟨r, hr, _⟩ := growRuleCn_total (fuel := fuel) hw (lim := lim) (pos := pos) (neg := neg) (init := init)
    (by omega)
  exact ⟨r, hr⟩

/-! ### the outcome does not depend on the fuel -/

theorem ripperStepCn_fuel {f f' : Nat} (hR : R.Lawful) (hw : cn.WF) {st : RipSt R} (hf : st.neg.length < f)
    (hf' : st.neg.length < f') :
    ripperStepCn f R cn hp allPos allNeg st = ripperStepCn f' R cn hp allPos allNeg st := by
  unfold ripperStepCn
  cases hps : hp.pruneSize with
  | none => rfl
  | some ps =>
    rcases hp1 : randomSplit R st.g st.pos (Arith.complement ps) hp.randomState with ⟨a, b, g1⟩
    rcases hp2 : randomSplit R g1 st.neg (Arith.complement ps) hp.randomState with ⟨c, d, g2⟩
    have h1 := split_fst_le hR hp2
    simp only [hp1, hp2, grow_fuel (f := f) (f' := f') hw (lim := hp.lim) (pos := a) (neg := c) (init := [])
      (by omega) (by omega)]

theorem ripperGrowCn_fuel {f f' : Nat} (hR : R.Lawful) (hw : cn.WF) {init : List (List Cond)}
    {pos neg : List Label} {g : R.G} (hsub : ∀ l ∈ pos, l ∈ cn.all)
    (hf : pos.length < f ∧ neg.length < f) (hf' : pos.length < f' ∧ neg.length < f') :
    ripperGrowCn f R cn hp init pos neg g = ripperGrowCn f' R cn hp init pos neg g := by
  unfold ripperGrowCn
  refine pyWhile_stable
    (I := fun s : RipSt R => (∀ l ∈ s.pos, l ∈ cn.all) ∧ s.neg.length ≤ neg.length)
    (m := fun s => s.pos.length) ?_ ?_ f f' _ ⟨hsub, le_refl _⟩ hf.1 hf'.1
  · intro s s' hI hb
    obtain ⟨rule, ha⟩ := ripperStepCn_more hb
    refine ⟨⟨fun l hl => hI.1 l (ha.pos_sub l hl), ?_⟩, ha.pos_lt hR hw hI.1⟩
    exact le_trans ha.neg_sub.length_le hI.2
  · intro s hI
    have := hI.2
    exact ripperStepCn_fuel hR hw (by omega) (by omega)

theorem optimizeChoice_fuel {f f' : Nat} (hw : cn.WF) {original : List (List Cond)} {odl : Rat} {i : Nat}
    {rule : List Cond} {a b c d : List Label} (hf : c.length < f) (hf' : c.length < f') :
    optimizeChoice f cn hp original odl i rule allPos allNeg a b c d =
      optimizeChoice f' cn hp original odl i rule allPos allNeg a b c d := by
  unfold optimizeChoice
  simp only [fun lim init => grow_fuel (f := f) (f' := f') (cn := cn) hw (lim := lim) (pos := a) (neg := c)
    (init := init) hf hf']

theorem optimizeLoop_fuel {f f' : Nat} (hR : R.Lawful) (hw : cn.WF) {ps : Rat} {rs : Option Int}
    {original : List (List Cond)} {odl : Rat} :
    ∀ (rest : List (List Cond)) (i : Nat) (new : List (List Cond)) (pos neg : List Label) (g : R.G),
    neg.length < f → neg.length < f' →
    optimizeLoop f R cn hp ps rs original odl allPos allNeg i rest new pos neg g =
      optimizeLoop f' R cn hp ps rs original odl allPos allNeg i rest new pos neg g := by
  intro rest
  induction rest with
  | nil => intros; rfl
  | cons rule rest ih =>
    intro i new pos neg g hf hf'
    rw [optimizeLoop, optimizeLoop]
    rcases hp1 : randomSplit R g pos (Arith.complement ps) rs with ⟨a, b, g1⟩
    rcases hp2 : randomSplit R g1 neg (Arith.complement ps) rs with ⟨c, d, g2⟩
    have h1 := split_fst_le hR hp2
    have hl : (setDiff neg (cn.ruleCovers rule (some neg))).length ≤ neg.length := List.length_filter_le _ _
    simp only [hp1, hp2, rmRuleCoversCn, optimizeChoice_fuel (f := f) (f' := f') hw (hp := hp) (original := original)
      (odl := odl) (i := i) (rule := rule) (allPos := allPos) (allNeg := allNeg) (a := a) (b := b) (c := c)
      (d := d) (by omega) (by omega),
      fun new pos g => ih (i + 1) new pos (setDiff neg (cn.ruleCovers rule (some neg))) g (by omega) (by omega)]

theorem optimizeCn_fuel {f f' : Nat} (hR : R.Lawful) (hw : cn.WF) {rs : Option Int}
    {rules : List (List Cond)} {g : R.G} (hf : allNeg.length < f) (hf' : allNeg.length < f') :
    optimizeCn f R cn hp rs rules allPos allNeg g = optimizeCn f' R cn hp rs rules allPos allNeg g := by
  unfold optimizeCn
  congr 1
  funext x
  obtain ⟨mdl, odl⟩ := x
  simp only
  split
  · rfl
  · exact optimizeLoop_fuel hR hw _ _ _ _ _ _ hf hf'

theorem stage2_fuel {f f' : Nat} (hR : R.Lawful) (hw : cn.WF) (hf : allNeg.length < f)
    (hf' : allNeg.length < f') : ∀ (n : Nat) (rules : List (List Cond)) (g : R.G),
    stage2 f R cn hp allPos allNeg n rules g = stage2 f' R cn hp allPos allNeg n rules g := by
  intro n
  induction n with
  | zero => intros; rfl
  | succ n ih =>
    intro rules g
    rw [stage2, stage2, optimizeCn_fuel hR hw hf hf']
    simp only [ih]

theorem coverRemainingCn_fuel {f f' : Nat} (hR : R.Lawful) (hw : cn.WF) {rules : List (List Cond)}
    {pos neg : List Label} {g : R.G} (hsub : ∀ l ∈ pos, l ∈ cn.all)
    (hf : pos.length < f ∧ neg.length < f) (hf' : pos.length < f' ∧ neg.length < f') :
    coverRemainingCn f R cn hp rules pos neg g = coverRemainingCn f' R cn hp rules pos neg g := by
  unfold coverRemainingCn
  rw [ripperGrowCn_fuel hR hw hsub hf hf']

theorem ripperStages_fuel {f f' : Nat} (hR : R.Lawful) (hw : cn.WF) {init : List (List Cond)}
    {pos neg : List Label} {g : R.G} (hsub : ∀ l ∈ pos, l ∈ cn.all)
    (hf : pos.length < f ∧ neg.length < f) (hf' : pos.length < f' ∧ neg.length < f') :
    ripperStages f R cn hp init pos neg g = ripperStages f' R cn hp init pos neg g := by
  unfold ripperStages
  rw [ripperGrowCn_fuel hR hw hsub hf hf']
  simp only [fun n rules g => stage2_fuel (allPos := pos) (hp := hp) hR hw hf.2 hf'.2 n rules g,
    fun rules g => coverRemainingCn_fuel (hp := hp) (rules := rules) (g := g) hR hw hsub hf hf']

/-! ### no stage diverges -/

/-- Not a divergence. -/
def NoDiv {α : Type} (x : Except PyErr α) : Prop := x ≠ .error .diverged

omit [Arith] [Arith.Lawful] in
theorem NoDiv.ok {α : Type} (a : α) : NoDiv (.ok a : Except PyErr α) := by simp [NoDiv]

omit [Arith] [Arith.Lawful] in
theorem NoDiv.pure {α : Type} (a : α) : NoDiv (pure a : Except PyErr α) := by simp [NoDiv]

omit [Arith] [Arith.Lawful] in
theorem NoDiv.bind {α β : Type} {x : Except PyErr α} {f : α → Except PyErr β} (hx : NoDiv x)
    (hf : ∀ a, x = .ok a → NoDiv (f a)) : NoDiv (x >>= f) := by
  cases x with
  | error e => simpa [NoDiv, error_bind] using hx
  | ok a => exact hf a rfl

omit [Arith.Lawful] in
theorem ruleTheory_noDiv (n k : Nat) : NoDiv (ruleTheory n k) := by
  unfold ruleTheory NoDiv
  simp only
  split
  · simp
  · split
    · simp
    · split <;> simp

omit [Arith.Lawful] in
theorem theorySum_noDiv (n : Nat) : ∀ rs t, NoDiv (theorySum n t rs)
  | [], _ => .pure _
  | r :: rs, t => by
    rw [theorySum]
    exact (ruleTheory_noDiv _ _).bind fun _ _ => theorySum_noDiv n rs _

omit [Arith.Lawful] in
theorem rsTheory_noDiv (n : Nat) (rs : List (List Cond)) : NoDiv (rsTheory n rs) := theorySum_noDiv n rs _

omit [Arith.Lawful] in
theorem log2Exp_noDiv (x : Int) : NoDiv (log2Exp x) := by
  unfold log2Exp NoDiv
  split <;> simp

omit [Arith.Lawful] in
theorem exceptionsCn_noDiv (rs : List (List Cond)) (pos neg : List Label) :
    NoDiv (exceptionsCn cn rs pos neg) := by
  unfold exceptionsCn
  exact (log2Exp_noDiv _).bind fun _ _ => (log2Exp_noDiv _).bind fun _ _ => .pure _

omit [Arith.Lawful] in
theorem totalBitsCn_noDiv (rs : List (List Cond)) (pos neg : List Label) :
    NoDiv (totalBitsCn cn rs pos neg) := by
  unfold totalBitsCn
  exact (rsTheory_noDiv _ _).bind fun _ _ => (exceptionsCn_noDiv _ _ _).bind fun _ _ => .pure _

omit [Arith.Lawful] in
theorem subsetDls_noDiv (pos neg : List Label) : ∀ (rules : List (List Cond)) (t : Rat) (done : List (List Cond)),
    NoDiv (subsetDls cn pos neg t done rules) := by
  intro rules
  induction rules with
  | nil => intros; exact .ok _
  | cons r rs ih =>
    intro t done
    rw [subsetDls]
    exact (ruleTheory_noDiv _ _).bind fun _ _ => (exceptionsCn_noDiv _ _ _).bind fun _ _ =>
      (ih _ _).bind fun _ _ => .pure _

omit [Arith.Lawful] in
theorem bestSubsetCn_noDiv (rs : List (List Cond)) (pos neg : List Label) :
    NoDiv (bestSubsetCn cn rs pos neg) := by
  unfold bestSubsetCn
  exact (subsetDls_noDiv _ _ _ _ _).bind fun _ _ => (totalBitsCn_noDiv _ _ _).bind fun _ _ => .pure _

theorem ripperStepCn_noDiv (hR : R.Lawful) (hw : cn.WF) {st : RipSt R} (hf : st.neg.length < fuel) :
    NoDiv (ripperStepCn fuel R cn hp allPos allNeg st) := by
  unfold ripperStepCn
  split
  · exact .pure _
  split
  · exact .pure _
  cases hps : hp.pruneSize with
  | none => simp [NoDiv]
  | some ps =>
    rcases hp1 : randomSplit R st.g st.pos (Arith.complement ps) hp.randomState with ⟨a, b, g1⟩
    rcases hp2 : randomSplit R g1 st.neg (Arith.complement ps) hp.randomState with ⟨c, d, g2⟩
    have h1 := split_fst_le hR hp2
    obtain ⟨r, hr⟩ := grow_total (fuel := fuel) hw (lim := hp.lim) (pos := a) (neg := c) (init := []) (by omega)
    simp only [hp1, hp2, hr, ok_bind]
    split
    · exact .pure _
    split
    · exact .pure _
    change NoDiv (ripPrune cn ps b d r >>= _)
    obtain ⟨p, hpr⟩ := ripPrune_total (cn := cn) ps b d r
    rw [hpr, ok_bind]
    exact (ruleTheory_noDiv _ _).bind fun _ _ => (exceptionsCn_noDiv _ _ _).bind fun _ _ => .pure _

theorem ripperGrowCn_noDiv (hR : R.Lawful) (hw : cn.WF) {init : List (List Cond)}
    {pos neg : List Label} {g : R.G} (hsub : ∀ l ∈ pos, l ∈ cn.all)
    (hf : pos.length < fuel ∧ neg.length < fuel) : NoDiv (ripperGrowCn fuel R cn hp init pos neg g) := by
  unfold ripperGrowCn
  refine pyWhile_ne_error
    (I := fun s : RipSt R => (∀ l ∈ s.pos, l ∈ cn.all) ∧ s.neg.length ≤ neg.length)
    (m := fun s => s.pos.length) ?_ ?_ fuel _ ⟨hsub, le_refl _⟩ hf.1
  · intro s s' hI hb
    obtain ⟨rule, ha⟩ := ripperStepCn_more hb
    refine ⟨⟨fun l hl => hI.1 l (ha.pos_sub l hl), ?_⟩, ha.pos_lt hR hw hI.1⟩
    exact le_trans ha.neg_sub.length_le hI.2
  · intro s hI
    have := hI.2
    exact ripperStepCn_noDiv hR hw (by omega)

omit [Arith] [Arith.Lawful] in
theorem pruneLoopRs_noDiv {metric : List Cond → Except PyErr (Option Rat)} (hm : ∀ r, NoDiv (metric r))
    (rule : List Cond) : ∀ n best, NoDiv (pruneLoopRs metric rule n best) := by
  intro n
  induction n with
  | zero =>
    intro best
    rw [pruneLoopRs]
    split
    · exact .ok _
    · simp [NoDiv]
  | succ n ih =>
    intro best
    rw [pruneLoopRs]
    refine (hm _).bind fun o _ => ?_
    split
    · exact .pure _
    · exact ih _

omit [Arith] [Arith.Lawful] in
theorem pruneRuleOn_noDiv {metric : List Cond → Except PyErr (Option Rat)} (hm : ∀ r, NoDiv (metric r))
    (rule : List Cond) (rules : List (List Cond)) (i : Nat) : NoDiv (pruneRuleOn metric rule rules i) := by
  unfold pruneRuleOn
  split
  · exact .ok _
  split
  · simp [NoDiv]
  · split
    · simp [NoDiv]
    · exact pruneLoopRs_noDiv hm _ _ _

omit [Arith.Lawful] in
theorem ripperOptMetricCn_noDiv (b d : List Label) (r : List Cond) : NoDiv (ripperOptMetricCn cn b d r) := by
  unfold ripperOptMetricCn NoDiv
  simp only
  split <;> simp

theorem optimizeChoice_noDiv (hw : cn.WF) {original : List (List Cond)} {odl : Rat} {i : Nat}
    {rule : List Cond} {a b c d : List Label} (hf : c.length < fuel) :
    NoDiv (optimizeChoice fuel cn hp original odl i rule allPos allNeg a b c d) := by
  unfold optimizeChoice
  have hg : ∀ lim init, NoDiv (growRuleCn fuel cn lim a c init) := by
    intro lim init
    obtain ⟨r, hr⟩ := grow_total (fuel := fuel) hw (lim := lim) (pos := a) (neg := c) (init := init) hf
    rw [hr]; exact .ok _
  refine (hg _ _).bind fun _ _ => (pruneRuleOn_noDiv (ripperOptMetricCn_noDiv _ _) _ _ _).bind fun _ _ =>
    (hg _ _).bind fun _ _ => (pruneRuleOn_noDiv (ripperOptMetricCn_noDiv _ _) _ _ _).bind fun _ _ => ?_
  refine NoDiv.bind ?_ fun _ _ => NoDiv.bind ?_ fun _ _ => NoDiv.bind ?_ fun _ _ => ?_
  · split
    · exact .ok _
    · exact totalBitsCn_noDiv _ _ _
  · split
    · exact .ok _
    · exact totalBitsCn_noDiv _ _ _
  · simp [argmin, NoDiv]
  · split
    · exact .pure _
    · split
      · exact .pure _
      · simp [NoDiv]
    · split
      · exact .pure _
      · simp [NoDiv]

theorem optimizeLoop_noDiv (hR : R.Lawful) (hw : cn.WF) {ps : Rat} {rs : Option Int}
    {original : List (List Cond)} {odl : Rat} :
    ∀ (rest : List (List Cond)) (i : Nat) (new : List (List Cond)) (pos neg : List Label) (g : R.G),
    neg.length < fuel →
    NoDiv (optimizeLoop fuel R cn hp ps rs original odl allPos allNeg i rest new pos neg g) := by
  intro rest
  induction rest with
  | nil => intros; exact .ok _
  | cons rule rest ih =>
    intro i new pos neg g hf
    rw [optimizeLoop]
    rcases hp1 : randomSplit R g pos (Arith.complement ps) rs with ⟨a, b, g1⟩
    rcases hp2 : randomSplit R g1 neg (Arith.complement ps) rs with ⟨c, d, g2⟩
    have h1 := split_fst_le hR hp2
    have hl : (setDiff neg (cn.ruleCovers rule (some neg))).length ≤ neg.length := List.length_filter_le _ _
    simp only [hp1, hp2]
    split
    · exact .pure _
    split
    · exact .pure _
    refine (optimizeChoice_noDiv hw (by omega)).bind fun _ _ => ?_
    split
    · exact .pure _
    · exact ih _ _ _ _ _ (by simp only [rmRuleCoversCn]; omega)

theorem optimizeCn_noDiv (hR : R.Lawful) (hw : cn.WF) {rs : Option Int}
    {rules : List (List Cond)} {g : R.G} (hf : allNeg.length < fuel) :
    NoDiv (optimizeCn fuel R cn hp rs rules allPos allNeg g) := by
  unfold optimizeCn
  refine (bestSubsetCn_noDiv _ _ _).bind fun _ _ => ?_
  simp only
  split
  · split
    · exact .pure _
    · simp [NoDiv]
  · exact optimizeLoop_noDiv hR hw _ _ _ _ _ _ hf

theorem stage2_noDiv (hR : R.Lawful) (hw : cn.WF) (hf : allNeg.length < fuel) :
    ∀ (n : Nat) (rules : List (List Cond)) (g : R.G), NoDiv (stage2 fuel R cn hp allPos allNeg n rules g) := by
  intro n
  induction n with
  | zero => intros; exact .ok _
  | succ n ih =>
    intro rules g
    rw [stage2]
    refine (optimizeCn_noDiv hR hw hf).bind fun _ _ => ?_
    simp only
    split
    · exact .pure _
    · exact ih _ _

theorem ripperStages_noDiv (hR : R.Lawful) (hw : cn.WF) {init : List (List Cond)}
    {pos neg : List Label} {g : R.G} (hsub : ∀ l ∈ pos, l ∈ cn.all)
    (hf : pos.length < fuel ∧ neg.length < fuel) : NoDiv (ripperStages fuel R cn hp init pos neg g) := by
  unfold ripperStages
  refine (ripperGrowCn_noDiv hR hw hsub hf).bind fun _ _ => (stage2_noDiv hR hw hf.2 _ _ _).bind fun _ _ =>
    NoDiv.bind ?_ fun _ _ => (bestSubsetCn_noDiv _ _ _).bind fun _ _ => .pure _
  unfold coverRemainingCn
  split
  · exact (ripperGrowCn_noDiv hR hw hsub hf).bind fun _ _ => .pure _
  · exact .pure _

end Witt
